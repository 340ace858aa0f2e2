import Verif.Lemmas.Hello
import Verif.Props.Ws2812
/-! C99: the programs of the example firmware that do not use the network. -/

namespace PRpc.Props

open PRpc PRpc.Spec

/-- The tasks of `hello-03` take turns: seven rounds of the LEDs; button 1 pressed, held and released, then button 8; the
potentiometer turned. -/
def exHelloRun : List HelloLabel :=
  [.led, .button (fun _ => true), .pot_first (some 100#16), .led, .button (fun p => p != 0), .accel (some ⟨1#16, 2#16, 3#16⟩),
   .pot (some 164#16), .button (fun p => p != 0), .led, .pot (some 165#16), .button (fun _ => true), .pot (some 101#16), .led,
   .pot (some 100#16), .button (fun p => p != 21), .led, .led, .accel (some ⟨4#16, 5#16, 6#16⟩), .led]

/-- What they show and log. -/
theorem exHelloRun_result : (hello_run ⟨0#8, 128#8, 0#8⟩ exHelloRun Hello.new).map (fun s => (s.log, s.writes.length, s.halted, s.writes[6]?)) =
    some ([.buttons [true, false, false, false, false, false, false, false], .accelerometer ⟨1#16, 2#16, 3#16⟩, .potentiometer 165#16,
      .buttons [false, false, false, false, false, false, false, false], .potentiometer 100#16,
      .buttons [false, false, false, false, false, false, false, true], .accelerometer ⟨4#16, 5#16, 6#16⟩], 7, false,
      some (List.replicate 6 ⟨0#8, 0#8, 0#8⟩ ++ List.replicate 4 ⟨0#8, 8#8, 0#8⟩ ++ List.replicate 14 ⟨0#8, 0#8, 0#8⟩)) := by
  decide +kernel

/-- C99: every round of the LED task writes 24 colours: four LEDs in a row, going round, from the position the number of the round
gives, have a sixteenth of the colour, and all others are dark. -/
theorem c99_leds (color : Rgb8) {ls : List HelloLabel} {s : Hello} (h : hello_run color ls Hello.new = some s) :
    s.writes.length = ledRounds ls ∧ ∀ (k : Nat) cs, s.writes[k]? = some cs → cs.length = 24 ∧
      ∀ p < 24, (Lit k p → cs[p]? = some ⟨color.r / 16, color.g / 16, color.b / 16⟩) ∧ (¬ Lit k p → cs[p]? = some ⟨0, 0, 0⟩) := by
  have inv := hello_inv (helloInv_new color) h
  refine ⟨inv.writes, fun k cs hk => ?_⟩
  obtain ⟨cs', e1, e2, e3⟩ := led_colors_ok color (Nat.mod_lt k (by decide : 0 < 24))
  have e := inv.each k cs hk
  rw [e1] at e
  cases e
  simp only [lit_mod] at e3
  exact ⟨e2, e3⟩

example : ∃ s, hello_run ⟨0#8, 128#8, 0#8⟩ exHelloRun Hello.new = some s ∧ s.writes.length = 7 ∧ Lit 6 9 ∧ ¬ Lit 6 10 ∧ Lit 23 2 := by
  obtain ⟨s, e1, e2⟩ := Option.map_eq_some_iff.mp exHelloRun_result
  simp only [Prod.mk.injEq] at e2
  exact ⟨s, e1, e2.2.1, by unfold Lit; decide, by unfold Lit; decide, by unfold Lit; decide⟩

/-- C99: the pattern goes all round: of any 24 rounds in a row, each LED is lit in four. -/
theorem c99_goes_round (k p : Nat) (hp : p < 24) :
    ∃ js : List Nat, js.Nodup ∧ js.length = 4 ∧ ∀ j, j ∈ js ↔ k ≤ j ∧ j < k + 24 ∧ Lit j p := by
  have key : ∀ r < 24, ∀ p < 24, ∃ js : List Nat, js ∈ [(List.range 24).filter fun d => decide (∃ e < 4, p = (r + d + e) % 24)] ∧ js.length = 4 := by
    decide +kernel
  obtain ⟨js, h1, h2⟩ := key (k % 24) (Nat.mod_lt _ (by decide)) p hp
  rw [List.mem_singleton] at h1
  have hiff : ∀ d, d ∈ js ↔ d < 24 ∧ Lit (k + d) p := by
    intro d
    rw [h1, List.mem_filter, List.mem_range, decide_eq_true_iff]
    have e : ∀ e, (k % 24 + d + e) % 24 = (k + d + e) % 24 := fun e => by omega
    simp only [e]; rfl
  have hnd : js.Nodup := h1 ▸ List.Nodup.sublist List.filter_sublist List.nodup_range
  refine ⟨js.map (k + ·), ?_, by rw [List.length_map]; exact h2, fun j => ?_⟩
  · rw [List.nodup_iff_pairwise_ne] at hnd ⊢
    exact hnd.map _ fun a b hab e => hab (by omega)
  · rw [List.mem_map]
    constructor
    · rintro ⟨d, hd, rfl⟩
      obtain ⟨g1, g2⟩ := (hiff d).mp hd
      exact ⟨by omega, by omega, g2⟩
    · rintro ⟨g1, g2, g3⟩
      refine ⟨j - k, (hiff _).mpr ⟨by omega, ?_⟩, by omega⟩
      rw [show k + (j - k) = j by omega]; exact g3

example : ∃ js : List Nat, js.Nodup ∧ js.length = 4 ∧ ∀ j, j ∈ js ↔ 100 ≤ j ∧ j < 124 ∧ Lit j 5 := c99_goes_round 100 5 (by decide)

/-- C99: and it is what the LEDs show, if the rounds are 770 µs apart (the ticker is set to 100 ms): cycle by cycle of the line to
the LEDs, after any number of rounds, the strip shows the last pattern written. -/
theorem c99_leds_shown (color : Rgb8) {ls : List HelloLabel} {s : Hello} (h : hello_run color ls Hello.new = some s)
    (gaps : List Nat) (hg : gaps.length = s.writes.length) (hw : ∀ g ∈ gaps, 6160 ≤ g) {cs : List Rgb8} (hc : s.writes.getLast? = some cs)
    (st : Strip) (hq : st.Quiet) (hl : st.leds.length = 24) :
    ∃ levels d, ws_run (wsCalls (s.writes.zip gaps)) Ws.new = some (levels, d) ∧ (st.watches levels).Shows cs := by
  obtain ⟨xs, hx⟩ := List.getLast?_eq_some_iff.mp hc
  have hlen : ∀ w ∈ s.writes, w.length = 24 := fun w hw => by
    obtain ⟨k, hk⟩ := List.mem_iff_getElem?.mp hw
    exact ((c99_leds color h).2 k w hk).1
  rcases List.eq_nil_or_concat gaps with hn | ⟨ys, g, hy⟩
  · rw [hn, hx] at hg; simp at hg
  · have hyx : xs.length = ys.length := by rw [hy, hx] at hg; simpa using hg.symm
    have e : s.writes.zip gaps = xs.zip ys ++ [(cs, g)] := by rw [hx, hy, List.concat_eq_append, List.zip_append hyx]; rfl
    rw [e]
    refine c87_shown_partial 24 (by decide) (xs.zip ys) cs g (fun w hm => ?_) st hq hl
    rw [← e] at hm
    obtain ⟨a, b⟩ := w
    exact ⟨hlen a (List.of_mem_zip hm).1, hw b (List.of_mem_zip hm).2⟩

example : ∃ s cs, hello_run ⟨0#8, 128#8, 0#8⟩ exHelloRun Hello.new = some s ∧ (List.replicate 7 800000).length = s.writes.length ∧
    s.writes.getLast? = some cs ∧ (Strip.mk false 7 [] (List.replicate 24 (bits8 1))).Quiet := by
  obtain ⟨s, e1, e2⟩ := Option.map_eq_some_iff.mp exHelloRun_result
  simp only [Prod.mk.injEq] at e2
  obtain ⟨_, e3, _, e4⟩ := e2
  have e5 := e4
  rw [← show s.writes.getLast? = s.writes[6]? by rw [List.getLast?_eq_getElem?, e3]] at e5
  exact ⟨s, _, e1, by rw [e3]; rfl, e5, ⟨rfl, rfl⟩⟩

/-- C99: a button is shown as pressed exactly if its pin, as in the table of the board, is low. -/
theorem c99_pressed (high : Nat → Bool) : (read_all high).length = 8 ∧
    ∀ n pin, buttonPin n = some pin → (read_all high)[n - 1]? = some (!high pin) := by
  refine ⟨rfl, fun n pin h => ?_⟩
  match n, h with
  | 0, h => cases h
  | 1, h | 2, h | 3, h | 4, h | 5, h | 6, h | 7, h | 8, h => cases h; rfl
  | _ + 9, h => cases h

example : read_all (fun p => p != 18) = [false, false, false, false, true, false, false, false] ∧ buttonPin 5 = some 18 := by decide

/-- C99: what is logged of the buttons are the readings that differ from the one before, all being released at first.  So what was
logged last is what the buttons were at the last reading. -/
theorem c99_buttons (color : Rgb8) {ls : List HelloLabel} {s : Hello} (h : hello_run color ls Hello.new = some s) :
    buttonLog s.log = changed (List.replicate 8 false) ((buttonRounds ls).map read_all) ∧
    ((buttonLog s.log).getLast?).getD (List.replicate 8 false) = (((buttonRounds ls).map read_all).getLast?).getD (List.replicate 8 false) := by
  have inv := hello_inv (helloInv_new color) h
  refine ⟨inv.buttons, ?_⟩
  rw [inv.buttons]
  exact changed_last (List.replicate 8 false) ((buttonRounds ls).map read_all)

example : ∃ s, hello_run ⟨0#8, 128#8, 0#8⟩ exHelloRun Hello.new = some s ∧ (buttonLog s.log).length = 3 ∧ (buttonRounds exHelloRun).length = 5 := by
  obtain ⟨s, e1, e2⟩ := Option.map_eq_some_iff.mp exHelloRun_result
  simp only [Prod.mk.injEq] at e2
  exact ⟨s, e1, by rw [e2.1]; rfl, rfl⟩

/-- C99: what is logged of the potentiometer are some of its readings, each more than 64 from the one logged before (or the first
reading), and the last reading is never more than 64 from what was logged last.  As this holds at every moment, a reading is logged
exactly if it is more than 64 from the one logged last. -/
theorem c99_potentiometer (color : Rgb8) {ls : List HelloLabel} {s : Hello} (h : hello_run color ls Hello.new = some s) :
    (potFirst ls = none → potLog s.log = [] ∧ potRounds ls = []) ∧
    ∀ first, potFirst ls = some first →
      (potLog s.log).Sublist (potRounds ls) ∧
      (∀ (i : Nat) a b, (first :: potLog s.log)[i]? = some a → (first :: potLog s.log)[i + 1]? = some b → FarApart b a) ∧
      ∀ v, (potRounds ls).getLast? = some v → ¬ FarApart v (((potLog s.log).getLast?).getD first) := by
  have inv := hello_inv (helloInv_new color) h
  refine ⟨fun hn => inv.before (inv.first.mp hn), fun first hf => ⟨inv.among, inv.apart first hf, fun v hv => ?_⟩⟩
  refine inv.near v _ hv ?_
  rw [inv.pot first hf]
  cases (potLog s.log).getLast? <;> rfl

example : ∃ s, hello_run ⟨0#8, 128#8, 0#8⟩ exHelloRun Hello.new = some s ∧ potFirst exHelloRun = some 100#16 ∧ potLog s.log = [165#16, 100#16] ∧
    potRounds exHelloRun = [164#16, 165#16, 101#16, 100#16] := by
  obtain ⟨s, e1, e2⟩ := Option.map_eq_some_iff.mp exHelloRun_result
  simp only [Prod.mk.injEq] at e2
  exact ⟨s, e1, rfl, by rw [e2.1]; rfl, rfl⟩

/-- C99: every reading of the accelerometer is logged, in order. -/
theorem c99_accelerometer (color : Rgb8) {ls : List HelloLabel} {s : Hello} (h : hello_run color ls Hello.new = some s) :
    accelLog s.log = accelRounds ls :=
  (hello_inv (helloInv_new color) h).accel

example : ∃ s, hello_run ⟨0#8, 128#8, 0#8⟩ exHelloRun Hello.new = some s ∧ accelLog s.log = [⟨1#16, 2#16, 3#16⟩, ⟨4#16, 5#16, 6#16⟩] := by
  obtain ⟨s, e1, e2⟩ := Option.map_eq_some_iff.mp exHelloRun_result
  simp only [Prod.mk.injEq] at e2
  exact ⟨s, e1, by rw [e2.1]; rfl⟩

/-- C99: the program panics exactly when a sensor cannot be read; until then every task that has been started can go on. -/
theorem c99_panics_iff (color : Rgb8) {ls : List HelloLabel} {s : Hello} (h : hello_run color ls Hello.new = some s) :
    (s.halted = true ↔ ∃ l ∈ ls, ReadFails l) ∧
    ((∀ l ∈ ls, ¬ ReadFails l) → ∀ l, (∀ r, l = .pot r → potFirst ls ≠ none) → (∀ r, l = .pot_first r → potFirst ls = none) →
      ∃ t, hello_step color s l = some t) := by
  have inv := hello_inv (helloInv_new color) h
  refine ⟨inv.halted, fun hok l h1 h2 => ?_⟩
  have hh : s.halted = false := by
    cases e : s.halted with
    | false => rfl
    | true => obtain ⟨l, g1, g2⟩ := inv.halted.mp e; exact absurd g2 (hok l g1)
  unfold hello_step
  rw [hh]
  cases l with
  | pot r =>
    cases e : s.pot with
    | none => exact absurd (inv.first.mpr e) (h1 r rfl)
    | some v => exact ⟨_, rfl⟩
  | pot_first r => rw [inv.first.mp (h2 r rfl)]; exact ⟨_, rfl⟩
  | _ => exact ⟨_, rfl⟩

example : ∃ s, hello_run ⟨0#8, 128#8, 0#8⟩ (exHelloRun ++ [.pot none]) Hello.new = some s ∧ s.halted = true := by
  have h : (hello_run ⟨0#8, 128#8, 0#8⟩ (exHelloRun ++ [.pot none]) Hello.new).map (·.halted) = some true := by decide +kernel
  exact Option.map_eq_some_iff.mp h

/-- C99: the LEDs of a board that has not been programmed yet: all red, from dark to 32 of 255 and back in steps of one, and then as
they are for 33 ticks. -/
theorem c99_fade (n t : Nat) (h : t < n) :
    (fade_run n (.up 0))[t]? = some ((fadeAt t).map fun i => List.replicate 24 ⟨BitVec.ofNat 8 i, 0#8, 0#8⟩) ∧
    ∀ i, fadeAt t = some i → i ≤ 32 ∧ ∀ j, fadeAt (t + 1) = some j → j ≤ i + 1 ∧ i ≤ j + 1 := by
  refine ⟨?_, fun i hi => ?_⟩
  · have := fade_run_get n 0 t h
    rw [Nat.zero_add] at this
    exact this
  · unfold fadeAt at hi ⊢
    split at hi
    · cases hi
      refine ⟨by omega, fun j hj => ?_⟩
      split at hj
      · cases hj; omega
      · split at hj
        · cases hj; omega
        · cases hj
    · split at hi
      · cases hi
        refine ⟨by omega, fun j hj => ?_⟩
        split at hj
        · cases hj; omega
        · split at hj
          · cases hj; omega
          · cases hj
      · cases hi

example : (fade_run 200 (.up 0))[32]? = some (some (List.replicate 24 ⟨32#8, 0#8, 0#8⟩)) ∧ (fade_run 200 (.up 0))[70]? = some none ∧
    (fade_run 200 (.up 0))[100]? = some (some (List.replicate 24 ⟨1#8, 0#8, 0#8⟩)) := by decide +kernel

/-- C99: the identifier is the number the eight bytes of the flash write with the highest first; the program panics exactly if they
cannot be read. -/
theorem c99_unique_id (flash : Option (Vector Byte 8)) :
    (flash = none → get_unique_id flash = .panic) ∧
    ∀ id, flash = some id → ∃ v : BitVec 64, get_unique_id flash = .ok (some v) ∧ v.toNat = id.toList.foldl (fun k b => k * 256 + b.toNat) 0 := by
  refine ⟨fun h => by rw [h]; rfl, fun id h => ⟨_, by rw [h]; rfl, ?_⟩⟩
  have := be_fold id.toList 0#64 0 (by decide) (by simp)
  rw [← Vector.foldl_toList]
  exact this

example : get_unique_id (some #v[0xE4, 0x62, 0x90, 0x76, 0xD3, 0x22, 0x2C, 0x21]) = .ok (some 0xE4629076D3222C21#64) := by decide +kernel

end PRpc.Props
