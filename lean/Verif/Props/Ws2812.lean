import Verif.Lemmas.Ws2812
/-!
Property theorems C87: what the LEDs of the example firmware show.
-/

namespace PRpc.Props

open PRpc PRpc.Spec

/-- Calls of `write`, each followed by a number of cycles without one; the program loaded into the state machine has had one cycle
to start. -/
def wsCalls (writes : List (List Rgb8 × Nat)) : List (Option (List Rgb8)) :=
  none :: writes.flatMap fun w => some w.1 :: List.replicate w.2 none

theorem rests_new : ∃ s, ws_run [none] Ws.new = some ([false], s) ∧ Rests s :=
  ⟨_, rfl, rfl, rfl, rfl, rfl, rfl⟩

theorem ws_writes {n : Nat} (hn : 0 < n) (writes : List (List Rgb8 × Nat)) (hw : ∀ w ∈ writes, w.1.length = n ∧ 240 * n + 400 ≤ w.2)
    {s : Ws} (h : Rests s) {st : Strip} (hq : st.Quiet) (hl : st.leds.length = n) :
    ∃ ls s', ws_run (writes.flatMap fun w => some w.1 :: List.replicate w.2 none) s = some (ls, s') ∧ Rests s' ∧ (st.watches ls).Quiet ∧
      (st.watches ls).leds = (writes.getLast?.map fun w => w.1.map colourBits).getD st.leds := by
  induction writes generalizing s st with
  | nil => exact ⟨[], s, rfl, h, hq, rfl⟩
  | cons w ws ih =>
    obtain ⟨hw1, hw2⟩ := hw w (List.mem_cons_self ..)
    obtain ⟨ls, s1, e1, e2, e3, e4⟩ := ws_one h w.1 (fun e => by rw [e] at hw1; simp at hw1; omega) w.2 (by rw [hw1]; exact hw2) hq
      (hl.trans hw1.symm)
    have hl' : (st.watches ls).leds.length = n := by rw [e4, List.length_map, hw1]
    obtain ⟨ls', s2, f1, f2, f3, f4⟩ := ih (fun x hx => hw x (List.mem_cons_of_mem _ hx)) e2 e3 hl'
    refine ⟨ls ++ ls', s2, ?_, f2, ?_, ?_⟩
    · rw [List.flatMap_cons]
      exact ws_run_append _ _ e1 f1
    · rw [watches_append]; exact f3
    · rw [watches_append, f4, e4]
      cases ws with
      | nil => rfl
      | cons x xs =>
        rw [List.getLast?_cons_cons]
        cases hx : (x :: xs).getLast? with
        | none => simp at hx
        | some y => rfl

/-- C87, holds: if every call of `write` is followed by 30 µs for each LED and 50 µs more (eight cycles are a microsecond), the
strip shows in the end the colours of the last call, LED by LED, and all calls have returned in time for the next. -/
theorem c87_shown_partial (n : Nat) (hn : 0 < n) (before : List (List Rgb8 × Nat)) (cs : List Rgb8) (m : Nat)
    (hw : ∀ w ∈ before ++ [(cs, m)], w.1.length = n ∧ 240 * n + 400 ≤ w.2) (st : Strip) (hq : st.Quiet) (hl : st.leds.length = n) :
    ∃ ls s, ws_run (wsCalls (before ++ [(cs, m)])) Ws.new = some (ls, s) ∧ (st.watches ls).Shows cs := by
  obtain ⟨s0, e0, h0⟩ := rests_new
  obtain ⟨q1, q2⟩ := quiet_low 1 hq
  obtain ⟨ls, s, e1, _, _, e4⟩ := ws_writes hn _ hw h0 q1 (by rw [q2]; exact hl)
  refine ⟨[false] ++ ls, s, ws_run_append [none] _ e0 e1, ?_⟩
  rw [watches_append]
  unfold Strip.Shows
  exact e4.trans (by simp)

/-- Two LEDs, two calls 140 µs apart: green and blue, then red and white. -/
example : ∃ ls s, ws_run (wsCalls ([([⟨0, 255, 0⟩, ⟨0, 0, 255⟩], 1120)] ++ [([⟨255, 0, 0⟩, ⟨255, 255, 255⟩], 880)])) Ws.new = some (ls, s) ∧
    ((Strip.mk false 7 [] [bits8 1, bits8 2]).watches ls).Shows [⟨255, 0, 0⟩, ⟨255, 255, 255⟩] :=
  c87_shown_partial 2 (by decide) _ _ _ (fun w hw => by
    rcases List.mem_append.mp hw with h | h <;> rw [List.mem_singleton.mp h] <;> exact ⟨rfl, by decide⟩) _ ⟨rfl, rfl⟩ rfl

/-- The line itself: for one bit 1, three cycles low, then seven high; for one bit 0, three low and two high. -/
example : ((ws_run (wsCalls [([⟨0, 0x80, 0⟩], 30)]) Ws.new).map fun r => r.1) = some (
    [false] ++ [false, false, false, true, true, true, true, true, true, true] ++
    [false, false, false, true, true, false, false, false, false, false] ++
    [false, false, false, true, true, false, false, false, false, false, false]) := by decide +kernel

/-- C87, fails: a call that follows within that time, less 1.25 µs, has no effect, however long the line is quiet after it: the
strip goes on showing the colours of the call before it. -/
theorem c87_lost (n : Nat) (hn : 0 < n) (before : List (List Rgb8 × Nat)) (cs ds : List Rgb8) (k m : Nat)
    (hw : ∀ w ∈ before, w.1.length = n ∧ 240 * n + 400 ≤ w.2) (hc : cs.length = n) (hd : ds.length = n)
    (hk : k ≤ 240 * n + 390) (hm : 480 * n + 400 ≤ m) (ls : List Bool) (s : Ws)
    (hrun : ws_run (wsCalls (before ++ [(cs, k), (ds, m)])) Ws.new = some (ls, s)) (st : Strip) (hq : st.Quiet) (hl : st.leds.length = n) :
    (st.watches ls).Shows cs := by
  obtain ⟨s0, e0, h0⟩ := rests_new
  obtain ⟨q1, q2⟩ := quiet_low 1 hq
  obtain ⟨ls1, s1, e1, r1, e3, e4⟩ := ws_writes hn _ hw h0 q1 (by rw [q2]; exact hl)
  have hl1 : ((st.watches [false]).watches ls1).leds.length = n := by
    rw [show (st.watches [false]) = st.watches (List.replicate 1 false) from rfl, e4]
    cases hb : before.getLast? with
    | none =>
      show (st.watches (List.replicate 1 false)).leds.length = n
      rw [q2]; exact hl
    | some w => simpa using (hw w (List.mem_of_getLast? hb)).1
  have e5 := ws_run_append [none] _ e0 e1
  rw [show wsCalls (before ++ [(cs, k), (ds, m)]) = ([none] ++ before.flatMap fun w => some w.1 :: List.replicate w.2 none) ++
      (some cs :: (List.replicate k none ++ some ds :: List.replicate m none)) by
    simp [wsCalls]] at hrun
  obtain ⟨la, sa, lb, f1, f2, f3⟩ := ws_run_split _ _ hrun
  rw [e5] at f1
  obtain ⟨rfl, rfl⟩ := Prod.mk.inj (Option.some.inj f1)
  subst f3
  rw [watches_append, watches_append]
  exact (ws_two r1 cs ds (fun e => by rw [e] at hc; simp at hc; omega) (hd.trans hc.symm) k m (by rw [hc]; exact hk) (by rw [hc]; exact hm)
    f2 e3 (hl1.trans hc.symm)).2

/-- One LED: the second call comes 30 µs after the first has returned, 86 µs after it was made. -/
example (ls : List Bool) (s : Ws) (h : ws_run (wsCalls ([] ++ [([⟨0, 0, 0⟩], 630), ([⟨255, 0, 0⟩], 880)])) Ws.new = some (ls, s)) :
    ((Strip.mk false 7 [] [bits8 1]).watches ls).Shows [⟨0, 0, 0⟩] :=
  c87_lost 1 (by decide) [] _ _ _ _ (fun w hw => by cases hw) rfl rfl (by decide) (by decide) ls s h _ ⟨rfl, rfl⟩ rfl

/-- `write` returns much earlier, so that calls that close together are possible: with nine or more LEDs, at least 184 µs before all
bits are sent. -/
theorem c87_returns (n : Nat) (hn : 9 ≤ n) (cs ds : List Rgb8) (hc : cs.length = n) (m : Nat) :
    ∃ ls s, ws_run (wsCalls [(cs, 240 * n - 1479), (ds, m)]) Ws.new = some (ls, s) := by
  obtain ⟨s0, e0, h0⟩ := rests_new
  obtain ⟨ls, s1, e1, e2⟩ := ws_returns h0 cs (fun e => by rw [e] at hc; simp at hc; omega) (240 * n - 1479) (by omega) (by rw [hc]; omega)
  obtain ⟨pio, drv⟩ := s1
  simp only at e2
  subst e2
  obtain ⟨ls', s2, e3⟩ := ws_nones m ⟨{ pio with queue := pio.queue ++ ds.map ws_word }.cycle,
    ws_drv { pio with queue := pio.queue ++ ds.map ws_word }.cycle.queue.length .pushing⟩
  have e4 : ws_step ⟨pio, .idle⟩ (some ds) = some ⟨{ pio with queue := pio.queue ++ ds.map ws_word }.cycle,
    ws_drv { pio with queue := pio.queue ++ ds.map ws_word }.cycle.queue.length .pushing⟩ := rfl
  refine ⟨[false] ++ (ls ++ (({ pio with queue := pio.queue ++ ds.map ws_word } : Pio).cycle.pin :: ls')), s2, ?_⟩
  rw [show wsCalls [(cs, 240 * n - 1479), (ds, m)] = [none] ++ ((some cs :: List.replicate (240 * n - 1479) none) ++
    (some ds :: List.replicate m none)) by simp [wsCalls]]
  exact ws_run_append _ _ e0 (ws_run_append _ _ e1 (by simp only [ws_run, e4, e3]))

example : ∃ ls s, ws_run (wsCalls [(List.replicate 24 ⟨0, 0, 0⟩, 4281), (List.replicate 24 ⟨255, 0, 0⟩, 9)]) Ws.new = some (ls, s) :=
  c87_returns 24 (by decide) _ _ rfl 9

/-- C87, the negation: the driver's own waiting is not enough.  With the 24 LEDs of the example, a second call made when the first has
returned is lost: the LEDs stay dark though the last call was for red. -/
theorem c87_not_shown : ∃ (cs ds : List Rgb8) (k : Nat), cs.length = 24 ∧ ds.length = 24 ∧ ∀ m, 480 * 24 + 400 ≤ m →
    ∃ ls s, ws_run (wsCalls [(cs, k), (ds, m)]) Ws.new = some (ls, s) ∧
    ∀ st : Strip, st.Quiet → st.leds.length = 24 → ¬ (st.watches ls).Shows ds := by
  refine ⟨List.replicate 24 ⟨0, 0, 0⟩, List.replicate 24 ⟨255, 0, 0⟩, 240 * 24 - 1479, rfl, rfl, fun m hm => ?_⟩
  obtain ⟨ls, s, h⟩ := c87_returns 24 (by decide) (List.replicate 24 ⟨0, 0, 0⟩) (List.replicate 24 ⟨255, 0, 0⟩) rfl m
  refine ⟨ls, s, h, fun st hq hl hs => ?_⟩
  have h2 := c87_lost 24 (by decide) [] (List.replicate 24 ⟨0, 0, 0⟩) (List.replicate 24 ⟨255, 0, 0⟩) (240 * 24 - 1479) m
    (fun w hw => by cases hw) rfl rfl (by decide) hm ls s h st hq hl
  have h3 : (List.replicate 24 (⟨0, 0, 0⟩ : Rgb8)).map colourBits = (List.replicate 24 (⟨255, 0, 0⟩ : Rgb8)).map colourBits :=
    h2.symm.trans hs
  exact absurd h3 (by decide)

/-- A cycle of the state machine is 125 ns at the system clock of 125 MHz, exactly. -/
theorem c87_cycle : clock_divider 125000 * 1000000 = 125 * (256 * 125000) ∧ CYCLES_PER_BIT = 10 := by decide

example : clock_divider 125000 = 4000 := by decide

end PRpc.Props
