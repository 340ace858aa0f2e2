import Verif.Spec.Hello
import Verif.Lemmas.Ws2812
/-! Helper lemmas for C99. -/

namespace PRpc

open Spec

theorem fold_set_get {α : Type} (v : α) (is : List Nat) (cs : List α) (p : Nat) :
    (is.foldl (fun cs i => cs.set i v) cs)[p]? = if p ∈ is ∧ p < cs.length then some v else cs[p]? := by
  induction is generalizing cs with
  | nil => simp
  | cons i is ih =>
    rw [List.foldl_cons, ih, List.length_set, List.getElem?_set]
    by_cases h1 : p ∈ is <;> by_cases h2 : p < cs.length <;> by_cases h3 : i = p <;> simp_all <;> omega

theorem fold_set_length {α : Type} (v : α) (is : List Nat) (cs : List α) : (is.foldl (fun cs i => cs.set i v) cs).length = cs.length := by
  induction is generalizing cs with
  | nil => rfl
  | cons i is ih => rw [List.foldl_cons, ih, List.length_set]

/-- The four positions picked by the iterators. -/
theorem picked_iff : ∀ idx < 24, ∀ p < 24, (p ∈ (List.range' idx (24 - idx) ++ List.range idx).take 4) ↔ Lit idx p := by
  unfold Lit; decide +kernel

theorem lit_mod (k p : Nat) : Lit (k % 24) p ↔ Lit k p := by
  simp only [Lit, Nat.mod_add_mod]

theorem led_colors_ok (color : Rgb8) {idx : Nat} (h : idx < 24) : ∃ cs, led_colors color idx = .ok cs ∧ cs.length = 24 ∧
    ∀ p < 24, (Lit idx p → cs[p]? = some ⟨color.r / 16, color.g / 16, color.b / 16⟩) ∧ (¬ Lit idx p → cs[p]? = some ⟨0, 0, 0⟩) := by
  refine ⟨_, by unfold led_colors; rw [if_pos (by simp [NUM_SMARTLEDS]; omega)], by rw [fold_set_length]; rfl, fun p hp => ?_⟩
  have e : (List.replicate NUM_SMARTLEDS (⟨0#8, 0#8, 0#8⟩ : Rgb8)).length = 24 := rfl
  rw [fold_set_get, e]
  refine ⟨fun hl => by rw [if_pos ⟨(picked_iff idx h p hp).mpr hl, hp⟩], fun hl => ?_⟩
  rw [if_neg (fun x => hl ((picked_iff idx h p hp).mp x.1)), List.getElem?_replicate, if_pos (show p < NUM_SMARTLEDS from hp)]
  rfl

theorem changed_append {α : Type} [DecidableEq α] (prev : α) (rs : List α) (v : α) :
    changed prev (rs ++ [v]) = changed prev rs ++ (if v ≠ (rs.getLast?).getD prev then [v] else []) := by
  induction rs generalizing prev with
  | nil => by_cases h : v = prev <;> simp [changed, h]
  | cons r rs ih =>
    have e : ∀ xs, changed prev (r :: xs) = (if r ≠ prev then [r] else []) ++ changed r xs := by
      intro xs
      by_cases h : r = prev <;> simp [changed, h]
    rw [List.cons_append, e, e, ih, List.append_assoc]
    congr 3
    cases rs with
    | nil => rfl
    | cons x xs => rw [List.getLast?_cons_cons]; cases h : (x :: xs).getLast? with
      | none => simp at h
      | some y => rfl

theorem changed_last {α : Type} [DecidableEq α] (prev : α) (rs : List α) :
    ((changed prev rs).getLast?).getD prev = (rs.getLast?).getD prev := by
  rcases List.eq_nil_or_concat rs with hn | ⟨xs, v, hx⟩
  · rw [hn]; rfl
  · rw [hx, List.concat_eq_append, changed_append]
    by_cases h : v = (xs.getLast?).getD prev
    · rw [if_neg (by simpa using h), List.append_nil, changed_last prev xs]
      simp [← h]
    · rw [if_pos h]; simp
termination_by rs.length
decreasing_by simp [hx]

theorem farApart_iff (a b : BitVec 16) : abs_diff a b > 64 ↔ FarApart a b := by
  simp only [abs_diff, FarApart]
  split <;> omega

theorem buttonRounds_append (ls ms : List HelloLabel) : buttonRounds (ls ++ ms) = buttonRounds ls ++ buttonRounds ms := by
  induction ls with
  | nil => rfl
  | cons l ls ih => cases l <;> simp [buttonRounds, ih]

theorem accelRounds_append (ls ms : List HelloLabel) : accelRounds (ls ++ ms) = accelRounds ls ++ accelRounds ms := by
  induction ls with
  | nil => rfl
  | cons l ls ih =>
    cases l with
    | accel r => cases r <;> simp [accelRounds, ih]
    | _ => simp [accelRounds, ih]

theorem potRounds_append (ls ms : List HelloLabel) : potRounds (ls ++ ms) = potRounds ls ++ potRounds ms := by
  induction ls with
  | nil => rfl
  | cons l ls ih =>
    cases l with
    | pot r => cases r <;> simp [potRounds, ih]
    | _ => simp [potRounds, ih]

theorem ledRounds_append (ls ms : List HelloLabel) : ledRounds (ls ++ ms) = ledRounds ls + ledRounds ms := by
  induction ls with
  | nil => simp [ledRounds]
  | cons l ls ih => cases l <;> simp [ledRounds, ih] <;> omega

theorem potFirst_append (ls ms : List HelloLabel) : potFirst (ls ++ ms) = (potFirst ls).or (potFirst ms) := by
  induction ls with
  | nil => rfl
  | cons l ls ih =>
    cases l with
    | pot_first r => cases r <;> simp [potFirst, ih]
    | _ => simp [potFirst, ih]

/-- What holds after any rounds. -/
structure HelloInv (color : Rgb8) (ls : List HelloLabel) (s : Hello) : Prop where
  halted : s.halted = true ↔ ∃ l ∈ ls, ReadFails l
  idx : s.idx = ledRounds ls % 24
  writes : s.writes.length = ledRounds ls
  each : ∀ (k : Nat) cs, s.writes[k]? = some cs → led_colors color (k % 24) = .ok cs
  last : s.last = (((buttonRounds ls).map read_all).getLast?).getD (List.replicate 8 false)
  buttons : buttonLog s.log = changed (List.replicate 8 false) ((buttonRounds ls).map read_all)
  first : potFirst ls = none ↔ s.pot = none
  before : s.pot = none → potLog s.log = [] ∧ potRounds ls = []
  pot : ∀ v, potFirst ls = some v → s.pot = ((potLog s.log).getLast?).or (some v)
  apart : ∀ v, potFirst ls = some v → ∀ (i : Nat) a b, (v :: potLog s.log)[i]? = some a → (v :: potLog s.log)[i + 1]? = some b → FarApart b a
  near : ∀ v w, (potRounds ls).getLast? = some v → s.pot = some w → ¬ FarApart v w
  among : (potLog s.log).Sublist (potRounds ls)
  accel : accelLog s.log = accelRounds ls

theorem helloInv_new (color : Rgb8) : HelloInv color [] Hello.new where
  halted := by simp [Hello.new]
  idx := rfl
  writes := rfl
  each := by simp [Hello.new]
  last := rfl
  buttons := rfl
  first := by simp [potFirst, Hello.new]
  before := fun _ => ⟨rfl, rfl⟩
  pot := by simp [potFirst]
  apart := by simp [potFirst]
  near := by simp [potRounds]
  among := List.Sublist.refl _
  accel := rfl

theorem led_inv {color : Rgb8} {ls : List HelloLabel} {s : Hello} (h : HelloInv color ls s) :
    HelloInv color (ls ++ [.led]) (hello_led color s) := by
  have hi : s.idx < 24 := by rw [h.idx]; exact Nat.mod_lt _ (by decide)
  obtain ⟨cs, e, _⟩ := led_colors_ok color hi
  have e1 : ledRounds (ls ++ [.led]) = ledRounds ls + 1 := ledRounds_append ls [.led]
  have e2 : buttonRounds (ls ++ [.led]) = buttonRounds ls := by rw [buttonRounds_append]; exact List.append_nil _
  have e3 : potRounds (ls ++ [.led]) = potRounds ls := by rw [potRounds_append]; exact List.append_nil _
  have e4 : accelRounds (ls ++ [.led]) = accelRounds ls := by rw [accelRounds_append]; exact List.append_nil _
  have e5 : potFirst (ls ++ [.led]) = potFirst ls := by rw [potFirst_append]; exact Option.or_none
  unfold hello_led
  rw [e]
  refine ⟨?_, ?_, ?_, ?_, by rw [e2]; exact h.last, by rw [e2]; exact h.buttons, by rw [e5]; exact h.first, by rw [e3]; exact h.before,
    by rw [e5]; exact h.pot, by rw [e5]; exact h.apart, by rw [e3]; exact h.near, by rw [e3]; exact h.among, by rw [e4]; exact h.accel⟩
  · refine h.halted.trans ⟨fun ⟨l, h1, h2⟩ => ⟨l, List.mem_append_left _ h1, h2⟩, fun ⟨l, h1, h2⟩ => ?_⟩
    rcases List.mem_append.mp h1 with h1 | h1
    · exact ⟨l, h1, h2⟩
    · rw [List.mem_singleton.mp h1] at h2
      rcases h2 with h2 | h2 | h2 <;> cases h2
  · rw [e1]
    show (if s.idx + 1 ≥ NUM_SMARTLEDS then 0 else s.idx + 1) = _
    have := h.idx
    rw [show NUM_SMARTLEDS = 24 from rfl]
    split <;> omega
  · rw [e1, ← h.writes]; exact List.length_append
  · intro k cs' hk
    by_cases hlt : k < s.writes.length
    · exact h.each k cs' (by rw [List.getElem?_append_left hlt] at hk; exact hk)
    · have hlen : k = s.writes.length := by
        have := (List.getElem?_eq_some_iff.mp hk).1
        simp at this; omega
      subst hlen
      rw [h.writes, ← h.idx, e]
      rw [List.getElem?_append_right (Nat.le_refl _)] at hk
      simpa using hk

/-- The program halts with a failed read. -/
theorem halted_append {ls : List HelloLabel} {l : HelloLabel} {b c : Bool} (h : b = true ↔ ∃ l ∈ ls, ReadFails l) (hb : b = false)
    (hc : c = true ↔ ReadFails l) : c = true ↔ ∃ m ∈ ls ++ [l], ReadFails m := by
  rw [hc]
  refine ⟨fun hf => ⟨l, List.mem_append_right _ (List.mem_singleton.mpr rfl), hf⟩, fun ⟨m, h1, h2⟩ => ?_⟩
  rcases List.mem_append.mp h1 with h1 | h1
  · rw [hb] at h; exact absurd (h.mpr ⟨m, h1, h2⟩) (by decide)
  · rw [List.mem_singleton.mp h1] at h2; exact h2

theorem button_inv {color : Rgb8} {ls : List HelloLabel} {s : Hello} {high : Nat → Bool} (h : HelloInv color ls s) (hh : s.halted = false) :
    HelloInv color (ls ++ [.button high]) (hello_button high s) := by
  have e1 : ledRounds (ls ++ [.button high]) = ledRounds ls := ledRounds_append ls [.button high]
  have e2 : buttonRounds (ls ++ [.button high]) = buttonRounds ls ++ [high] := buttonRounds_append ..
  have e3 : potRounds (ls ++ [.button high]) = potRounds ls := by rw [potRounds_append]; exact List.append_nil _
  have e4 : accelRounds (ls ++ [.button high]) = accelRounds ls := by rw [accelRounds_append]; exact List.append_nil _
  have e5 : potFirst (ls ++ [.button high]) = potFirst ls := by rw [potFirst_append]; exact Option.or_none
  have hf : s.halted = true ↔ ∃ m ∈ ls ++ [.button high], ReadFails m :=
    halted_append h.halted hh (by rw [hh]; simp [ReadFails])
  have hl : (((buttonRounds ls ++ [high]).map read_all).getLast?).getD (List.replicate 8 false) = read_all high := by simp
  have hc : changed (List.replicate 8 false) ((buttonRounds ls ++ [high]).map read_all) =
      changed (List.replicate 8 false) ((buttonRounds ls).map read_all) ++ (if read_all high ≠ s.last then [read_all high] else []) := by
    rw [List.map_append, List.map_singleton, changed_append, ← h.last]
  unfold hello_button
  by_cases hne : read_all high ≠ s.last
  · rw [if_pos hne]
    rw [if_pos hne] at hc
    have k1 : potLog (s.log ++ [.buttons (read_all high)]) = potLog s.log := by simp [potLog]
    have k2 : accelLog (s.log ++ [.buttons (read_all high)]) = accelLog s.log := by simp [accelLog]
    have k3 : buttonLog (s.log ++ [.buttons (read_all high)]) = buttonLog s.log ++ [read_all high] := by simp [buttonLog]
    exact ⟨hf, by rw [e1]; exact h.idx, by rw [e1]; exact h.writes, h.each, by rw [e2, hl],
      by rw [e2, hc]; show buttonLog (s.log ++ _) = _; rw [k3, h.buttons], by rw [e5]; exact h.first,
      by rw [e3]; show _ → potLog (s.log ++ _) = [] ∧ _; rw [k1]; exact h.before,
      by rw [e5]; show ∀ v, _ → _ = ((potLog (s.log ++ _)).getLast?).or _; rw [k1]; exact h.pot,
      by rw [e5]; show ∀ v, _ → ∀ (i : Nat) a b, (v :: potLog (s.log ++ _))[i]? = _ → (v :: potLog (s.log ++ _))[i + 1]? = _ → _; rw [k1]; exact h.apart,
      by rw [e3]; exact h.near, by rw [e3]; show (potLog (s.log ++ _)).Sublist _; rw [k1]; exact h.among,
      by rw [e4]; show accelLog (s.log ++ _) = _; rw [k2]; exact h.accel⟩
  · rw [if_neg hne]
    rw [if_neg hne, List.append_nil] at hc
    exact ⟨hf, by rw [e1]; exact h.idx, by rw [e1]; exact h.writes, h.each, by rw [e2, hl]; exact (Classical.not_not.mp hne).symm,
      by rw [e2, hc]; exact h.buttons, by rw [e5]; exact h.first, by rw [e3]; exact h.before, by rw [e5]; exact h.pot,
      by rw [e5]; exact h.apart, by rw [e3]; exact h.near, by rw [e3]; exact h.among, by rw [e4]; exact h.accel⟩

theorem fails_pot (r : Option (BitVec 16)) : ReadFails (.pot r) ↔ r = none := by simp [ReadFails]
theorem fails_first (r : Option (BitVec 16)) : ReadFails (.pot_first r) ↔ r = none := by simp [ReadFails]
theorem fails_accel (r : Option AccelReading) : ReadFails (.accel r) ↔ r = none := by simp [ReadFails]

theorem accel_inv {color : Rgb8} {ls : List HelloLabel} {s : Hello} {r : Option AccelReading} (h : HelloInv color ls s) (hh : s.halted = false) :
    HelloInv color (ls ++ [.accel r]) (hello_accel r s) := by
  have e1 : ledRounds (ls ++ [.accel r]) = ledRounds ls := ledRounds_append ls [.accel r]
  have e2 : buttonRounds (ls ++ [.accel r]) = buttonRounds ls := by rw [buttonRounds_append]; exact List.append_nil _
  have e3 : potRounds (ls ++ [.accel r]) = potRounds ls := by rw [potRounds_append]; exact List.append_nil _
  have e5 : potFirst (ls ++ [.accel r]) = potFirst ls := by rw [potFirst_append]; exact Option.or_none
  cases r with
  | none =>
    have e4 : accelRounds (ls ++ [.accel none]) = accelRounds ls := by rw [accelRounds_append]; exact List.append_nil _
    exact ⟨halted_append h.halted hh (by simp [fails_accel, hello_accel, sensor_read]), by rw [e1]; exact h.idx, by rw [e1]; exact h.writes,
      h.each, by rw [e2]; exact h.last, by rw [e2]; exact h.buttons, by rw [e5]; exact h.first, by rw [e3]; exact h.before,
      by rw [e5]; exact h.pot, by rw [e5]; exact h.apart, by rw [e3]; exact h.near, by rw [e3]; exact h.among, by rw [e4]; exact h.accel⟩
  | some v =>
    have e4 : accelRounds (ls ++ [.accel (some v)]) = accelRounds ls ++ [v] := accelRounds_append ..
    have k1 : potLog (s.log ++ [.accelerometer v]) = potLog s.log := by simp [potLog]
    have k2 : accelLog (s.log ++ [.accelerometer v]) = accelLog s.log ++ [v] := by simp [accelLog]
    have k3 : buttonLog (s.log ++ [.accelerometer v]) = buttonLog s.log := by simp [buttonLog]
    exact ⟨halted_append h.halted hh (by simp [fails_accel, hello_accel, sensor_read, hh]), by rw [e1]; exact h.idx, by rw [e1]; exact h.writes,
      h.each, by rw [e2]; exact h.last, by rw [e2]; show buttonLog (s.log ++ _) = _; rw [k3]; exact h.buttons, by rw [e5]; exact h.first,
      by rw [e3]; show _ → potLog (s.log ++ _) = [] ∧ _; rw [k1]; exact h.before,
      by rw [e5]; show ∀ v, _ → _ = ((potLog (s.log ++ _)).getLast?).or _; rw [k1]; exact h.pot,
      by rw [e5]; show ∀ v, _ → ∀ (i : Nat) a b, (v :: potLog (s.log ++ _))[i]? = _ → (v :: potLog (s.log ++ _))[i + 1]? = _ → _; rw [k1]; exact h.apart,
      by rw [e3]; exact h.near, by rw [e3]; show (potLog (s.log ++ _)).Sublist _; rw [k1]; exact h.among,
      by rw [e4]; show accelLog (s.log ++ _) = _; rw [k2, h.accel]⟩

theorem first_inv {color : Rgb8} {ls : List HelloLabel} {s : Hello} {r : Option (BitVec 16)} (h : HelloInv color ls s) (hh : s.halted = false)
    (hp : s.pot = none) : HelloInv color (ls ++ [.pot_first r]) (hello_pot_first r s) := by
  have e1 : ledRounds (ls ++ [.pot_first r]) = ledRounds ls := ledRounds_append ls [.pot_first r]
  have e2 : buttonRounds (ls ++ [.pot_first r]) = buttonRounds ls := by rw [buttonRounds_append]; exact List.append_nil _
  have e3 : potRounds (ls ++ [.pot_first r]) = potRounds ls := by rw [potRounds_append]; exact List.append_nil _
  have e4 : accelRounds (ls ++ [.pot_first r]) = accelRounds ls := by rw [accelRounds_append]; exact List.append_nil _
  have e0 := h.first.mpr hp
  obtain ⟨b1, b2⟩ := h.before hp
  cases r with
  | none =>
    have e5 : potFirst (ls ++ [.pot_first none]) = potFirst ls := by rw [potFirst_append]; exact Option.or_none
    exact ⟨halted_append h.halted hh (by simp [fails_first, hello_pot_first, sensor_read]), by rw [e1]; exact h.idx, by rw [e1]; exact h.writes,
      h.each, by rw [e2]; exact h.last, by rw [e2]; exact h.buttons, by rw [e5]; exact h.first, by rw [e3]; exact h.before,
      by rw [e5]; exact h.pot, by rw [e5]; exact h.apart, by rw [e3]; exact h.near, by rw [e3]; exact h.among, by rw [e4]; exact h.accel⟩
  | some v =>
    have e5 : potFirst (ls ++ [.pot_first (some v)]) = some v := by rw [potFirst_append, e0]; rfl
    refine ⟨halted_append h.halted hh (by simp [fails_first, hello_pot_first, sensor_read, hh]), by rw [e1]; exact h.idx,
      by rw [e1]; exact h.writes, h.each, by rw [e2]; exact h.last, by rw [e2]; exact h.buttons, by rw [e5]; simp [hello_pot_first, sensor_read],
      by simp [hello_pot_first, sensor_read], ?_, ?_, by rw [e3, b2]; simp, by rw [e3]; exact h.among, by rw [e4]; exact h.accel⟩
    · intro w hw
      rw [e5] at hw
      cases hw
      show some v = ((potLog s.log).getLast?).or (some v)
      rw [b1]; rfl
    · intro w _ i a b h1 h2
      have : (w :: potLog s.log)[i + 1]? = some b := h2
      rw [b1] at this
      simp at this

theorem pot_inv {color : Rgb8} {ls : List HelloLabel} {s : Hello} {r : Option (BitVec 16)} {last : BitVec 16} (h : HelloInv color ls s)
    (hh : s.halted = false) (hp : s.pot = some last) : HelloInv color (ls ++ [.pot r]) (hello_pot r last s) := by
  have e1 : ledRounds (ls ++ [.pot r]) = ledRounds ls := ledRounds_append ls [.pot r]
  have e2 : buttonRounds (ls ++ [.pot r]) = buttonRounds ls := by rw [buttonRounds_append]; exact List.append_nil _
  have e4 : accelRounds (ls ++ [.pot r]) = accelRounds ls := by rw [accelRounds_append]; exact List.append_nil _
  have e5 : potFirst (ls ++ [.pot r]) = potFirst ls := by rw [potFirst_append]; exact Option.or_none
  cases r with
  | none =>
    have e3 : potRounds (ls ++ [.pot none]) = potRounds ls := by rw [potRounds_append]; exact List.append_nil _
    exact ⟨halted_append h.halted hh (by simp [fails_pot, hello_pot, sensor_read]), by rw [e1]; exact h.idx, by rw [e1]; exact h.writes,
      h.each, by rw [e2]; exact h.last, by rw [e2]; exact h.buttons, by rw [e5]; exact h.first, by rw [e3]; exact h.before,
      by rw [e5]; exact h.pot, by rw [e5]; exact h.apart, by rw [e3]; exact h.near, by rw [e3]; exact h.among, by rw [e4]; exact h.accel⟩
  | some v =>
    have e3 : potRounds (ls ++ [.pot (some v)]) = potRounds ls ++ [v] := potRounds_append ..
    have hl : ((potRounds ls ++ [v]).getLast?) = some v := by simp
    by_cases hf : abs_diff v last > 64
    · have e0 : hello_pot (some v) last s = { s with log := s.log ++ [.potentiometer v], pot := some v } := by
        simp only [hello_pot, sensor_read]; rw [if_pos hf]
      have k1 : potLog (s.log ++ [.potentiometer v]) = potLog s.log ++ [v] := by simp [potLog]
      have k2 : accelLog (s.log ++ [.potentiometer v]) = accelLog s.log := by simp [accelLog]
      have k3 : buttonLog (s.log ++ [.potentiometer v]) = buttonLog s.log := by simp [buttonLog]
      rw [e0]
      refine ⟨halted_append h.halted hh (by simp [fails_pot, hh]), by rw [e1]; exact h.idx,
        by rw [e1]; exact h.writes, h.each, by rw [e2]; exact h.last, by rw [e2]; show buttonLog (s.log ++ _) = _; rw [k3]; exact h.buttons, ?_,
        by simp, ?_, ?_, ?_, by rw [e3]; show (potLog (s.log ++ _)).Sublist _; rw [k1]; exact h.among.append_right [v],
        by rw [e4]; show accelLog (s.log ++ _) = _; rw [k2]; exact h.accel⟩
      · rw [e5]
        constructor
        · intro hn; rw [h.first.mp hn] at hp; cases hp
        · intro hn; cases hn
      · intro w _
        show some v = ((potLog (s.log ++ _)).getLast?).or (some w)
        rw [k1]; simp
      · intro w hw i a b h1 h2
        rw [e5] at hw
        have h1 : (w :: potLog (s.log ++ [.potentiometer v]))[i]? = some a := h1
        have h2 : (w :: potLog (s.log ++ [.potentiometer v]))[i + 1]? = some b := h2
        rw [k1, ← List.cons_append] at h1 h2
        by_cases hi : i + 1 < (w :: potLog s.log).length
        · rw [List.getElem?_append_left hi] at h2
          rw [List.getElem?_append_left (by omega)] at h1
          exact h.apart w hw i a b h1 h2
        · have := (List.getElem?_eq_some_iff.mp h2).1
          simp only [List.length_append, List.length_cons, List.length_nil] at this hi
          have hi' : i = (potLog s.log).length := by omega
          subst hi'
          rw [List.getElem?_append_right (by simp)] at h2
          rw [List.getElem?_append_left (by simp)] at h1
          simp only [List.length_cons, Nat.sub_self, List.getElem?_cons_zero, Option.some.injEq] at h2
          subst h2
          have hlast := h.pot w hw
          rw [hp] at hlast
          have : a = last := by
            rcases List.eq_nil_or_concat (potLog s.log) with hn | ⟨xs, x, hx⟩
            · rw [hn] at hlast h1
              simp at hlast h1
              rw [← h1, hlast]
            · rw [hx] at hlast h1
              simp at hlast h1
              rw [← h1, hlast]
          rw [this]
          exact (farApart_iff v last).mp hf
      · intro x w hx hw
        rw [e3, hl] at hx
        cases hx
        cases hw
        simp only [FarApart]; omega
    · have e0 : hello_pot (some v) last s = s := by simp only [hello_pot, sensor_read]; rw [if_neg hf]
      rw [e0]
      refine ⟨halted_append h.halted hh (by simp [fails_pot, hh]), by rw [e1]; exact h.idx,
        by rw [e1]; exact h.writes, h.each, by rw [e2]; exact h.last, by rw [e2]; exact h.buttons, by rw [e5]; exact h.first,
        (by intro hn; rw [hp] at hn; cases hn), by rw [e5]; exact h.pot, by rw [e5]; exact h.apart, ?_,
        by rw [e3]; exact h.among.trans (List.sublist_append_left ..), by rw [e4]; exact h.accel⟩
      intro x w hx hw
      rw [e3, hl] at hx
      cases hx
      rw [hp] at hw
      cases hw
      exact fun hf' => hf ((farApart_iff v last).mpr hf')

theorem hello_inv {color : Rgb8} {ls ms : List HelloLabel} {s t : Hello} (h : HelloInv color ls s) (hr : hello_run color ms s = some t) :
    HelloInv color (ls ++ ms) t := by
  induction ms generalizing ls s with
  | nil => cases hr; rw [List.append_nil]; exact h
  | cons m ms ih =>
    simp only [hello_run] at hr
    cases hs : hello_step color s m with
    | none => rw [hs] at hr; cases hr
    | some u =>
      rw [hs] at hr
      rw [List.append_cons]
      refine ih ?_ hr
      unfold hello_step at hs
      split at hs
      · cases hs
      rename_i hh
      have hh : s.halted = false := by simpa using hh
      cases m with
      | led => cases hs; exact led_inv h
      | button high => cases hs; exact button_inv h hh
      | accel r => cases hs; exact accel_inv h hh
      | pot_first r =>
        simp only at hs
        split at hs
        · rename_i hn
          cases hs; exact first_inv h hh (Option.isNone_iff_eq_none.mp hn)
        · cases hs
      | pot r =>
        simp only at hs
        split at hs
        · cases hs
        · rename_i last hp
          cases hs; exact pot_inv h hh hp

/-- The steps of the fading LEDs in closed form. -/
def fadePc (t : Nat) : FadePc := if t % 99 < 33 then .up (t % 99) else if t % 99 < 66 then .down (65 - t % 99) else .wait (t % 99 - 66)

theorem fade_next (t : Nat) : fade_tick (fadePc t) =
    ((fadeAt t).map fun i => List.replicate 24 ⟨BitVec.ofNat 8 i, 0#8, 0#8⟩, fadePc (t + 1)) := by
  have key : ∀ r < 99, fade_tick (fadePc r) = ((fadeAt r).map fun i => List.replicate 24 ⟨BitVec.ofNat 8 i, 0#8, 0#8⟩, fadePc (r + 1)) := by
    decide +kernel
  have := key (t % 99) (Nat.mod_lt _ (by decide))
  have e : ∀ a b : Nat, a % 99 = b % 99 → fadePc a = fadePc b ∧ fadeAt a = fadeAt b := fun a b h => by simp only [fadePc, fadeAt, h, and_self]
  obtain ⟨e1, e2⟩ := e (t % 99) t (Nat.mod_mod ..)
  obtain ⟨e3, _⟩ := e (t % 99 + 1) (t + 1) (by omega)
  rw [e1, e2, e3] at this
  exact this

theorem fade_run_get (n t i : Nat) (h : i < n) : (fade_run n (fadePc t))[i]? =
    some ((fadeAt (t + i)).map fun i => List.replicate 24 ⟨BitVec.ofNat 8 i, 0#8, 0#8⟩) := by
  induction n generalizing t i with
  | zero => omega
  | succ n ih =>
    rw [fade_run, fade_next]
    cases i with
    | zero => rfl
    | succ i => rw [List.getElem?_cons_succ, ih (t + 1) i (by omega), show t + 1 + i = t + (i + 1) by omega]

theorem be_fold (bs : List Byte) (n : BitVec 64) (m : Nat) (hm : n.toNat < 256 ^ m) (hl : m + bs.length ≤ 8) :
    (bs.foldl (fun (n : BitVec 64) b => (n <<< 8) ||| b.setWidth 64) n).toNat = bs.foldl (fun k b => k * 256 + b.toNat) n.toNat := by
  induction bs generalizing n m with
  | nil => rfl
  | cons b bs ih =>
    simp only [List.length_cons] at hl
    have hp : 256 ^ (m + 1) ≤ 256 ^ 8 := Nat.pow_le_pow_right (by decide) (by omega)
    have hb := b.isLt
    have e : ((n <<< 8) ||| b.setWidth 64).toNat = n.toNat * 256 + b.toNat := by
      rw [BitVec.toNat_or, BitVec.toNat_shiftLeft, BitVec.toNat_setWidth, Nat.shiftLeft_eq]
      have h1 : n.toNat * 2 ^ 8 % 2 ^ 64 = n.toNat * 2 ^ 8 := Nat.mod_eq_of_lt (by rw [Nat.pow_succ] at hp; omega)
      have h2 : b.toNat % 2 ^ 64 = b.toNat := Nat.mod_eq_of_lt (by omega)
      rw [h1, h2, Nat.mul_comm, ← Nat.two_pow_add_eq_or_of_lt hb]
    rw [List.foldl_cons, List.foldl_cons, ih _ (m + 1) (by rw [e, Nat.pow_succ]; omega) (by omega), e]

end PRpc
