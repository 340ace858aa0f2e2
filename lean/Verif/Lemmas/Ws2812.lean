import Verif.Spec.Ws2812
/-! Lemmas for C87: the state machine refines a line that sends bits one after the other. -/

namespace PRpc

open Spec

/-- The line: bits still to send, and the bit being sent with the number of its cycles that are over. -/
structure Line where
  todo : List Bool
  cur : Option (Bool × Nat)

def Line.start : List Bool → Line
  | [] => ⟨[], none⟩
  | b :: t => ⟨t, some (b, 1)⟩

def Line.next (a : Line) (push : List Bool) : Line :=
  match a.cur with
  | some (b, k) => if k < 10 then ⟨a.todo ++ push, some (b, k + 1)⟩ else Line.start (a.todo ++ push)
  | none => Line.start (a.todo ++ push)

def Line.level (a : Line) : Bool :=
  match a.cur with
  | none => false
  | some (b, k) => if k ≤ 3 then false else if k ≤ 5 then true else b

def line_run : List (List Bool) → Line → List Bool × Line
  | [], a => ([], a)
  | p :: ps, a => ((a.next p).level :: (line_run ps (a.next p)).1, (line_run ps (a.next p)).2)

/-- The first `n` bits of a word. -/
def topBits (n : Nat) (w : BitVec 32) : List Bool := (List.range n).map fun i => w.getLsbD (31 - i)

theorem topBits_succ (n : Nat) (hn : n ≤ 31) (w : BitVec 32) : topBits (n + 1) w = w.msb :: topBits n (w <<< 1) := by
  unfold topBits
  rw [List.range_succ_eq_map, List.map_cons, List.map_map]
  congr 1
  apply List.map_congr_left
  intro i hi
  have hi := List.mem_range.mp hi
  have e1 : 31 - i < 32 := by omega
  have e2 : ¬ (31 - i < 1) := by omega
  simp only [Function.comp, Nat.succ_eq_add_one, BitVec.getLsbD_shiftLeft, e1, e2, decide_true, decide_false, Bool.not_false,
    Bool.true_and, show 31 - i - 1 = 31 - (i + 1) by omega]

/-- The bits the state machine has still to send. -/
def Pio.todo (s : Pio) : List Bool := topBits (24 - s.count) s.osr ++ s.queue.flatMap (topBits 24)

/-- The state machine sends the bit of the line. -/
def Sends (s : Pio) : Option (Bool × Nat) → Prop
  | none => s.pc = 1 ∧ s.delay = 0 ∧ s.pin = false
  | some (b, k) =>
    (1 ≤ k ∧ k ≤ 3 ∧ s.pc = 2 ∧ s.delay = 3 - k ∧ s.x = b ∧ s.pin = false) ∨
    (4 ≤ k ∧ k ≤ 5 ∧ s.pc = (if b then 3 else 4) ∧ s.delay = 5 - k ∧ s.pin = true) ∨
    (6 ≤ k ∧ k ≤ 10 ∧ s.pc = 1 ∧ s.delay = 10 - k ∧ s.pin = b)

theorem Sends.pin {s : Pio} {a : Line} (h : Sends s a.cur) : s.pin = a.level := by
  obtain ⟨t, c⟩ := a
  cases c with
  | none => exact h.2.2
  | some y =>
    obtain ⟨b, k⟩ := y
    rcases h with ⟨h1, h2, _, _, _, h⟩ | ⟨h1, h2, _, _, h⟩ | ⟨h1, h2, _, _, h⟩
    · simp only [Line.level, if_pos h2, h]
    · simp only [Line.level, if_neg (show ¬ k ≤ 3 by omega), if_pos h2, h]
    · simp only [Line.level, if_neg (show ¬ k ≤ 3 by omega), if_neg (show ¬ k ≤ 5 by omega), h]

theorem refill_todo (s : Pio) : s.refill.todo = s.todo := by
  unfold Pio.refill
  split
  · rename_i h
    split
    · rename_i w q hq
      simp only [Pio.todo, hq, show 24 - s.count = 0 by simp only [WS_THRESHOLD] at h; omega]
      simp [topBits]
    · rfl
  · rfl

theorem refill_sends {s : Pio} {c} (h : Sends s c) : Sends s.refill c := by
  have e : s.refill.pc = s.pc ∧ s.refill.delay = s.delay ∧ s.refill.x = s.x ∧ s.refill.pin = s.pin := by
    unfold Pio.refill
    split
    · split <;> simp
    · simp
  cases c with
  | none => exact ⟨e.1 ▸ h.1, e.2.1 ▸ h.2.1, e.2.2.2 ▸ h.2.2⟩
  | some y => simp only [Sends, e.1, e.2.1, e.2.2.1, e.2.2.2] at h ⊢; exact h

/-- After a refill the shift register is empty only if nothing is left to send. -/
theorem refill_count (s : Pio) (h : 24 ≤ s.refill.count) : s.todo = [] ∧ s.refill.queue = [] := by
  unfold Pio.refill at h ⊢
  split at h
  · rename_i h0
    rw [if_pos h0]
    split at h
    · cases h
    · rename_i hq
      rw [hq]
      exact ⟨by simp [Pio.todo, hq, show 24 - s.count = 0 by simp only [WS_THRESHOLD] at h0; omega, topBits], rfl⟩
  · rename_i h0
    exact absurd h h0

/-- The whole cycle after the refill. -/
def Pio.exec (s : Pio) : Pio :=
  match s.delay with
  | d + 1 => { s with delay := d }
  | 0 =>
    match ws_program[s.pc]? with
    | none => s
    | some i =>
      let s := { s with pin := i.side }
      match i.op with
      | .set_pindirs => { s with pc := ws_next s.pc, delay := i.delay }
      | .out_x =>
        if WS_THRESHOLD ≤ s.count then s
        else { s with x := s.osr.msb, osr := s.osr <<< 1, count := s.count + 1, pc := ws_next s.pc, delay := i.delay }
      | .jmp_not_x dst => { s with pc := if s.x then ws_next s.pc else dst, delay := i.delay }
      | .jmp dst => { s with pc := dst, delay := i.delay }
      | .nop => { s with pc := ws_next s.pc, delay := i.delay }

theorem cycle_eq (s : Pio) : s.cycle = s.refill.exec := rfl

theorem exec_delay {s : Pio} {d : Nat} (h : s.delay = d + 1) : s.exec = { s with delay := d } := by
  unfold Pio.exec
  rw [h]

theorem exec_out {s : Pio} (hd : s.delay = 0) (hp : s.pc = 1) : s.exec =
    if 24 ≤ s.count then { s with pin := false }
    else { s with pin := false, x := s.osr.msb, osr := s.osr <<< 1, count := s.count + 1, pc := 2, delay := 2 } := by
  obtain ⟨pc, delay, x, osr, count, queue, pin⟩ := s
  simp only at hd hp
  subst hd hp
  rfl

theorem exec_test {s : Pio} (hd : s.delay = 0) (hp : s.pc = 2) : s.exec =
    { s with pin := true, pc := if s.x then 3 else 4, delay := 1 } := by
  obtain ⟨pc, delay, x, osr, count, queue, pin⟩ := s
  simp only at hd hp
  subst hd hp
  rfl

theorem exec_data {s : Pio} (b : Bool) (hd : s.delay = 0) (hp : s.pc = if b then 3 else 4) : s.exec =
    { s with pin := b, pc := 1, delay := 4 } := by
  obtain ⟨pc, delay, x, osr, count, queue, pin⟩ := s
  simp only at hd hp
  subst hd hp
  cases b <;> rfl

/-- One cycle of the state machine is one of the line. -/
theorem cycle_line {s : Pio} {a : Line} (ht : s.todo = a.todo) (hs : Sends s a.cur) :
    s.cycle.todo = (a.next []).todo ∧ Sends s.cycle (a.next []).cur := by
  have ht' : s.refill.todo = a.todo := (refill_todo s).trans ht
  have hs' : Sends s.refill a.cur := refill_sends hs
  have hc : 24 ≤ s.refill.count → a.todo = [] := fun h => ht ▸ (refill_count s h).1
  rw [cycle_eq]
  generalize s.refill = r at ht' hs' hc
  clear ht hs
  have hstart : r.pc = 1 → r.delay = 0 → r.exec.todo = (Line.start (a.todo ++ [])).todo ∧ Sends r.exec (Line.start (a.todo ++ [])).cur := by
    intro hp hd
    rw [exec_out hd hp, List.append_nil]
    by_cases h : 24 ≤ r.count
    · rw [if_pos h, hc h]
      exact ⟨ht'.trans (hc h), hp, hd, rfl⟩
    · rw [if_neg h]
      have e : a.todo = r.osr.msb :: (topBits (24 - (r.count + 1)) (r.osr <<< 1) ++ r.queue.flatMap (topBits 24)) := by
        rw [← ht', Pio.todo, show 24 - r.count = (24 - (r.count + 1)) + 1 by omega, topBits_succ _ (by omega), List.cons_append]
      rw [e]
      exact ⟨rfl, .inl ⟨by omega, by omega, rfl, rfl, rfl, rfl⟩⟩
  obtain ⟨t, c⟩ := a
  cases c with
  | none => exact hstart hs'.1 hs'.2.1
  | some y =>
    obtain ⟨b, k⟩ := y
    rcases hs' with ⟨h1, h2, h3, h4, h5, h6⟩ | ⟨h1, h2, h3, h4, h5⟩ | ⟨h1, h2, h3, h4, h5⟩
    · simp only [Line.next, if_pos (show k < 10 by omega), List.append_nil]
      by_cases hk : k = 3
      · rw [exec_test (by omega) h3]
        exact ⟨ht', .inr (.inl ⟨by omega, by omega, by rw [← h5], by simp only; omega, rfl⟩)⟩
      · rw [exec_delay (d := 2 - k) (by omega)]
        exact ⟨ht', .inl ⟨by omega, by omega, h3, by simp only; omega, h5, h6⟩⟩
    · simp only [Line.next, if_pos (show k < 10 by omega), List.append_nil]
      by_cases hk : k = 5
      · rw [exec_data b (by omega) h3]
        exact ⟨ht', .inr (.inr ⟨by omega, by omega, rfl, by simp only; omega, rfl⟩)⟩
      · rw [exec_delay (d := 4 - k) (by omega)]
        exact ⟨ht', .inr (.inl ⟨by omega, by omega, h3, by simp only; omega, h5⟩)⟩
    · by_cases hk : k < 10
      · simp only [Line.next, if_pos hk, List.append_nil]
        rw [exec_delay (d := 9 - k) (by omega)]
        exact ⟨ht', .inr (.inr ⟨by omega, by omega, h3, by simp only; omega, h5⟩)⟩
      · simp only [Line.next, if_neg hk]
        exact hstart h3 (by omega)

theorem next_push (a : Line) (p : List Bool) : a.next p = Line.next ⟨a.todo ++ p, a.cur⟩ [] := by
  simp only [Line.next, List.append_nil]

/-- What a call pushes. -/
def pushed : Option (List Rgb8) → List Bool
  | none => []
  | some cs => cs.flatMap fun c => topBits 24 (ws_word c)

/-- One cycle of driver and state machine. -/
theorem step_line {s s' : Ws} {a : Line} {c} (ht : s.pio.todo = a.todo) (hs : Sends s.pio a.cur) (h : ws_step s c = some s') :
    s'.pio.todo = (a.next (pushed c)).todo ∧ Sends s'.pio (a.next (pushed c)).cur := by
  cases c with
  | none =>
    simp only [ws_step] at h
    rw [← Option.some.inj h]
    exact cycle_line ht hs
  | some cs =>
    simp only [ws_step] at h
    split at h
    · rw [← Option.some.inj h, next_push]
      refine cycle_line (a := ⟨a.todo ++ pushed (some cs), a.cur⟩) ?_ ?_
      · simp only [Pio.todo, List.flatMap_append, pushed, ← ht, List.append_assoc, List.flatMap_map]
      · obtain ⟨t, c⟩ := a
        cases c with
        | none => exact hs
        | some y => exact hs
    · cases h

theorem run_line {calls : List (Option (List Rgb8))} {s s' : Ws} {a : Line} {ls : List Bool} (ht : s.pio.todo = a.todo)
    (hs : Sends s.pio a.cur) (h : ws_run calls s = some (ls, s')) :
    ls = (line_run (calls.map pushed) a).1 ∧ s'.pio.todo = (line_run (calls.map pushed) a).2.todo ∧
      Sends s'.pio (line_run (calls.map pushed) a).2.cur := by
  induction calls generalizing s a ls with
  | nil => cases h; exact ⟨rfl, ht, hs⟩
  | cons c calls ih =>
    simp only [ws_run] at h
    split at h
    · cases h
    · rename_i s1 h1
      obtain ⟨ht1, hs1⟩ := step_line ht hs h1
      split at h
      · cases h
      · rename_i ls1 s2 h2
        cases h
        obtain ⟨e1, e2, e3⟩ := ih ht1 hs1 h2
        exact ⟨by rw [e1, hs1.pin]; rfl, e2, e3⟩

/-! ### The levels of the line -/

theorem repl_add {α : Type} (n m : Nat) (x : α) : List.replicate (n + m) x = List.replicate n x ++ List.replicate m x :=
  List.replicate_append_replicate.symm

/-- The ten cycles of a bit. -/
def bitLevels (b : Bool) : List Bool := [false, false, false, true, true, b, b, b, b, b]

/-- Between two bits. -/
def Line.Between (a : Line) : Prop := a.cur = none ∨ ∃ b, a.cur = some (b, 10)

theorem between_next {a : Line} (h : a.Between) (p : List Bool) : a.next p = Line.start (a.todo ++ p) := by
  rcases h with h | ⟨b, h⟩
  · simp only [Line.next, h]
  · simp only [Line.next, h, if_neg (show ¬ 10 < 10 by omega)]

theorem line_run_append (ps qs : List (List Bool)) (a : Line) :
    line_run (ps ++ qs) a = ((line_run ps a).1 ++ (line_run qs (line_run ps a).2).1, (line_run qs (line_run ps a).2).2) := by
  induction ps generalizing a with
  | nil => rfl
  | cons p ps ih => simp only [List.cons_append, line_run, ih]

/-- All bits there are, one after the other. -/
theorem line_drain (t : List Bool) (a : Line) (h : a.Between) (ht : a.todo = t) :
    (line_run (List.replicate (10 * t.length) []) a).1 = t.flatMap bitLevels ∧
    (line_run (List.replicate (10 * t.length) []) a).2.todo = [] ∧ (line_run (List.replicate (10 * t.length) []) a).2.Between := by
  induction t generalizing a with
  | nil => exact ⟨rfl, ht, h⟩
  | cons b t ih =>
    have e : line_run (List.replicate 10 []) a = (bitLevels b, ⟨t, some (b, 10)⟩) := by
      have e1 : a.next [] = ⟨t, some (b, 1)⟩ := by rw [between_next h, ht, List.append_nil]; rfl
      rw [show List.replicate 10 ([] : List Bool) = [] :: List.replicate 9 [] from rfl, line_run, e1]
      simp [List.replicate, line_run, Line.next, Line.level, bitLevels]
    rw [show 10 * (b :: t).length = 10 + 10 * t.length by simp only [List.length_cons]; omega, repl_add, line_run_append, e]
    obtain ⟨h1, h2, h3⟩ := ih ⟨t, some (b, 10)⟩ (.inr ⟨b, rfl⟩) rfl
    exact ⟨by rw [List.flatMap_cons, ← h1], h2, h3⟩

/-- A line with nothing to send stays low. -/
theorem line_idle (n : Nat) (a : Line) (h : a.Between) (ht : a.todo = []) :
    (line_run (List.replicate n []) a).1 = List.replicate n false ∧ (line_run (List.replicate n []) a).2.todo = [] ∧
    (line_run (List.replicate n []) a).2.Between ∧ (0 < n → (line_run (List.replicate n []) a).2.cur = none) := by
  induction n generalizing a with
  | zero => exact ⟨rfl, ht, h, fun h => absurd h (Nat.lt_irrefl 0)⟩
  | succ n ih =>
    have e1 : a.next [] = ⟨[], none⟩ := by rw [between_next h, ht]; rfl
    obtain ⟨h1, h2, h3, h4⟩ := ih ⟨[], none⟩ (.inl rfl) rfl
    simp only [List.replicate_succ, line_run, e1]
    refine ⟨by rw [h1]; rfl, h2, h3, fun _ => ?_⟩
    cases n with
    | zero => rfl
    | succ n => exact h4 (by omega)

/-- One push, then quiet. -/
theorem line_one (bs : List Bool) (n : Nat) (a : Line) (h : a.Between) (ht : a.todo = []) (hn : 10 * bs.length ≤ n + 1) :
    (line_run (bs :: List.replicate n []) a).1 = bs.flatMap bitLevels ++ List.replicate (n + 1 - 10 * bs.length) false ∧
    (line_run (bs :: List.replicate n []) a).2.todo = [] ∧ (line_run (bs :: List.replicate n []) a).2.Between ∧
    (10 * bs.length < n + 1 → (line_run (bs :: List.replicate n []) a).2.cur = none) := by
  have e : line_run (bs :: List.replicate n []) a = line_run (List.replicate (n + 1) []) ⟨bs, a.cur⟩ := by
    simp only [List.replicate_succ, line_run]
    rw [next_push, ht, List.nil_append]
  obtain ⟨h1, h2, h3⟩ := line_drain bs ⟨bs, a.cur⟩ h rfl
  obtain ⟨h4, h5, h6, h7⟩ := line_idle (n + 1 - 10 * bs.length) _ h3 h2
  rw [e, show n + 1 = 10 * bs.length + (n + 1 - 10 * bs.length) by omega, repl_add, line_run_append]
  rw [show 10 * bs.length + (n + 1 - 10 * bs.length) - 10 * bs.length = n + 1 - 10 * bs.length by omega]
  exact ⟨by rw [h1, h4], h5, h6, fun h => h7 (by omega)⟩

/-- The cycles the line is busy with what it has. -/
def Line.work (a : Line) : Nat :=
  10 * a.todo.length + match a.cur with
    | none => 0
    | some (_, k) => 10 - k

theorem work_next {a : Line} {n : Nat} (h : a.work = n + 1) : (a.next []).work = n ∧ ∀ q, (a.next []).next q = (a.next q).next [] := by
  obtain ⟨t, c⟩ := a
  have hst : ∀ (t : List Bool), 10 * t.length = n + 1 → (Line.start (t ++ [])).work = n ∧
      ∀ q, (Line.start (t ++ [])).next q = (Line.start (t ++ q)).next [] := by
    intro t ht
    cases t with
    | nil => simp at ht
    | cons b t =>
      rw [List.append_nil]
      refine ⟨by simp only [Line.start, Line.work, List.length_cons] at ht ⊢; omega, fun q => ?_⟩
      simp only [Line.start, List.cons_append, Line.next, List.append_nil]
  cases c with
  | none => exact hst t (by simpa [Line.work] using h)
  | some y =>
    obtain ⟨b, k⟩ := y
    by_cases hk : k < 10
    · simp only [Line.next, if_pos hk, Line.work, List.append_nil] at h ⊢
      exact ⟨by omega, fun q => trivial⟩
    · simp only [Line.next, if_neg hk]
      exact hst t (by simp only [Line.work] at h; omega)

theorem level_next {a : Line} {n : Nat} (h : a.work = n + 1) (q : List Bool) : (a.next q).level = (a.next []).level := by
  obtain ⟨t, c⟩ := a
  have hst : ∀ (t : List Bool), 10 * t.length = n + 1 → (Line.start (t ++ q)).level = (Line.start (t ++ [])).level := by
    intro t ht
    cases t with
    | nil => simp at ht
    | cons b t => rfl
  cases c with
  | none => exact hst t (by simpa [Line.work] using h)
  | some y =>
    obtain ⟨b, k⟩ := y
    by_cases hk : k < 10
    · simp only [Line.next, if_pos hk, Line.level]
    · simp only [Line.next, if_neg hk]
      exact hst t (by simp only [Line.work] at h; omega)

/-- While the line is busy it does not matter when more is pushed. -/
theorem push_early (n : Nat) (a : Line) (h : n ≤ a.work) (q : List Bool) (ps : List (List Bool)) :
    line_run (List.replicate n [] ++ q :: ps) a = line_run (q :: (List.replicate n [] ++ ps)) a := by
  induction n generalizing a with
  | zero => rfl
  | succ n ih =>
    obtain ⟨w, hw⟩ : ∃ w, a.work = w + 1 := ⟨a.work - 1, by omega⟩
    obtain ⟨h1, h2⟩ := work_next hw
    have := ih (a.next []) (by omega)
    simp only [List.replicate_succ, List.cons_append, line_run, this, h2 q, level_next hw q]

/-- Two pushes, the second at most `g` cycles after the line has become idle. -/
theorem line_two (bs cs : List Bool) (k m : Nat) (a : Line) (h : a.Between) (ht : a.todo = []) (hb : bs ≠ [])
    (hm : 10 * bs.length + 10 * cs.length ≤ m) :
    ∃ j, (line_run (bs :: (List.replicate k [] ++ cs :: List.replicate m [])) a).1 =
      bs.flatMap bitLevels ++ List.replicate (k + 1 - 10 * bs.length) false ++ (cs.flatMap bitLevels ++ List.replicate j false) ∧
      m + 1 ≤ j + 10 * cs.length + 10 * bs.length := by
  rcases Nat.lt_or_ge (10 * bs.length) (k + 1 + 1) with hk | hk
  · -- the line has become idle
    rw [show bs :: (List.replicate k [] ++ cs :: List.replicate m []) = (bs :: List.replicate k []) ++ (cs :: List.replicate m []) from rfl,
      line_run_append]
    obtain ⟨h1, h2, h3, _⟩ := line_one bs k a h ht (by omega)
    obtain ⟨h5, _⟩ := line_one cs m _ h3 h2 (by omega)
    exact ⟨m + 1 - 10 * cs.length, by rw [h1, h5], by omega⟩
  · have hbl : 0 < bs.length := List.length_pos_iff.mpr hb
    have e1 : a.next bs = Line.start bs := by rw [between_next h, ht, List.nil_append]
    have hw : (a.next bs).work = 10 * bs.length - 1 := by
      rw [e1]
      cases bs with
      | nil => exact absurd rfl hb
      | cons b t => simp only [Line.start, Line.work, List.length_cons]; omega
    have e2 : (a.next bs).next cs = (a.next (bs ++ cs)).next [] := by
      rw [e1, between_next h, ht, List.nil_append]
      cases bs with
      | nil => exact absurd rfl hb
      | cons b t => simp only [Line.start, List.cons_append, Line.next, List.append_nil]
    have e3 : (a.next bs).level = (a.next (bs ++ cs)).level := by
      rw [e1, between_next h, ht, List.nil_append]
      cases bs with
      | nil => exact absurd rfl hb
      | cons b t => rfl
    have e4 : line_run (bs :: (List.replicate k [] ++ cs :: List.replicate m [])) a =
        line_run ((bs ++ cs) :: List.replicate (k + m + 1) []) a := by
      have := push_early k (a.next bs) (by omega) cs (List.replicate m [])
      rw [← repl_add] at this
      simp only [line_run, this, List.replicate_succ, e2, e3]
    rw [e4]
    obtain ⟨h1, _⟩ := line_one (bs ++ cs) (k + m + 1) a h ht (by rw [List.length_append]; omega)
    rw [h1, show k + 1 - 10 * bs.length = 0 by omega]
    refine ⟨k + m + 1 + 1 - 10 * (bs ++ cs).length, by simp, by rw [List.length_append]; omega⟩

/-! ### The strip -/

/-- The strip has received these bits; if the line is low, at most `d` cycles. -/
def Got (s : Strip) (bs : List Bool) (d : Nat) : Prop :=
  (s.level = true ∧ 4 ≤ s.len ∧ s.bits ++ [true] = bs) ∨ (s.level = false ∧ s.len ≤ d ∧ s.bits = bs)

theorem watches_append (s : Strip) (l l' : List Bool) : s.watches (l ++ l') = (s.watches l).watches l' := List.foldl_append ..

theorem sees_fall {len : Nat} (h : 4 ≤ len) (bits : List Bool) (leds) :
    Strip.sees ⟨true, len, bits, leds⟩ false = ⟨false, 1, bits ++ [true], leds⟩ := by
  show (⟨false, 1, bits ++ [decide (4 ≤ len)], leds⟩ : Strip) = _
  rw [decide_eq_true h]

theorem sees_low {len : Nat} (h : len + 1 ≠ 400) (bits : List Bool) (leds) :
    Strip.sees ⟨false, len, bits, leds⟩ false = ⟨false, len + 1, bits, leds⟩ := by
  show (if len + 1 = 400 then _ else _) = _
  rw [if_neg h]

theorem sees_reset {len : Nat} (h : len + 1 = 400) (bits : List Bool) (leds) :
    Strip.sees ⟨false, len, bits, leds⟩ false = ⟨false, len + 1, [], latch bits leds⟩ := by
  show (if len + 1 = 400 then _ else _) = _
  rw [if_pos h]

/-- Low for a while, but not for long. -/
theorem got_low (n : Nat) {s : Strip} {bs : List Bool} {d : Nat} (h : Got s bs d) (hd : d + n < 400) :
    Got (s.watches (List.replicate n false)) bs (d + n) ∧ (s.watches (List.replicate n false)).leds = s.leds ∧
    (0 < n → (s.watches (List.replicate n false)).level = false) := by
  induction n generalizing s d with
  | zero => exact ⟨h, rfl, fun h => absurd h (Nat.lt_irrefl 0)⟩
  | succ n ih =>
    rw [List.replicate_succ]
    show Got ((s.sees false).watches _) _ _ ∧ ((s.sees false).watches _).leds = _ ∧ (_ → ((s.sees false).watches _).level = false)
    obtain ⟨level, len, bits, leds⟩ := s
    have key : Got (Strip.sees ⟨level, len, bits, leds⟩ false) bs (d + 1) ∧ (Strip.sees ⟨level, len, bits, leds⟩ false).leds = leds ∧
        (Strip.sees ⟨level, len, bits, leds⟩ false).level = false := by
      rcases h with ⟨h1, h2, h3⟩ | ⟨h1, h2, h3⟩
      · simp only at h1 h2 h3
        subst h1
        rw [sees_fall h2, h3]
        exact ⟨.inr ⟨rfl, by simp only; omega, rfl⟩, rfl, rfl⟩
      · simp only at h1 h2 h3
        subst h1
        rw [sees_low (by omega)]
        exact ⟨.inr ⟨rfl, by simp only; omega, h3⟩, rfl, rfl⟩
    obtain ⟨i1, i2, i3⟩ := ih key.1 (by omega)
    refine ⟨by rw [show d + (n + 1) = d + 1 + n by omega]; exact i1, i2.trans key.2.1, fun _ => ?_⟩
    cases n with
    | zero => exact key.2.2
    | succ n => exact i3 (by omega)

/-- One bit. -/
theorem got_bit (b : Bool) {s : Strip} {bs : List Bool} {d : Nat} (h : Got s bs d) (hd : d < 397) :
    Got (s.watches (bitLevels b)) (bs ++ [b]) 5 ∧ (s.watches (bitLevels b)).leds = s.leds := by
  obtain ⟨h1, h2, h3⟩ := got_low 3 h (by omega)
  rw [show bitLevels b = List.replicate 3 false ++ [true, true, b, b, b, b, b] by cases b <;> rfl, watches_append]
  have h3 := h3 (by omega)
  generalize s.watches (List.replicate 3 false) = r at h1 h2 h3
  obtain ⟨level, len, bits, leds⟩ := r
  simp only at h3
  subst h3
  rcases h1 with ⟨h, _⟩ | ⟨_, _, h⟩
  · cases h
  simp only at h h2
  subst h h2
  cases b
  · exact ⟨.inr ⟨rfl, Nat.le_refl 5, rfl⟩, rfl⟩
  · exact ⟨.inl ⟨rfl, (show 4 ≤ 7 by decide), rfl⟩, rfl⟩

theorem got_bits (cs : List Bool) {s : Strip} {bs : List Bool} {d : Nat} (h : Got s bs d) (hd : d < 397) :
    Got (s.watches (cs.flatMap bitLevels)) (bs ++ cs) (max d 5) ∧ (s.watches (cs.flatMap bitLevels)).leds = s.leds := by
  induction cs generalizing s bs d with
  | nil =>
    refine ⟨?_, rfl⟩
    rw [List.append_nil]
    rcases h with h | ⟨h1, h2, h3⟩
    · exact .inl h
    · exact .inr ⟨h1, by show s.len ≤ _; omega, h3⟩
  | cons c cs ih =>
    rw [List.flatMap_cons, watches_append]
    obtain ⟨h1, h2⟩ := got_bit c h hd
    obtain ⟨h3, h4⟩ := ih h1 (by omega)
    rw [List.append_assoc, List.singleton_append] at h3
    refine ⟨?_, h4.trans h2⟩
    rcases h3 with h | ⟨h1, h2, h3⟩
    · exact .inl h
    · exact .inr ⟨h1, by omega, h3⟩

theorem latch_nil (ls : List (List Bool)) : latch [] ls = ls := by
  cases ls with
  | nil => rfl
  | cons l ls => simp [latch]

theorem quiet_low (n : Nat) {s : Strip} (h : s.Quiet) :
    (s.watches (List.replicate n false)).Quiet ∧ (s.watches (List.replicate n false)).leds = s.leds := by
  induction n generalizing s with
  | zero => exact ⟨h, rfl⟩
  | succ n ih =>
    rw [List.replicate_succ]
    show ((s.sees false).watches _).Quiet ∧ ((s.sees false).watches _).leds = _
    have key : (s.sees false).Quiet ∧ (s.sees false).leds = s.leds := by
      obtain ⟨level, len, bits, leds⟩ := s
      obtain ⟨h1, h2⟩ := h
      simp only at h1 h2
      subst h1 h2
      simp only [Strip.sees]
      split
      · exact ⟨⟨rfl, rfl⟩, latch_nil _⟩
      · exact ⟨⟨rfl, rfl⟩, rfl⟩
    exact ⟨(ih key.1).1, (ih key.1).2.trans key.2⟩

/-- Low for long. -/
theorem got_reset (n : Nat) {s : Strip} {bs : List Bool} {d : Nat} (h : Got s bs d) (hd : d < 400) (hn : 400 ≤ n) :
    (s.watches (List.replicate n false)).Quiet ∧ (s.watches (List.replicate n false)).leds = latch bs s.leds := by
  -- the first low cycle
  have key : ∀ (j : Nat) (s : Strip), s.level = false → s.bits = bs → s.len + j + 1 = 400 →
      (s.watches (List.replicate (j + 1) false)).Quiet ∧ (s.watches (List.replicate (j + 1) false)).leds = latch bs s.leds := by
    intro j
    induction j with
    | zero =>
      intro s h1 h2 h3
      obtain ⟨level, len, bits, leds⟩ := s
      simp only at h1 h2 h3
      subst h1 h2
      show (Strip.sees ⟨false, len, bits, leds⟩ false).Quiet ∧ (Strip.sees ⟨false, len, bits, leds⟩ false).leds = _
      rw [sees_reset (by omega)]
      exact ⟨⟨rfl, rfl⟩, rfl⟩
    | succ j ih =>
      intro s h1 h2 h3
      rw [List.replicate_succ]
      show ((s.sees false).watches _).Quiet ∧ ((s.sees false).watches _).leds = _
      obtain ⟨level, len, bits, leds⟩ := s
      simp only at h1 h2 h3
      subst h1 h2
      rw [sees_low (by omega)]
      exact ih ⟨false, len + 1, bits, leds⟩ rfl rfl (by simp only; omega)
  obtain ⟨m, rfl⟩ : ∃ m, n = m + 1 := ⟨n - 1, by omega⟩
  rcases h with ⟨h1, h2, h3⟩ | ⟨h1, h2, h3⟩
  · rw [List.replicate_succ]
    show ((s.sees false).watches _).Quiet ∧ ((s.sees false).watches _).leds = _
    obtain ⟨level, len, bits, leds⟩ := s
    simp only at h1 h2 h3
    subst h1
    rw [sees_fall h2, h3, show m = (398 + 1) + (m - 399) by omega, repl_add, watches_append]
    obtain ⟨k1, k2⟩ := key 398 ⟨false, 1, bs, leds⟩ rfl rfl rfl
    obtain ⟨k3, k4⟩ := quiet_low (m - 399) k1
    exact ⟨k3, k4.trans k2⟩
  · obtain ⟨k1, k2⟩ := key (399 - s.len) s h1 h3 (by omega)
    rw [show m + 1 = (399 - s.len + 1) + (m - (399 - s.len)) by omega, repl_add, watches_append]
    obtain ⟨k3, k4⟩ := quiet_low (m - (399 - s.len)) k1
    exact ⟨k3, k4.trans k2⟩

/-- A frame that begins when the line is quiet. -/
theorem quiet_bits (c : Bool) (cs : List Bool) {s : Strip} (h : s.Quiet) :
    Got (s.watches ((c :: cs).flatMap bitLevels)) (c :: cs) 5 ∧ (s.watches ((c :: cs).flatMap bitLevels)).leds = s.leds := by
  have key : Got (s.watches (bitLevels c)) [c] 5 ∧ (s.watches (bitLevels c)).leds = s.leds := by
    obtain ⟨⟨h1, h2⟩, h3⟩ := quiet_low 3 h
    rw [show bitLevels c = List.replicate 3 false ++ [true, true, c, c, c, c, c] by cases c <;> rfl, watches_append]
    generalize s.watches (List.replicate 3 false) = r at h1 h2 h3
    obtain ⟨level, len, bits, leds⟩ := r
    simp only at h1 h2 h3
    subst h1 h2 h3
    cases c
    · exact ⟨.inr ⟨rfl, Nat.le_refl 5, rfl⟩, rfl⟩
    · exact ⟨.inl ⟨rfl, (show 4 ≤ 7 by decide), rfl⟩, rfl⟩
  rw [List.flatMap_cons, watches_append]
  obtain ⟨h1, h2⟩ := got_bits cs key.1 (by omega)
  exact ⟨h1, h2.trans key.2⟩

theorem latch_all (cs : List (List Bool)) (hc : ∀ c ∈ cs, c.length = 24) (more : List Bool) (ls : List (List Bool))
    (hl : ls.length = cs.length) : latch (cs.flatten ++ more) ls = cs := by
  induction cs generalizing ls with
  | nil => cases ls with
    | nil => rfl
    | cons l ls => simp at hl
  | cons c cs ih =>
    cases ls with
    | nil => simp at hl
    | cons l ls =>
      have h24 : c.length = 24 := hc c (List.mem_cons_self ..)
      rw [latch, if_pos (by simp only [List.flatten_cons, List.length_append]; omega), List.flatten_cons, List.append_assoc,
        List.take_left' h24, List.drop_left' h24, ih (fun x hx => hc x (List.mem_cons_of_mem _ hx)) ls (by simpa using hl)]

/-! ### The words -/

theorem word_bits (c : Rgb8) : topBits 24 (ws_word c) = colourBits c := by
  simp [topBits, colourBits, bits8, ws_word, List.range, List.range.loop]

/-! ### The driver -/

theorem ws_run_append (cs ds : List (Option (List Rgb8))) {s s' s'' : Ws} {ls ls' : List Bool} (h : ws_run cs s = some (ls, s'))
    (h' : ws_run ds s' = some (ls', s'')) : ws_run (cs ++ ds) s = some (ls ++ ls', s'') := by
  induction cs generalizing s ls with
  | nil => cases h; exact h'
  | cons c cs ih =>
    simp only [ws_run, List.cons_append] at h ⊢
    split at h
    · cases h
    · rename_i s1 h1
      split at h
      · cases h
      · rename_i l1 s2 h2
        cases h
        rw [ih h2]
        rfl

theorem ws_run_split (cs ds : List (Option (List Rgb8))) {s s'' : Ws} {l : List Bool} (h : ws_run (cs ++ ds) s = some (l, s'')) :
    ∃ ls s' ls', ws_run cs s = some (ls, s') ∧ ws_run ds s' = some (ls', s'') ∧ l = ls ++ ls' := by
  induction cs generalizing s l with
  | nil => exact ⟨[], s, l, rfl, h, rfl⟩
  | cons c cs ih =>
    simp only [ws_run, List.cons_append] at h ⊢
    split at h
    · cases h
    · rename_i s1 h1
      split at h
      · cases h
      · rename_i l1 s2 h2
        cases h
        obtain ⟨ls, s', ls', e1, e2, e3⟩ := ih h2
        exact ⟨_, s', ls', by rw [e1], e2, by rw [e3]; rfl⟩

/-- The queue is not longer than the work left. -/
theorem queue_work {s : Pio} {a : Line} (ht : s.todo = a.todo) : 240 * s.queue.length ≤ a.work := by
  have h : ∀ q : List (BitVec 32), (q.flatMap (topBits 24)).length = 24 * q.length := by
    intro q
    induction q with
    | nil => rfl
    | cons w q ih => simp only [List.flatMap_cons, List.length_append, ih, topBits, List.length_map, List.length_range, List.length_cons]; omega
  have := congrArg List.length ht
  simp only [Pio.todo, List.length_append, h] at this
  unfold Line.work
  omega

theorem work_idle {a : Line} (h : a.work = 0) : (a.next []).work = 0 := by
  obtain ⟨t, c⟩ := a
  have hst : ∀ (t : List Bool), t = [] → (Line.start (t ++ [])).work = 0 := by
    rintro _ rfl
    rfl
  cases c with
  | none => exact hst t (by
      have : t.length = 0 := by simp only [Line.work] at h; omega
      exact List.length_eq_zero_iff.mp this)
  | some y =>
    obtain ⟨b, k⟩ := y
    simp only [Line.work] at h
    simp only [Line.next, if_neg (show ¬ k < 10 by omega)]
    exact hst t (List.length_eq_zero_iff.mp (by omega))

/-- How long the driver still waits at most. -/
def WsDrv.left (w : Nat) : WsDrv → Nat
  | .idle => 0
  | .waiting n => n + 1
  | .pushing => (w - 1920) + 442

theorem left_lt {w q n : Nat} (hq : 240 * q ≤ w) (hq8 : ¬ q ≤ 8) (h : (w + 1 - 1920) + 442 ≤ n + 1) : (w - 1920) + 442 ≤ n := by
  have h9 : 1920 ≤ w := by omega
  rw [show w + 1 - 1920 = (w - 1920) + 1 from Nat.succ_sub h9] at h
  generalize w - 1920 = v at h ⊢
  omega

/-- Without calls the driver becomes idle. -/
theorem drv_idle (n : Nat) {s : Ws} {a : Line} (ht : s.pio.todo = a.todo) (hs : Sends s.pio a.cur) (h : s.drv.left a.work ≤ n) :
    ∃ ls s', ws_run (List.replicate n none) s = some (ls, s') ∧ s'.drv = .idle := by
  induction n generalizing s a with
  | zero =>
    obtain ⟨pio, drv⟩ := s
    cases drv with
    | idle => exact ⟨[], _, rfl, rfl⟩
    | waiting j => simp [WsDrv.left] at h
    | pushing => simp [WsDrv.left] at h
  | succ n ih =>
    obtain ⟨pio, drv⟩ := s
    have hstep : ws_step ⟨pio, drv⟩ none = some ⟨pio.cycle, ws_drv pio.cycle.queue.length drv⟩ := rfl
    obtain ⟨ht', hs'⟩ := step_line ht hs hstep
    have hl : (ws_drv pio.cycle.queue.length drv).left (a.next []).work ≤ n := by
      cases drv with
      | idle => exact Nat.zero_le _
      | waiting j =>
        cases j with
        | zero => exact Nat.zero_le _
        | succ j => simp only [ws_drv, WsDrv.left] at h ⊢; omega
      | pushing =>
        have hq := queue_work ht'
        simp only [pushed] at hq
        show WsDrv.left _ (if pio.cycle.queue.length ≤ 8 then WsDrv.waiting WS_WAIT else WsDrv.pushing) ≤ n
        by_cases hq8 : pio.cycle.queue.length ≤ 8
        · rw [if_pos hq8]
          simp only [WsDrv.left, WS_WAIT] at h ⊢; omega
        · rw [if_neg hq8]
          cases hw : a.work with
          | zero => rw [work_idle hw] at hq; omega
          | succ w =>
            have hw' := (work_next hw).1
            rw [hw'] at hq ⊢
            rw [hw] at h
            exact left_lt hq hq8 h
    obtain ⟨ls, s', e1, e2⟩ := ih ht' hs' hl
    refine ⟨pio.cycle.pin :: ls, s', ?_, e2⟩
    simp only [List.replicate_succ, ws_run, hstep, e1]

/-- Idle, with nothing to send. -/
def Rests (s : Ws) : Prop := s.drv = .idle ∧ s.pio.todo = [] ∧ Sends s.pio none

theorem pushed_eq (cs : List Rgb8) : pushed (some cs) = (cs.map colourBits).flatten := by
  rw [List.flatten_eq_flatMap, List.flatMap_map]
  show cs.flatMap _ = _
  simp only [word_bits, id]

theorem colourBits_length (c : Rgb8) : (colourBits c).length = 24 := by simp [colourBits, bits8]

theorem pushed_length (cs : List Rgb8) : (pushed (some cs)).length = 24 * cs.length := by
  rw [pushed_eq]
  induction cs with
  | nil => rfl
  | cons c cs ih => simp only [List.map_cons, List.flatten_cons, List.length_append, ih, colourBits_length, List.length_cons]; omega

/-- When a call has returned. -/
theorem ws_returns {s : Ws} (h : Rests s) (cs : List Rgb8) (hc : cs ≠ []) (m : Nat) (hm : 441 ≤ m) (hm' : 240 * cs.length ≤ m + 1479) :
    ∃ ls s', ws_run (some cs :: List.replicate m none) s = some (ls, s') ∧ s'.drv = .idle := by
  obtain ⟨hd, ht, hs⟩ := h
  have hcl : 0 < cs.length := List.length_pos_iff.mpr hc
  have hpl := pushed_length cs
  obtain ⟨pio, drv⟩ := s
  simp only at hd
  subst hd
  let s1 : Ws := ⟨{ pio with queue := pio.queue ++ cs.map ws_word }.cycle,
    ws_drv { pio with queue := pio.queue ++ cs.map ws_word }.cycle.queue.length .pushing⟩
  have h1 : ws_step ⟨pio, .idle⟩ (some cs) = some s1 := rfl
  obtain ⟨ht1, hs1⟩ := step_line (a := ⟨[], none⟩) ht hs h1
  have hw : (Line.next ⟨[], none⟩ (pushed (some cs))).work = 240 * cs.length - 1 := by
    rw [between_next (.inl rfl)]
    show (Line.start ([] ++ pushed (some cs))).work = _
    rw [List.nil_append]
    cases hp : pushed (some cs) with
    | nil => rw [hp] at hpl; simp at hpl; omega
    | cons b t =>
      rw [hp, List.length_cons] at hpl
      simp only [Line.start, Line.work]
      omega
  have hleft : s1.drv.left (Line.next ⟨[], none⟩ (pushed (some cs))).work ≤ m := by
    show (if _ then WsDrv.waiting WS_WAIT else WsDrv.pushing).left _ ≤ m
    rw [hw]
    split
    · simp only [WsDrv.left, WS_WAIT]; omega
    · simp only [WsDrv.left]
      have hq1 := queue_work ht1
      rw [hw] at hq1
      rename_i hn
      have hn' : ¬ s1.pio.queue.length ≤ 8 := hn
      omega
  obtain ⟨ls, s', e1, e2⟩ := drv_idle m ht1 hs1 hleft
  exact ⟨s1.pio.pin :: ls, s', by simp only [ws_run, h1, e1], e2⟩

theorem ws_nones (m : Nat) (s : Ws) : ∃ ls s', ws_run (List.replicate m none) s = some (ls, s') := by
  induction m generalizing s with
  | zero => exact ⟨_, _, rfl⟩
  | succ m ih =>
    obtain ⟨ls, s', e⟩ := ih ⟨s.pio.cycle, ws_drv s.pio.cycle.queue.length s.drv⟩
    have h1 : ws_step s none = some ⟨s.pio.cycle, ws_drv s.pio.cycle.queue.length s.drv⟩ := rfl
    exact ⟨s.pio.cycle.pin :: ls, s', by simp only [List.replicate_succ, ws_run, h1, e]⟩

/-- A call, then quiet for long enough. -/
theorem ws_one {s : Ws} (h : Rests s) (cs : List Rgb8) (hc : cs ≠ []) (m : Nat) (hm : 240 * cs.length + 400 ≤ m)
    {st : Strip} (hq : st.Quiet) (hl : st.leds.length = cs.length) :
    ∃ ls s', ws_run (some cs :: List.replicate m none) s = some (ls, s') ∧ Rests s' ∧ (st.watches ls).Quiet ∧ (st.watches ls).Shows cs := by
  have hcl : 0 < cs.length := List.length_pos_iff.mpr hc
  have hpl := pushed_length cs
  obtain ⟨ls, s', hrun, e2⟩ := ws_returns h cs hc m (by omega) (by omega)
  obtain ⟨hd, ht, hs⟩ := h
  obtain ⟨l1, l2, l3⟩ := run_line (a := ⟨[], none⟩) ht hs hrun
  have hmap : List.map pushed (some cs :: List.replicate m none) = pushed (some cs) :: List.replicate m [] := by
    rw [List.map_cons, List.map_replicate]; rfl
  rw [hmap] at l1 l2 l3
  obtain ⟨k1, k2, _, k4⟩ := line_one (pushed (some cs)) m ⟨[], none⟩ (.inl rfl) rfl (by omega)
  refine ⟨_, s', hrun, ⟨e2, l2.trans k2, ?_⟩, ?_⟩
  · rw [← k4 (by omega)]; exact l3
  rw [l1, k1]
  cases hp : pushed (some cs) with
  | nil => rw [hp] at hpl; simp at hpl; omega
  | cons b t =>
    obtain ⟨g1, g2⟩ := quiet_bits b t hq
    rw [watches_append]
    have hbt : (b :: t).length = 24 * cs.length := by rw [← hp]; exact hpl
    obtain ⟨r1, r2⟩ := got_reset (m + 1 - 10 * (b :: t).length) g1 (by omega) (by omega)
    refine ⟨r1, ?_⟩
    unfold Strip.Shows
    rw [r2, g2, ← hp, pushed_eq, ← List.append_nil (List.flatten _)]
    exact latch_all _ (fun x hx => by obtain ⟨c, _, rfl⟩ := List.mem_map.mp hx; exact colourBits_length c) [] _ (by simpa using hl)

/-- Two calls, the second too early. -/
theorem ws_two {s : Ws} (h : Rests s) (cs ds : List Rgb8) (hc : cs ≠ []) (hds : ds.length = cs.length) (k m : Nat)
    (hk : k ≤ 240 * cs.length + 390) (hm : 480 * cs.length + 400 ≤ m)
    {ls : List Bool} {s' : Ws} (hrun : ws_run (some cs :: (List.replicate k none ++ some ds :: List.replicate m none)) s = some (ls, s'))
    {st : Strip} (hq : st.Quiet) (hl : st.leds.length = cs.length) : (st.watches ls).Quiet ∧ (st.watches ls).Shows cs := by
  obtain ⟨hd, ht, hs⟩ := h
  have hcl : 0 < cs.length := List.length_pos_iff.mpr hc
  have hpl := pushed_length cs
  have hpl' := pushed_length ds
  obtain ⟨l1, _, _⟩ := run_line (a := ⟨[], none⟩) ht hs hrun
  have hmap : List.map pushed (some cs :: (List.replicate k none ++ some ds :: List.replicate m none)) =
      pushed (some cs) :: (List.replicate k [] ++ pushed (some ds) :: List.replicate m []) := by
    simp only [List.map_cons, List.map_append, List.map_replicate]; rfl
  rw [hmap] at l1
  have hne : pushed (some cs) ≠ [] := fun e => by rw [e] at hpl; simp at hpl; omega
  obtain ⟨j, k1, k2⟩ := line_two (pushed (some cs)) (pushed (some ds)) k m ⟨[], none⟩ (.inl rfl) rfl hne (by omega)
  rw [l1, k1]
  have hshow : latch (pushed (some cs) ++ pushed (some ds)) st.leds = cs.map colourBits := by
    rw [pushed_eq cs]
    exact latch_all _ (fun x hx => by obtain ⟨c, _, rfl⟩ := List.mem_map.mp hx; exact colourBits_length c) _ _ (by simpa using hl)
  cases hp : pushed (some cs) with
  | nil => exact absurd hp hne
  | cons b t =>
    have hbt : (b :: t).length = 24 * cs.length := by rw [← hp]; exact hpl
    rw [hp] at hshow k2
    obtain ⟨g1, g2⟩ := quiet_bits b t hq
    rw [watches_append, watches_append, watches_append]
    obtain ⟨g3, g4, _⟩ := got_low (k + 1 - 10 * (b :: t).length) g1 (by omega)
    obtain ⟨g5, g6⟩ := got_bits (pushed (some ds)) g3 (by omega)
    obtain ⟨r1, r2⟩ := got_reset j g5 (by omega) (by omega)
    refine ⟨r1, ?_⟩
    unfold Strip.Shows
    rw [r2, g6, g4, g2, hshow]

end PRpc
