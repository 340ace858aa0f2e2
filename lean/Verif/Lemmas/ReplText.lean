import Verif.Spec.Repl
/-! Helper lemmas for C93: words and numbers. -/

namespace PRpc
open Spec

theorem white_iff (c : Char) : is_whitespace c = true ↔ White c := by
  simp only [is_whitespace, White, Bool.or_eq_true, Bool.and_eq_true, beq_iff_eq, decide_eq_true_eq, List.mem_cons, List.not_mem_nil, or_false]
  omega

theorem not_white_iff (c : Char) : is_whitespace c = false ↔ ¬ White c := by
  rw [← white_iff]; simp

theorem split_on_ne (p : Char → Bool) (s : List Char) : split_on p s ≠ [] := by
  cases s with
  | nil => simp [split_on]
  | cons c cs =>
    simp only [split_on]
    split
    · simp
    · split <;> simp

/-- A word, then the rest. -/
theorem split_on_word {p : Char → Bool} {w : List Char} (hw : ∀ c ∈ w, p c = false) (rest : List Char) :
    ∃ v vs, split_on p rest = v :: vs ∧ split_on p (w ++ rest) = (w ++ v) :: vs := by
  induction w with
  | nil =>
    cases h : split_on p rest with
    | nil => exact absurd h (split_on_ne p rest)
    | cons v vs => exact ⟨v, vs, rfl, h⟩
  | cons c cs ih =>
    obtain ⟨v, vs, h1, h2⟩ := ih fun x hx => hw x (List.mem_cons_of_mem _ hx)
    refine ⟨v, vs, h1, ?_⟩
    simp only [List.cons_append, split_on, hw c (List.mem_cons_self ..), h2]
    simp

theorem split_white {c : Char} (h : White c) (s : List Char) : split_whitespace (c :: s) = split_whitespace s := by
  simp [split_whitespace, split_on, (white_iff c).mpr h]

theorem split_pre {pre : List Char} (h : ∀ c ∈ pre, White c) (s : List Char) : split_whitespace (pre ++ s) = split_whitespace s := by
  induction pre with
  | nil => rfl
  | cons c cs ih =>
    rw [List.cons_append, split_white (h c (List.mem_cons_self ..)), ih fun x hx => h x (List.mem_cons_of_mem _ hx)]

theorem split_word {w rest : List Char} (hne : w ≠ []) (hw : ∀ c ∈ w, ¬ White c) (hend : ∀ c, rest.head? = some c → White c) :
    split_whitespace (w ++ rest) = w :: split_whitespace rest := by
  obtain ⟨v, vs, h1, h2⟩ := split_on_word (p := is_whitespace) (fun c hc => (not_white_iff c).mpr (hw c hc)) rest
  have hv : v = [] := by
    cases rest with
    | nil => simp [split_on] at h1; exact h1.1
    | cons c cs =>
      have := (white_iff c).mpr (hend c rfl)
      simp only [split_on, this, if_true, List.cons.injEq] at h1
      exact h1.1.symm
  subst hv
  simp only [split_whitespace, h1, h2, List.append_nil]
  cases w with
  | nil => exact absurd rfl hne
  | cons => simp

theorem words_eq {s : List Char} {ws : List (List Char)} (h : Words s ws) : ws = split_whitespace s := by
  induction h with
  | nil s h =>
    have := split_pre h []
    rw [List.append_nil] at this
    rw [this]
    simp [split_whitespace, split_on]
  | cons pre w rest ws hpre hne hw hend h ih =>
    rw [List.append_assoc, split_pre hpre, split_word hne hw hend, ih]

theorem take_drop_pre (p : Char → Bool) (s : List Char) : ∃ a b, s = a ++ b ∧ (∀ c ∈ a, p c = true) ∧ ∀ c, b.head? = some c → p c = false := by
  induction s with
  | nil => exact ⟨[], [], rfl, by simp, by simp⟩
  | cons c cs ih =>
    cases h : p c with
    | false => exact ⟨[], c :: cs, rfl, by simp, fun x hx => by cases hx; exact h⟩
    | true =>
      obtain ⟨a, b, e, h1, h2⟩ := ih
      refine ⟨c :: a, b, by rw [e]; rfl, fun x hx => ?_, h2⟩
      rcases List.mem_cons.mp hx with rfl | hx
      · exact h
      · exact h1 x hx

theorem words_exist : ∀ (n : Nat) (s : List Char), s.length ≤ n → ∃ ws, Words s ws := by
  intro n
  induction n with
  | zero => intro s h; rw [List.eq_nil_of_length_eq_zero (Nat.le_zero.mp h)]; exact ⟨[], .nil [] (by simp)⟩
  | succ n ih =>
    intro s h
    obtain ⟨pre, b, rfl, h1, h2⟩ := take_drop_pre is_whitespace s
    obtain ⟨w, rest, rfl, h3, h4⟩ := take_drop_pre (fun c => !is_whitespace c) b
    have hpre : ∀ c ∈ pre, White c := fun c hc => (white_iff c).mp (h1 c hc)
    by_cases hw : w = []
    · subst hw
      cases rest with
      | nil => exact ⟨[], by simpa using Words.nil pre hpre⟩
      | cons c cs =>
        have a := h4 c rfl
        have b := h2 c rfl
        simp [b] at a
    · have : 0 < w.length := List.length_pos_iff.mpr hw
      simp only [List.length_append] at h
      obtain ⟨ws, hr⟩ := ih rest (by omega)
      rw [← List.append_assoc]
      exact ⟨w :: ws, .cons pre w rest ws hpre hw (fun c hc => (not_white_iff c).mp (by simpa using h3 c hc))
        (fun c hc => (white_iff c).mp (by simpa using h4 c hc)) hr⟩

theorem words_iff (s : List Char) (ws : List (List Char)) : Words s ws ↔ split_whitespace s = ws := by
  constructor
  · exact fun h => (words_eq h).symm
  · rintro rfl
    obtain ⟨ws, h⟩ := words_exist s.length s (Nat.le_refl _)
    rwa [← words_eq h]

/-! ### Numbers -/

theorem decimal_foldl (ds : List Char) : ∀ n : Nat, n ≤ ds.foldl (fun n c => 10 * n + (c.toNat - '0'.toNat)) n := by
  induction ds with
  | nil => exact fun n => Nat.le_refl n
  | cons c cs ih => exact fun n => Nat.le_trans (by omega) (ih (10 * n + (c.toNat - '0'.toNat)))

theorem parse_digits_iff {w : Nat} (ds : List Char) : ∀ (r n : BitVec w), parse_digits w r ds = some n ↔
    (∀ c ∈ ds, '0'.toNat ≤ c.toNat ∧ c.toNat ≤ '9'.toNat) ∧ ds.foldl (fun n c => 10 * n + (c.toNat - '0'.toNat)) r.toNat = n.toNat := by
  have h0 : '0'.toNat = 48 := rfl
  have h9 : '9'.toNat = 57 := rfl
  induction ds with
  | nil =>
    intro r n
    simp only [parse_digits, List.foldl_nil, Option.some.injEq, List.not_mem_nil, false_implies, implies_true, true_and]
    exact BitVec.toNat_inj.symm
  | cons c cs ih =>
    intro r n
    simp only [parse_digits, List.foldl_cons, List.mem_cons, forall_eq_or_imp]
    have hge := decimal_foldl cs (10 * r.toNat + (c.toNat - '0'.toNat))
    have hn := n.isLt
    by_cases hd : 48 ≤ c.toNat ∧ c.toNat ≤ 57
    · have : to_digit c = some (c.toNat - 48) := by simp [to_digit, hd]
      simp only [this]
      rw [h0] at hge ⊢
      by_cases hlt : r.toNat * 10 + (c.toNat - 48) < 2 ^ w
      · rw [if_pos (by omega), if_pos hlt, ih, BitVec.toNat_ofNat, Nat.mod_eq_of_lt hlt, Nat.mul_comm, h0, h9]
        simp [hd]
      · have : ¬ ((∀ a ∈ cs, 48 ≤ a.toNat ∧ a.toNat ≤ '9'.toNat) ∧
          cs.foldl (fun n c => 10 * n + (c.toNat - 48)) (10 * r.toNat + (c.toNat - 48)) = n.toNat) := by
          rintro ⟨_, e⟩
          omega
        constructor
        · intro h
          repeat' split at h
          all_goals cases h
        · rintro ⟨⟨_, a⟩, e⟩
          exact absurd ⟨a, e⟩ this
    · have : to_digit c = none := by simp [to_digit, hd]
      simp only [this, h0, h9]
      constructor
      · intro h; cases h
      · rintro ⟨⟨a, _⟩, _⟩; exact absurd a hd

theorem parse_iff {w : Nat} (t : List Char) (n : BitVec w) : parse_uint w t = some n ↔ Numeral w t n := by
  have hz : (0 : BitVec w).toNat = 0 := by simp
  cases t with
  | nil =>
    refine ⟨(fun h => nomatch h), ?_⟩
    rintro ⟨ds, h | h, hne, _⟩
    · exact absurd h.symm hne
    · cases h
  | cons c cs =>
    simp only [parse_uint]
    by_cases hc : c = '+'
    · subst hc
      rw [if_pos rfl]
      constructor
      · intro h
        split at h
        · cases h
        · rename_i he
          rw [parse_digits_iff, hz] at h
          exact ⟨cs, .inr rfl, by intro e; rw [e] at he; exact he rfl, h.1, h.2⟩
      · rintro ⟨ds, h | h, hne, hd, he⟩
        · subst h
          have := (hd '+' (List.mem_cons_self ..)).1
          exact absurd this (by decide)
        · cases h
          rw [if_neg (by simpa using hne), parse_digits_iff, hz]
          exact ⟨hd, he⟩
    · rw [if_neg hc, parse_digits_iff, hz]
      constructor
      · exact fun h => ⟨c :: cs, .inl rfl, by simp, h.1, h.2⟩
      · rintro ⟨ds, h | h, hne, hd, he⟩
        · subst h; exact ⟨hd, he⟩
        · cases h; exact absurd rfl hc

theorem parse_none {w : Nat} (t : List Char) : parse_uint w t = none ↔ NotNumeral w t := by
  constructor
  · intro h n hn
    rw [(parse_iff t n).mpr hn] at h
    cases h
  · intro h
    cases e : parse_uint w t with
    | none => rfl
    | some n => exact absurd ((parse_iff t n).mp e) (h n)

theorem range_iff (t : List Char) (r : AccelRange) : parse_range t = some r ↔ RangeWord t r := by
  constructor
  · unfold parse_range
    intro h
    split at h
    · rename_i e; cases h; subst e; constructor
    · split at h
      · rename_i e; cases h; subst e; constructor
      · split at h
        · rename_i e; cases h; subst e; constructor
        · split at h
          · rename_i e; cases h; subst e; constructor
          · cases h
  · intro h
    cases h <;> rfl

theorem range_none (t : List Char) : parse_range t = none ↔ ∀ r, ¬ RangeWord t r := by
  constructor
  · intro h r hr
    rw [(range_iff t r).mpr hr] at h
    cases h
  · intro h
    cases e : parse_range t with
    | none => rfl
    | some n => exact absurd ((range_iff t n).mp e) (h n)

/-! ### What a line leads to -/

/-- What the line asks for. -/
inductive LineCase (line : List Char) : List Printed × ReplPc → Prop where
  | complaint (p : Printed) (h : Complaint line p) : LineCase line ([p, .prompt], .reading)
  | bad (h : BadColour line) : LineCase line ([], .panicked)
  | ping (h : Words line [['p', 'i', 'n', 'g']]) : LineCase line ([], .calling (.ping 42) .pinged)
  | ping_n (t) (n : BitVec 32) (h : Words line [['p', 'i', 'n', 'g'], t]) (hn : Numeral 32 t n) : LineCase line ([], .calling (.ping n) .pinged)
  | rgb (tp tr tg tb) (pos : BitVec 32) (red green blue : Byte) (h : Words line [['r', 'g', 'b'], tp, tr, tg, tb])
      (hp : Numeral 32 tp pos) (hr : Numeral 8 tr red) (hg : Numeral 8 tg green) (hb : Numeral 8 tb blue) :
      LineCase line ([], .calling (.set_rgb_single pos red green blue) .colour)
  | rgball (tr tg tb) (red green blue : Byte) (h : Words line [['r', 'g', 'b', 'a', 'l', 'l'], tr, tg, tb])
      (hr : Numeral 8 tr red) (hg : Numeral 8 tg green) (hb : Numeral 8 tb blue) :
      LineCase line ([], .calling (.set_all_rgb_single red green blue) .colour)
  | listen (tms trange tdur) (ms dur : BitVec 32) (range : AccelRange)
      (h : Words line [['a', 'c', 'c', 'e', 'l'], ['l', 'i', 's', 't', 'e', 'n'], tms, trange, tdur])
      (hms : Numeral 32 tms ms) (hr : RangeWord trange range) (hdur : Numeral 32 tdur dur) :
      LineCase line ([], .subscribing ms range dur)
  | start (tms trange) (ms : BitVec 32) (range : AccelRange)
      (h : Words line [['a', 'c', 'c', 'e', 'l'], ['s', 't', 'a', 'r', 't'], tms, trange])
      (hms : Numeral 32 tms ms) (hr : RangeWord trange range) : LineCase line ([], .calling (.start_accelerometer ms range) .started)
  | stop (h : Words line [['a', 'c', 'c', 'e', 'l'], ['s', 't', 'o', 'p']]) : LineCase line ([], .calling .stop_accelerometer .stopped)
  | schema (h : Words line [['s', 'c', 'h', 'e', 'm', 'a']]) : LineCase line ([], .calling .schemas .schema)

theorem line_case (line : List Char) : LineCase line (repl_line line) := by
  have hw : Words line (split_whitespace line) := (words_iff _ _).mpr rfl
  unfold repl_line
  split
  · rename_i w e
    rw [e] at hw
    split
    · rename_i h; subst h; exact .ping hw
    · rename_i h1
      split
      · rename_i h; subst h; exact .schema hw
      · rename_i h2
        refine .complaint _ (.unknown _ hw fun hs => ?_)
        cases hs
        · exact h1 rfl
        · exact h2 rfl
  · rename_i w x e
    rw [e] at hw
    split
    · rename_i h; subst h
      unfold arm_ping
      split
      · rename_i h; exact .complaint _ (.ping _ hw ((parse_none _).mp h))
      · rename_i n h; exact .ping_n _ n hw ((parse_iff _ _).mp h)
    · rename_i h1
      split
      · rename_i h; obtain ⟨rfl, rfl⟩ := h; exact .stop hw
      · rename_i h2
        refine .complaint _ (.unknown _ hw fun hs => ?_)
        cases hs
        · exact h1 rfl
        · exact h2 ⟨rfl, rfl⟩
  · rename_i w x y z e
    rw [e] at hw
    split
    · rename_i h; subst h
      unfold arm_rgball
      split
      · rename_i r g b e1 e2 e3
        exact .rgball _ _ _ r g b hw ((parse_iff _ _).mp e1) ((parse_iff _ _).mp e2) ((parse_iff _ _).mp e3)
      · rename_i hn
        refine .bad (.rgball _ _ _ hw ?_)
        simp only [← parse_none]
        cases e1 : parse_uint 8 x with
        | none => exact .inl rfl
        | some r => cases e2 : parse_uint 8 y with
          | none => exact .inr (.inl rfl)
          | some g => cases e3 : parse_uint 8 z with
            | none => exact .inr (.inr rfl)
            | some b => exact absurd e3 (hn r g b e1 e2)
    · rename_i h1
      split
      · rename_i h; obtain ⟨rfl, rfl⟩ := h
        unfold arm_start
        split
        · rename_i h; exact .complaint _ (.start_ms _ _ hw ((parse_none _).mp h))
        · rename_i ms hms
          split
          · rename_i h; exact .complaint _ (.start_range _ _ hw ⟨ms, (parse_iff _ _).mp hms⟩ ((range_none _).mp h))
          · rename_i r h; exact .start _ _ ms r hw ((parse_iff _ _).mp hms) ((range_iff _ _).mp h)
      · rename_i h2
        refine .complaint _ (.unknown _ hw fun hs => ?_)
        cases hs
        · exact h1 rfl
        · exact h2 ⟨rfl, rfl⟩
  · rename_i w x y z v e
    rw [e] at hw
    split
    · rename_i h; subst h
      unfold arm_rgb
      split
      · rename_i p r g b e0 e1 e2 e3
        exact .rgb _ _ _ _ p r g b hw ((parse_iff _ _).mp e0) ((parse_iff _ _).mp e1) ((parse_iff _ _).mp e2) ((parse_iff _ _).mp e3)
      · rename_i hn
        refine .bad (.rgb _ _ _ _ hw ?_)
        simp only [← parse_none]
        cases e0 : parse_uint 32 x with
        | none => exact .inl rfl
        | some p => cases e1 : parse_uint 8 y with
          | none => exact .inr (.inl rfl)
          | some r => cases e2 : parse_uint 8 z with
            | none => exact .inr (.inr (.inl rfl))
            | some g => cases e3 : parse_uint 8 v with
              | none => exact .inr (.inr (.inr rfl))
              | some b => exact absurd e3 (hn p r g b e0 e1 e2)
    · rename_i h1
      split
      · rename_i h; obtain ⟨rfl, rfl⟩ := h
        unfold arm_listen
        split
        · rename_i h; exact .complaint _ (.listen_ms _ _ _ hw ((parse_none _).mp h))
        · rename_i ms hms
          split
          · rename_i h; exact .complaint _ (.listen_dur _ _ _ hw ⟨ms, (parse_iff _ _).mp hms⟩ ((parse_none _).mp h))
          · rename_i dur hdur
            split
            · rename_i h
              exact .complaint _ (.listen_range _ _ _ hw ⟨ms, (parse_iff _ _).mp hms⟩ ⟨dur, (parse_iff _ _).mp hdur⟩ ((range_none _).mp h))
            · rename_i r h
              exact .listen _ _ _ ms dur r hw ((parse_iff _ _).mp hms) ((range_iff _ _).mp h) ((parse_iff _ _).mp hdur)
      · rename_i h2
        refine .complaint _ (.unknown _ hw fun hs => ?_)
        cases hs
        · exact h1 rfl
        · exact h2 ⟨rfl, rfl⟩
  · rename_i n1 n2 n4 n5
    refine .complaint _ (.unknown _ hw fun hs => ?_)
    generalize split_whitespace line = ws at *
    cases hs
    · exact n1 _ rfl
    · exact n2 _ _ rfl
    · exact n5 _ _ _ _ _ rfl
    · exact n4 _ _ _ _ rfl
    · exact n5 _ _ _ _ _ rfl
    · exact n4 _ _ _ _ rfl
    · exact n2 _ _ rfl
    · exact n1 _ rfl

end PRpc
