import Verif.Lemmas.SchemaEq
import Verif.Spec.Uniques
/-! Helper lemmas for the unique-type lists. -/

namespace PRpc

/-- Pure counterpart of one insertion. -/
def addU (out : List Nty) (x : Nty) : List Nty := if is_prim x.ty ∨ x ∈ out then out else out ++ [x]

/-- Pure counterpart of a sequence of insertions. -/
def addAll (out l : List Nty) : List Nty := l.foldl addU out

/-- The array holding `l` in its first cells. -/
def rep (max : Nat) (l : List Nty) : TyArr × Nat :=
  (l.map some ++ List.replicate (max - l.length) none, l.length)

theorem rep_nil (max : Nat) : rep max [] = (empty_arr max, 0) := by simp [rep, empty_arr]

theorem arr_get_rep (max : Nat) (l : List Nty) (i : Nat) (h : i < l.length) :
    arr_get (rep max l).1 i = .ok l[i] := by
  simp [arr_get, rep, List.getElem?_append_left, h]

theorem arr_set_rep (max : Nat) (l : List Nty) (x : Nty) (h : l.length < max) :
    arr_set (rep max l).1 l.length x = .ok (rep max (l ++ [x])).1 := by
  unfold arr_set
  rw [if_pos (by simp [rep]; omega)]
  simp only [rep, Exec.ok.injEq, List.map_append, List.length_append, List.map_cons, List.map_nil, List.length_cons,
    List.length_nil]
  rw [List.set_append_right _ _ (by simp)]
  have : max - l.length = (max - (l.length + 1)) + 1 := by omega
  rw [this, List.replicate_succ]
  simp

theorem find_self_eq (max : Nat) (l : List Nty) (x : Nty) (i : Nat) (found : Bool) :
    find_self (rep max l).1 l.length x i found = .ok (found || decide (x ∈ l.drop i)) := by
  induction h : l.length - i generalizing i found with
  | zero =>
    rw [find_self, if_neg (by simp; omega), List.drop_eq_nil_of_le (by omega)]
    simp
  | succ n ih =>
    rw [find_self]
    cases found with
    | true => simp
    | false =>
      have hi : i < l.length := by omega
      rw [if_pos (by simp [hi]), arr_get_rep _ _ _ hi]
      simp only [Exec.ok_bind]
      rw [ih _ _ (by omega), List.drop_eq_getElem_cons hi, nty_eq_decide]
      generalize l.drop (i + 1) = r
      generalize l[i] = y
      by_cases e : x = y <;> simp [e]

theorem find_out_eq (max : Nat) (l : List Nty) (x : Nty) (i : Nat) (found : Bool) :
    find_out (rep max l).1 l.length x i found = .ok (found || decide (x ∈ l.drop i)) := by
  induction h : l.length - i generalizing i found with
  | zero =>
    rw [find_out, if_neg (by simp; omega), List.drop_eq_nil_of_le (by omega)]
    simp
  | succ n ih =>
    rw [find_out]
    cases found with
    | true => simp
    | false =>
      have hi : i < l.length := by omega
      rw [if_pos (by simp [hi]), arr_get_rep _ _ _ hi]
      simp only [Exec.ok_bind]
      rw [ih _ _ (by omega), List.drop_eq_getElem_cons hi, nty_eq_decide]
      generalize l.drop (i + 1) = r
      generalize l[i] = y
      by_cases e : x = y
      · simp [e]
      · simp [e, Ne.symm e]

theorem merge_find_eq (max : Nat) (l : List Nty) (x : Nty) (i : Nat) (found : Bool) :
    merge_find (rep max l).1 l.length x i found = .ok (found || decide (x ∈ l.drop i)) := by
  induction h : l.length - i generalizing i found with
  | zero =>
    rw [merge_find, if_neg (by simp; omega), List.drop_eq_nil_of_le (by omega)]
    simp
  | succ n ih =>
    rw [merge_find]
    cases found with
    | true => simp
    | false =>
      have hi : i < l.length := by omega
      rw [if_pos (by simp [hi]), arr_get_rep _ _ _ hi]
      simp only [Exec.ok_bind]
      rw [ih _ _ (by omega), List.drop_eq_getElem_cons hi, nty_eq_decide]
      generalize l.drop (i + 1) = r
      generalize l[i] = y
      by_cases e : x = y <;> simp [e]

theorem addU_length (l : List Nty) (x : Nty) : l.length ≤ (addU l x).length := by
  unfold addU; split <;> simp

theorem addAll_length_mono (out l : List Nty) : out.length ≤ (addAll out l).length := by
  induction l generalizing out with
  | nil => simp [addAll]
  | cons x xs ih => exact Nat.le_trans (addU_length out x) (ih (addU out x))

theorem chew_insert_eq (max : Nat) (l : List Nty) (x : Nty) (h : (addU l x).length ≤ max) :
    chew_insert (rep max l) x = .ok (rep max (addU l x)) := by
  have e : rep max l = ((rep max l).1, l.length) := rfl
  rw [chew_insert, e]
  simp only [find_out_eq, Exec.ok_bind, List.drop_zero]
  by_cases hp : is_prim x.ty = true ∨ x ∈ l
  · have : (is_prim x.ty || decide (x ∈ l)) = true := by simpa using hp
    rw [addU, if_pos hp]
    simp only [this, Bool.not_true, Bool.false_eq_true, if_false]
    rfl
  · have h2 : (is_prim x.ty || decide (x ∈ l)) = false := by
      simp only [not_or] at hp; simp [hp]
    rw [addU, if_neg hp] at h
    simp only [List.length_append, List.length_cons, List.length_nil] at h
    simp only [h2, Bool.not_false, if_true, addU, hp, if_false, arr_set_rep max l x (by omega), Exec.ok_bind]
    simp [rep]

theorem chew_absorb_eq (max m : Nat) (a : List Nty) (j : Nat) (l : List Nty)
    (h : (addAll l (a.drop j)).length ≤ max) :
    chew_absorb (rep m a).1 a.length j (rep max l) = .ok (rep max (addAll l (a.drop j))) := by
  induction hn : a.length - j generalizing j l with
  | zero =>
    rw [chew_absorb, if_neg (by omega), List.drop_eq_nil_of_le (by omega)]
    rfl
  | succ n ih =>
    have hj : j < a.length := by omega
    rw [chew_absorb, if_pos hj, arr_get_rep _ _ _ hj]
    simp only [Exec.ok_bind]
    rw [List.drop_eq_getElem_cons hj] at h ⊢
    have h' : (addAll (addU l a[j]) (a.drop (j + 1))).length ≤ max := h
    rw [chew_insert_eq _ _ _ (Nat.le_trans (addAll_length_mono _ _) h')]
    simp only [Exec.ok_bind]
    rw [ih _ _ h' (by omega)]
    rfl

theorem mem_addU {x y : Nty} {out : List Nty} : y ∈ addU out x ↔ y ∈ out ∨ (y = x ∧ is_prim x.ty = false) := by
  unfold addU
  split
  · rename_i h
    constructor
    · exact Or.inl
    · rintro (h' | ⟨rfl, hp⟩)
      · exact h'
      · rcases h with h | h
        · rw [hp] at h; cases h
        · exact h
  · rename_i h
    simp only [not_or, Bool.not_eq_true] at h
    simp [h.1]

theorem mem_addAll {y : Nty} {out l : List Nty} :
    y ∈ addAll out l ↔ y ∈ out ∨ (y ∈ l ∧ is_prim y.ty = false) := by
  induction l generalizing out with
  | nil => simp [addAll]
  | cons x xs ih =>
    show y ∈ addAll (addU out x) xs ↔ _
    rw [ih, mem_addU, List.mem_cons]
    constructor
    · rintro ((h | ⟨rfl, h⟩) | ⟨h, h'⟩)
      · exact Or.inl h
      · exact Or.inr ⟨Or.inl rfl, h⟩
      · exact Or.inr ⟨Or.inr h, h'⟩
    · rintro (h | ⟨rfl | h, h'⟩)
      · exact Or.inl (Or.inl h)
      · exact Or.inl (Or.inr ⟨rfl, h'⟩)
      · exact Or.inr ⟨h, h'⟩

theorem addAll_append (out a b : List Nty) : addAll out (a ++ b) = addAll (addAll out a) b := by
  simp [addAll, List.foldl_append]

theorem addAll_addU (out acc : List Nty) (x : Nty) :
    addAll out (addU acc x) = addU (addAll out acc) x := by
  by_cases h : is_prim x.ty = true ∨ x ∈ acc
  · rw [addU, if_pos h, addU, if_pos]
    rcases h with h | h
    · exact Or.inl h
    · by_cases hp : is_prim x.ty = true
      · exact Or.inl hp
      · exact Or.inr (mem_addAll.mpr (Or.inr ⟨h, by simpa using hp⟩))
  · conv => lhs; rw [addU, if_neg h, addAll_append]
    rfl

theorem addAll_addAll (out acc l : List Nty) : addAll out (addAll acc l) = addAll (addAll out acc) l := by
  induction l generalizing acc with
  | nil => rfl
  | cons x xs ih =>
    show addAll out (addAll (addU acc x) xs) = addAll (addU (addAll out acc) x) xs
    rw [ih, addAll_addU]

/-- The types visited, in the order in which they are offered for insertion. -/
def visitVal (f : Nty → List Nty) : Nval → List Nty | .mk _ t => f t

mutual
def postN : Nty → List Nty
  | .mk n t => postD t ++ [.mk n t]
def postD : Dmt → List Nty
  | .Prim _ => []
  | .UnitStruct => []
  | .Option t => postN t
  | .NewtypeStruct t => postN t
  | .Seq t => postN t
  | .Tuple ts => postNs ts
  | .TupleStruct ts => postNs ts
  | .Map k v => postN k ++ postN v
  | .Struct vs => postVs vs
  | .Enum vs => postEs vs
def postNs : List Nty → List Nty
  | [] => []
  | t :: ts => postN t ++ postNs ts
def postVs : List Nval → List Nty
  | [] => []
  | .mk _ t :: ts => postN t ++ postVs ts
def postEs : List Nvar → List Nty
  | [] => []
  | .mk _ v :: vs => postE v ++ postEs vs
def postE : Dmv → List Nty
  | .UnitVariant => []
  | .NewtypeVariant t => [t]
  | .TupleVariant ts => postNs ts
  | .StructVariant vs => postVs vs
end

/-- Number of non-primitive types in a list. -/
def cnt (l : List Nty) : Nat := (l.filter (fun x => !is_prim x.ty)).length

theorem cnt_append (a b : List Nty) : cnt (a ++ b) = cnt a + cnt b := by simp [cnt]

theorem addU_length_le (out : List Nty) (x : Nty) : (addU out x).length ≤ out.length + cnt [x] := by
  unfold addU
  split
  · omega
  · rename_i h
    simp only [not_or, Bool.not_eq_true] at h
    simp [cnt, h.1]

theorem addAll_length (out l : List Nty) : (addAll out l).length ≤ out.length + cnt l := by
  induction l generalizing out with
  | nil => simp [addAll, cnt]
  | cons x xs ih =>
    have h1 := ih (addU out x)
    have h2 := addU_length_le out x
    have h3 : cnt (x :: xs) = cnt [x] + cnt xs := cnt_append [x] xs
    show (addAll (addU out x) xs).length ≤ _
    omega

mutual
theorem cnt_postN : ∀ t : Nty, cnt (postN t) ≤ nty_upper t
  | .mk n t => by
    have := cnt_postD t
    rw [postN, cnt_append, nty_upper]
    by_cases h : is_prim t = true <;> simp [cnt, Nty.ty, h] at * <;> omega
theorem cnt_postD : ∀ t : Dmt, cnt (postD t) ≤ dmt_upper t
  | .Prim _ => by simp [postD, cnt]
  | .UnitStruct => by simp [postD, cnt]
  | .Option t => by simpa [postD, dmt_upper] using cnt_postN t
  | .NewtypeStruct t => by simpa [postD, dmt_upper] using cnt_postN t
  | .Seq t => by simpa [postD, dmt_upper] using cnt_postN t
  | .Tuple t => by simpa [postD, dmt_upper] using cnt_postNs t
  | .TupleStruct t => by simpa [postD, dmt_upper] using cnt_postNs t
  | .Map k v => by
    have := cnt_postN k
    have := cnt_postN v
    simp only [postD, dmt_upper, cnt_append]; omega
  | .Struct t => by simpa [postD, dmt_upper] using cnt_postVs t
  | .Enum t => by simpa [postD, dmt_upper] using cnt_postEs t
theorem cnt_postNs : ∀ t : List Nty, cnt (postNs t) ≤ ntys_upper t
  | [] => by simp [postNs, cnt]
  | t :: ts => by
    have := cnt_postN t
    have := cnt_postNs ts
    simp only [postNs, ntys_upper, cnt_append]; omega
theorem cnt_postVs : ∀ t : List Nval, cnt (postVs t) ≤ vals_upper t
  | [] => by simp [postVs, cnt]
  | .mk _ t :: ts => by
    have := cnt_postN t
    have := cnt_postVs ts
    simp only [postVs, vals_upper, cnt_append]; omega
theorem cnt_postEs : ∀ t : List Nvar, cnt (postEs t) ≤ vars_upper t
  | [] => by simp [postEs, cnt]
  | .mk _ t :: ts => by
    have := cnt_postE t
    have := cnt_postEs ts
    simp only [postEs, vars_upper, cnt_append]; omega
theorem cnt_postE : ∀ t : Dmv, cnt (postE t) ≤ dmv_upper t
  | .UnitVariant => by simp [postE, cnt]
  | .NewtypeVariant t => by
    have := cnt_postN t
    obtain ⟨n, d⟩ := t
    rw [postN, cnt_append] at this
    simp only [postE, dmv_upper]; omega
  | .TupleVariant t => by simpa [postE, dmv_upper] using cnt_postNs t
  | .StructVariant t => by simpa [postE, dmv_upper] using cnt_postVs t
end

theorem absorb_uniq (max : Nat) (l p : List Nty) (h : l.length + cnt p ≤ max) :
    chew_absorb (rep max (addAll [] p)).1 (rep max (addAll [] p)).2 0 (rep max l) =
      .ok (rep max (addAll l p)) := by
  have e : addAll l (addAll [] p) = addAll l p := addAll_addAll l [] p
  have := chew_absorb_eq max max (addAll [] p) 0 l (by
    rw [List.drop_zero, e]; exact Nat.le_trans (addAll_length l p) h)
  rw [List.drop_zero, e] at this
  exact this

mutual
theorem chew_nty_eq (max : Nat) : ∀ t : Nty, nty_upper t ≤ max →
    chew_nty max t = .ok (rep max (addAll [] (postN t)))
  | .mk n t, h => by
    have hd : dmt_upper t ≤ max := by
      rw [nty_upper] at h
      split at h <;> omega
    have hl : (addAll [] (postN (.mk n t))).length ≤ max := by
      have h1 := addAll_length [] (postN (.mk n t))
      have h2 := cnt_postN (.mk n t)
      simp only [List.length_nil] at h1; omega
    rw [chew_nty, chew_dmt_eq max t hd]
    simp only [Exec.ok_bind, postN, addAll_append]
    simp only [postN, addAll_append] at hl
    generalize addAll [] (postD t) = l at *
    have e : rep max l = ((rep max l).1, l.length) := rfl
    rw [e]
    simp only [find_self_eq, Exec.ok_bind, List.drop_zero]
    have ha : addAll l [Nty.mk n t] = addU l (.mk n t) := rfl
    rw [ha] at hl ⊢
    by_cases hp : is_prim t = true ∨ Nty.mk n t ∈ l
    · have h3 : (is_prim t || decide (Nty.mk n t ∈ l)) = true := by simpa using hp
      have h4 : addU l (.mk n t) = l := by rw [addU, if_pos]; simpa [Nty.ty] using hp
      simp [h3, h4, rep]
    · have h3 : (is_prim t || decide (Nty.mk n t ∈ l)) = false := by
        simp only [not_or] at hp; simp [hp]
      have h4 : addU l (.mk n t) = l ++ [.mk n t] := by rw [addU, if_neg]; simpa [Nty.ty] using hp
      rw [h4, List.length_append] at hl
      simp only [List.length_cons, List.length_nil] at hl
      simp only [h3, h4, Bool.not_false, if_true, arr_set_rep max l (.mk n t) (by omega), Exec.ok_bind]
      simp [rep]

theorem chew_dmt_eq (max : Nat) : ∀ t : Dmt, dmt_upper t ≤ max →
    chew_dmt max t = .ok (rep max (addAll [] (postD t)))
  | .Prim _, _ => by rw [chew_dmt, postD, ← rep_nil]; rfl
  | .UnitStruct, _ => by rw [chew_dmt, postD, ← rep_nil]; rfl
  | .Option t, h => by rw [dmt_upper] at h; rw [chew_dmt, postD, chew_nty_eq max t h]
  | .NewtypeStruct t, h => by rw [dmt_upper] at h; rw [chew_dmt, postD, chew_nty_eq max t h]
  | .Seq t, h => by rw [dmt_upper] at h; rw [chew_dmt, postD, chew_nty_eq max t h]
  | .Tuple t, h => by
    rw [dmt_upper] at h; rw [chew_dmt, postD, ← rep_nil, chew_ntys_eq max t [] (by simpa using h)]
  | .TupleStruct t, h => by
    rw [dmt_upper] at h; rw [chew_dmt, postD, ← rep_nil, chew_ntys_eq max t [] (by simpa using h)]
  | .Map k v, h => by
    rw [dmt_upper] at h
    have hk := cnt_postN k
    have hv := cnt_postN v
    have hlk := addAll_length [] (postN k)
    simp only [List.length_nil] at hlk
    rw [chew_dmt, postD, chew_nty_eq max k (by omega), ← rep_nil]
    simp only [Exec.ok_bind]
    rw [absorb_uniq max [] (postN k) (by simp; omega)]
    simp only [Exec.ok_bind]
    rw [chew_nty_eq max v (by omega)]
    simp only [Exec.ok_bind]
    rw [absorb_uniq max _ (postN v) (by omega), addAll_append]
  | .Struct t, h => by
    rw [dmt_upper] at h; rw [chew_dmt, postD, ← rep_nil, chew_vals_eq max t [] (by simpa using h)]
  | .Enum t, h => by
    rw [dmt_upper] at h; rw [chew_dmt, postD, ← rep_nil, chew_vars_eq max t [] (by simpa using h)]

theorem chew_ntys_eq (max : Nat) : ∀ (ts : List Nty) (l : List Nty), l.length + ntys_upper ts ≤ max →
    chew_ntys max ts (rep max l) = .ok (rep max (addAll l (postNs ts)))
  | [], l, _ => by rw [chew_ntys, postNs]; rfl
  | t :: ts, l, h => by
    rw [ntys_upper] at h
    have h1 := cnt_postN t
    have h2 := addAll_length l (postN t)
    rw [chew_ntys, chew_nty_eq max t (by omega)]
    simp only [Exec.ok_bind]
    rw [absorb_uniq max l (postN t) (by omega)]
    simp only [Exec.ok_bind]
    rw [chew_ntys_eq max ts _ (by omega), postNs, addAll_append]

theorem chew_vals_eq (max : Nat) : ∀ (ts : List Nval) (l : List Nty), l.length + vals_upper ts ≤ max →
    chew_vals max ts (rep max l) = .ok (rep max (addAll l (postVs ts)))
  | [], l, _ => by rw [chew_vals, postVs]; rfl
  | .mk _ t :: ts, l, h => by
    rw [vals_upper] at h
    have h1 := cnt_postN t
    have h2 := addAll_length l (postN t)
    rw [chew_vals, chew_nty_eq max t (by omega)]
    simp only [Exec.ok_bind]
    rw [absorb_uniq max l (postN t) (by omega)]
    simp only [Exec.ok_bind]
    rw [chew_vals_eq max ts _ (by omega), postVs, addAll_append]

theorem chew_vars_eq (max : Nat) : ∀ (ts : List Nvar) (l : List Nty), l.length + vars_upper ts ≤ max →
    chew_vars max ts (rep max l) = .ok (rep max (addAll l (postEs ts)))
  | [], l, _ => by rw [chew_vars, postEs]; rfl
  | .mk _ t :: ts, l, h => by
    rw [vars_upper] at h
    have h1 := cnt_postE t
    have h2 := addAll_length l (postE t)
    rw [chew_vars, chew_dmv_eq max t l (by omega)]
    simp only [Exec.ok_bind]
    rw [chew_vars_eq max ts _ (by omega), postEs, addAll_append]

theorem chew_dmv_eq (max : Nat) : ∀ (t : Dmv) (l : List Nty), l.length + dmv_upper t ≤ max →
    chew_dmv max t (rep max l) = .ok (rep max (addAll l (postE t)))
  | .UnitVariant, l, _ => by rw [chew_dmv, postE]; rfl
  | .NewtypeVariant t, l, h => by
    have h1 := cnt_postE (.NewtypeVariant t)
    have h2 := addAll_length l (postE (.NewtypeVariant t))
    rw [postE] at *
    rw [chew_dmv, chew_insert_eq max l t (by
      have : addAll l [t] = addU l t := rfl
      rw [← this]; omega)]
    rfl
  | .TupleVariant ts, l, h => by
    rw [dmv_upper] at h; rw [chew_dmv, postE, chew_ntys_eq max ts l h]
  | .StructVariant ts, l, h => by
    rw [dmv_upper] at h; rw [chew_dmv, postE, chew_vals_eq max ts l h]
end

theorem crunch_take_eq (max : Nat) (l : List Nty) (i : Nat) (acc : List Nty) (h : i ≤ l.length) :
    crunch_take (rep max l).1 l.length i acc = .ok (acc ++ l.drop i) := by
  induction hn : l.length - i generalizing i acc with
  | zero =>
    rw [crunch_take, if_neg (by omega), List.drop_eq_nil_of_le (by omega), List.append_nil]
  | succ n ih =>
    have hi : i < l.length := by omega
    rw [crunch_take, if_pos hi, arr_get_rep _ _ _ hi]
    simp only [Exec.ok_bind]
    rw [ih _ _ (by omega) (by omega), List.drop_eq_getElem_cons hi]
    simp

theorem crunch_check_none (n : Nat) : crunch_check (List.replicate n none) = .ok () := by
  induction n with
  | zero => rfl
  | succ n ih => rw [List.replicate_succ, crunch_check, ih]

theorem cruncher_eq (max : Nat) (l : List Nty) : cruncher (rep max l).2 (rep max l).1 = .ok l := by
  have : (rep max l).1.drop l.length = List.replicate (max - l.length) none := by
    simp [rep]
  unfold cruncher
  show (crunch_take (rep max l).1 l.length 0 [] >>= _) = _
  rw [crunch_take_eq max l 0 [] (by omega)]
  simp only [Exec.ok_bind]
  show (crunch_check ((rep max l).1.drop l.length) >>= _) = _
  rw [this, crunch_check_none]
  simp

theorem unique_types_eq (t : Nty) : unique_types t = .ok (addAll [] (postN t)) := by
  unfold unique_types
  simp only [chew_nty_eq _ t (Nat.le_refl _), Exec.ok_bind, cruncher_eq]

theorem addU_nodup {out : List Nty} {x : Nty} (h : out.Nodup) : (addU out x).Nodup := by
  unfold addU
  split
  · exact h
  · rename_i hx
    simp only [not_or] at hx
    rw [List.nodup_append]
    exact ⟨h, by simp, by
      intro a ha b hb e
      simp only [List.mem_singleton] at hb
      exact hx.2 (hb ▸ e ▸ ha)⟩

theorem addAll_nodup {out l : List Nty} (h : out.Nodup) : (addAll out l).Nodup := by
  induction l generalizing out with
  | nil => exact h
  | cons x xs ih => exact ih (addU_nodup h)

theorem isPrim_iff (t : Nty) : Spec.IsPrim t ↔ is_prim t.ty = true := by
  obtain ⟨n, d⟩ := t
  cases d <;> simp [Spec.IsPrim, is_prim, Nty.ty]
  rename_i p; cases p <;> rfl

theorem mem_postNs {x : Nty} {ts : List Nty} : x ∈ postNs ts ↔ ∃ t ∈ ts, x ∈ postN t := by
  induction ts with
  | nil => simp [postNs]
  | cons t ts ih => simp [postNs, ih]

theorem mem_postVs {x : Nty} {ts : List Nval} : x ∈ postVs ts ↔ ∃ t ∈ ts.map Nval.ty, x ∈ postN t := by
  induction ts with
  | nil => simp [postVs]
  | cons t ts ih => cases t; simp [postVs, ih, Nval.ty]

theorem mem_postEs {x : Nty} {ts : List Nvar} : x ∈ postEs ts ↔ ∃ t ∈ ts.map Nvar.ty, x ∈ postE t := by
  induction ts with
  | nil => simp [postEs]
  | cons t ts ih => cases t; simp [postEs, ih, Nvar.ty]

theorem kids_struct (n : Bytes) (vs : List Nval) : Spec.kids (.mk n (.Struct vs)) = vs.map Nval.ty := by
  unfold Spec.kids
  apply List.map_congr_left; rintro ⟨⟩ _; rfl

theorem varKids_struct (vs : List Nval) : Spec.varKids (.StructVariant vs) = vs.map Nval.ty := by
  unfold Spec.varKids
  apply List.map_congr_left; rintro ⟨⟩ _; rfl

/-- Membership in the visit order is the `Listed` relation. -/
theorem mem_postN_unfold (x t : Nty) :
    x ∈ postN t ↔ x = t ∨ (∃ c ∈ Spec.otherKids t, x ∈ postN c) ∨ x ∈ Spec.newtypePayloads t := by
  obtain ⟨n, d⟩ := t
  rw [postN, List.mem_append, List.mem_singleton, or_comm]
  cases d with
  | Prim p => simp [postD, Spec.otherKids, Spec.kids, Spec.newtypePayloads]
  | UnitStruct => simp [postD, Spec.otherKids, Spec.kids, Spec.newtypePayloads]
  | Option t => simp [postD, Spec.otherKids, Spec.kids, Spec.newtypePayloads]
  | NewtypeStruct t => simp [postD, Spec.otherKids, Spec.kids, Spec.newtypePayloads]
  | Seq t => simp [postD, Spec.otherKids, Spec.kids, Spec.newtypePayloads]
  | Tuple t => simp [postD, Spec.otherKids, Spec.kids, Spec.newtypePayloads, mem_postNs]
  | TupleStruct t => simp [postD, Spec.otherKids, Spec.kids, Spec.newtypePayloads, mem_postNs]
  | Map k v => simp [postD, Spec.otherKids, Spec.kids, Spec.newtypePayloads]
  | Struct vs => simp [postD, Spec.otherKids, kids_struct, Spec.newtypePayloads, mem_postVs]
  | Enum vs =>
    simp only [postD, Spec.otherKids, Spec.newtypePayloads]
    apply or_congr Iff.rfl
    rw [mem_postEs]
    simp only [List.mem_map, List.mem_flatMap]
    constructor
    · rintro ⟨d, ⟨v, hv, rfl⟩, hx⟩
      obtain ⟨nm, e⟩ := v
      cases e with
      | UnitVariant => simp [Nvar.ty, postE] at hx
      | NewtypeVariant t =>
        simp only [Nvar.ty, postE, List.mem_singleton] at hx
        exact Or.inr ⟨_, hv, by simp [hx]⟩
      | TupleVariant ts =>
        simp only [Nvar.ty, postE, mem_postNs] at hx
        obtain ⟨c, hc, hx⟩ := hx
        exact Or.inl ⟨c, ⟨_, hv, by simpa [Spec.varKids] using hc⟩, hx⟩
      | StructVariant vs' =>
        simp only [Nvar.ty, postE, mem_postVs] at hx
        obtain ⟨c, hc, hx⟩ := hx
        exact Or.inl ⟨c, ⟨_, hv, by simpa [varKids_struct] using hc⟩, hx⟩
    · rintro (⟨c, ⟨v, hv, hc⟩, hx⟩ | ⟨v, hv, hc⟩)
      · obtain ⟨nm, e⟩ := v
        refine ⟨e, ⟨_, hv, rfl⟩, ?_⟩
        cases e with
        | UnitVariant => simp [Spec.varKids] at hc
        | NewtypeVariant t => simp at hc
        | TupleVariant ts => simp only [Spec.varKids] at hc; exact mem_postNs.mpr ⟨c, hc, hx⟩
        | StructVariant vs' =>
          simp only [varKids_struct] at hc; exact mem_postVs.mpr ⟨c, hc, hx⟩
      · obtain ⟨nm, e⟩ := v
        refine ⟨e, ⟨_, hv, rfl⟩, ?_⟩
        cases e with
        | NewtypeVariant t => simpa [postE] using hc
        | UnitVariant => simp at hc
        | TupleVariant ts => simp at hc
        | StructVariant vs' => simp at hc

theorem kids_split (t c : Nty) : c ∈ Spec.kids t ↔ c ∈ Spec.otherKids t ∨ c ∈ Spec.newtypePayloads t := by
  obtain ⟨n, d⟩ := t
  cases d <;> try (simp [Spec.otherKids, Spec.newtypePayloads]; done)
  rename_i vs
  simp only [Spec.kids, Spec.otherKids, Spec.newtypePayloads, List.mem_flatMap]
  constructor
  · rintro ⟨⟨nm, e⟩, hv, hc⟩
    cases e with
    | NewtypeVariant t => exact Or.inr ⟨_, hv, by simpa [Spec.varKids] using hc⟩
    | UnitVariant => simp [Spec.varKids] at hc
    | TupleVariant ts => exact Or.inl ⟨_, hv, hc⟩
    | StructVariant ts => exact Or.inl ⟨_, hv, hc⟩
  · rintro (⟨⟨nm, e⟩, hv, hc⟩ | ⟨⟨nm, e⟩, hv, hc⟩)
    · refine ⟨_, hv, ?_⟩
      cases e <;> simp_all [Spec.varKids]
    · refine ⟨_, hv, ?_⟩
      cases e <;> simp_all [Spec.varKids]

theorem listed_of_mem : ∀ (n : Nat) (x t : Nty), sizeOf t ≤ n → x ∈ postN t → Spec.Listed x t := by
  intro n
  induction n with
  | zero => intro x t h; cases t; simp at h
  | succ n ih =>
    intro x t hs h
    rw [mem_postN_unfold] at h
    rcases h with rfl | ⟨c, hc, hx⟩ | h
    · exact .self
    · refine .inside hc (ih x c ?_ hx)
      have : c ∈ Spec.kids t := (kids_split t c).mpr (Or.inl hc)
      have := kids_size t c this
      omega
    · exact .payload h
where
  kids_size (t c : Nty) (h : c ∈ Spec.kids t) : sizeOf c < sizeOf t := by
    obtain ⟨n, d⟩ := t
    cases d <;> first | rw [kids_struct] at h | simp only [Spec.kids] at h
    · simp at h
    · simp at h
    · simp at h; subst h; simp; omega
    · simp at h; subst h; simp; omega
    · simp at h; subst h; simp; omega
    · have := List.sizeOf_lt_of_mem h; simp; omega
    · have := List.sizeOf_lt_of_mem h; simp; omega
    · simp at h; rcases h with rfl | rfl <;> simp <;> omega
    · rw [List.mem_map] at h
      obtain ⟨⟨nm, ty⟩, hv, rfl⟩ := h
      have := List.sizeOf_lt_of_mem hv; simp [Nval.ty] at *; omega
    · rw [List.mem_flatMap] at h
      obtain ⟨⟨nm, ty⟩, hv, h⟩ := h
      have := List.sizeOf_lt_of_mem hv
      cases ty <;> first | rw [varKids_struct] at h | simp only [Spec.varKids] at h
      · simp at h
      · simp at h; subst h; simp at *; omega
      · have := List.sizeOf_lt_of_mem h; simp at *; omega
      · rw [List.mem_map] at h
        obtain ⟨⟨nm, ty⟩, hv, rfl⟩ := h
        have := List.sizeOf_lt_of_mem hv; simp at *; omega

theorem mem_of_listed {x t : Nty} (h : Spec.Listed x t) : x ∈ postN t := by
  induction h with
  | self => rw [mem_postN_unfold]; exact Or.inl rfl
  | inside hc _ ih => rw [mem_postN_unfold]; exact Or.inr (Or.inl ⟨_, hc, ih⟩)
  | payload hp => rw [mem_postN_unfold]; exact Or.inr (Or.inr hp)

theorem mem_postN_iff (x t : Nty) : x ∈ postN t ↔ Spec.Listed x t :=
  ⟨listed_of_mem _ x t (Nat.le_refl _), mem_of_listed⟩

theorem occurs_of_listed {x t : Nty} (h : Spec.Listed x t) : Spec.Occurs x t := by
  induction h with
  | self => exact .self
  | inside hc _ ih => exact .inside ((kids_split _ _).mpr (Or.inl hc)) ih
  | payload hp => exact .inside ((kids_split _ _).mpr (Or.inr hp)) .self

theorem merge_list_eq (max : Nat) (items l : List Nty) (h : l.length + items.length ≤ max) :
    merge_list items (rep max l) = .ok (rep max (addAll l items)) := by
  induction items generalizing l with
  | nil => rfl
  | cons x xs ih =>
    have e : rep max l = ((rep max l).1, l.length) := rfl
    rw [merge_list.eq_def, e]
    simp only [merge_find_eq, Exec.ok_bind, List.drop_zero]
    simp only [List.length_cons] at h
    by_cases hp : is_prim x.ty = true ∨ x ∈ l
    · have h2 : (is_prim x.ty || decide (x ∈ l)) = true := by simpa using hp
      simp only [h2, Bool.not_true, Bool.false_eq_true, if_false]
      rw [← e, ih l (by omega)]
      show _ = Exec.ok (rep max (addAll (addU l x) xs))
      rw [addU, if_pos hp]
    · have h2 : (is_prim x.ty || decide (x ∈ l)) = false := by
        simp only [not_or] at hp; simp [hp]
      simp only [h2, Bool.not_false, if_true, arr_set_rep max l x (by omega), Exec.ok_bind]
      have e2 : ((rep max (l ++ [x])).1, l.length + 1) = rep max (l ++ [x]) := by simp [rep]
      rw [e2, ih _ (by simp; omega)]
      show _ = Exec.ok (rep max (addAll (addU l x) xs))
      rw [addU, if_neg hp]

theorem merge_loop_eq (max : Nat) (ls : List (List Nty)) (l : List Nty) (h : l.length + total_len ls ≤ max) :
    merge_lists_loop ls (rep max l) = .ok (rep max (addAll l ls.flatten)) := by
  induction ls generalizing l with
  | nil => rfl
  | cons x xs ih =>
    rw [total_len] at h
    rw [merge_lists_loop, merge_list_eq max x l (by omega)]
    simp only [Exec.ok_bind]
    have h1 := addAll_length l x
    have h2 : cnt x ≤ x.length := List.length_filter_le ..
    rw [ih _ (by omega), List.flatten_cons, addAll_append]

theorem merge_types_eq (ls : List (List Nty)) : merge_types ls = .ok (addAll [] ls.flatten) := by
  unfold merge_types merge_nty_lists
  rw [← rep_nil, merge_loop_eq _ ls [] (by simp)]
  simp only [Exec.ok_bind, cruncher_eq]

theorem addAll_firstOcc (out l : List Nty) :
    addAll out l = out ++ (Spec.firstOcc (l.filter (fun x => !is_prim x.ty))).filter (fun x => decide (x ∉ out)) := by
  induction l generalizing out with
  | nil => simp [addAll, Spec.firstOcc]
  | cons x xs ih =>
    show addAll (addU out x) xs = _
    rw [ih]
    by_cases hp : is_prim x.ty = true
    · have : addU out x = out := by rw [addU, if_pos (Or.inl hp)]
      rw [this]
      simp [hp]
    · rw [List.filter_cons_of_pos (by simpa using hp)]
      simp only [Spec.firstOcc]
      by_cases hx : x ∈ out
      · have : addU out x = out := by rw [addU, if_pos (Or.inr hx)]
        rw [this, List.filter_cons_of_neg (by simpa using hx), List.filter_filter]
        congr 1
        apply List.filter_congr
        intro y _
        by_cases hy : y ∈ out
        · simp [hy]
        · have : y ≠ x := fun e => hy (e ▸ hx)
          simp [hy, this]
      · have : addU out x = out ++ [x] := by rw [addU, if_neg (by simp [hp, hx])]
        rw [this, List.filter_cons_of_pos (by simpa using hx), List.filter_filter]
        simp only [List.append_assoc, List.singleton_append]
        congr 2
        apply List.filter_congr
        intro y _
        simp

theorem addAll_nil_firstOcc (l : List Nty) :
    addAll [] l = Spec.firstOcc (l.filter (fun x => !is_prim x.ty)) := by
  rw [addAll_firstOcc]
  simp

theorem total_len_eq {α : Type} (ls : List (List α)) : total_len ls = ls.flatten.length := by
  induction ls with
  | nil => rfl
  | cons x xs ih => rw [total_len, ih, List.flatten_cons, List.length_append]

theorem combine_inner_eq {α : Type} (init : α) (xs done : List α) (k : Nat) (h : xs.length ≤ k) :
    combine_inner xs (done ++ List.replicate k init, done.length) =
      .ok ((done ++ xs) ++ List.replicate (k - xs.length) init, (done ++ xs).length) := by
  induction xs generalizing done k with
  | nil => simp [combine_inner]
  | cons x xs ih =>
    simp only [List.length_cons] at h
    obtain ⟨k', rfl⟩ : ∃ k', k = k' + 1 := ⟨k - 1, by omega⟩
    have hp : arr_put (done ++ List.replicate (k' + 1) init) done.length x =
        .ok ((done ++ [x]) ++ List.replicate k' init) := by
      rw [arr_put, if_pos (by simp), List.set_append_right _ _ (by simp)]
      simp [List.replicate_succ]
    rw [combine_inner, hp]
    simp only [Exec.ok_bind]
    have := ih (done ++ [x]) k' (by omega)
    simp only [List.length_append, List.length_cons, List.length_nil] at this
    simp only [Nat.zero_add] at this
    rw [this]
    simp [Nat.add_comm]
    omega

theorem combine_outer_eq {α : Type} (init : α) (ls : List (List α)) (done : List α) (k : Nat)
    (h : ls.flatten.length ≤ k) :
    combine_outer ls (done ++ List.replicate k init, done.length) =
      .ok ((done ++ ls.flatten) ++ List.replicate (k - ls.flatten.length) init, (done ++ ls.flatten).length) := by
  induction ls generalizing done k with
  | nil => simp [combine_outer]
  | cons x xs ih =>
    rw [List.flatten_cons, List.length_append] at h
    rw [combine_outer, combine_inner_eq init x done k (by omega)]
    simp only [Exec.ok_bind]
    rw [ih (done ++ x) _ (by omega)]
    simp [Nat.sub_sub]

theorem concat_arrays_eq {α : Type} (init : α) (ls : List (List α)) :
    concat_arrays init ls = .ok ls.flatten := by
  unfold concat_arrays combine_with_copy
  rw [total_len_eq]
  have := combine_outer_eq init ls [] ls.flatten.length (Nat.le_refl _)
  simp only [List.nil_append, List.length_nil, Nat.sub_self, List.replicate_zero, List.append_nil] at this
  rw [this]
  simp

end PRpc
