import Verif.Model.Uniques
/-! The const schema comparison decides equality. -/

namespace PRpc

theorem str_eq_loop_iff (a b : Bytes) (h : a.length = b.length) : str_eq_loop a b = true ↔ a = b := by
  induction a generalizing b with
  | nil => cases b <;> simp_all [str_eq_loop]
  | cons x xs ih =>
    cases b with
    | nil => simp at h
    | cons y ys =>
      simp only [str_eq_loop]
      split
      · rename_i hne; simp [hne]
      · rename_i he
        rw [ih ys (by simpa using h)]
        simp only [ne_eq, Decidable.not_not] at he
        simp [he]

theorem str_eq_iff (a b : Bytes) : str_eq a b = true ↔ a = b := by
  unfold str_eq
  split
  · rename_i h
    simp only [Bool.false_eq_true, false_iff]
    rintro rfl; exact h rfl
  · rename_i h
    exact str_eq_loop_iff a b (Decidable.not_not.mp h)

theorem prim_eq_iff (a b : Prim) : prim_eq a b = true ↔ a = b := by
  cases a <;> cases b <;> simp [prim_eq]

mutual
theorem nty_eq_iff : ∀ a b : Nty, nty_eq a b = true ↔ a = b
  | .mk na ta, .mk nb tb => by
    simp only [nty_eq, Bool.and_eq_true, str_eq_iff, dmt_eq_iff ta tb, Nty.mk.injEq]

theorem dmt_eq_iff : ∀ a b : Dmt, dmt_eq a b = true ↔ a = b
  | .Prim p, b => by cases b <;> simp [dmt_eq, prim_eq_iff]
  | .UnitStruct, b => by cases b <;> simp [dmt_eq]
  | .Option t, b => by cases b <;> simp [dmt_eq]; exact nty_eq_iff t _
  | .NewtypeStruct t, b => by cases b <;> simp [dmt_eq]; exact nty_eq_iff t _
  | .Seq t, b => by cases b <;> simp [dmt_eq]; exact nty_eq_iff t _
  | .Tuple t, b => by cases b <;> simp [dmt_eq]; exact ntys_eq_iff t _
  | .TupleStruct t, b => by cases b <;> simp [dmt_eq]; exact ntys_eq_iff t _
  | .Map k v, b => by
    cases b <;> simp [dmt_eq]
    rw [nty_eq_iff k _, nty_eq_iff v _]
  | .Struct t, b => by cases b <;> simp [dmt_eq]; exact vals_eq_iff t _
  | .Enum t, b => by cases b <;> simp [dmt_eq]; exact vars_eq_iff t _

theorem ntys_eq_iff : ∀ a b : List Nty, (a.length = b.length ∧ ntys_eq_loop a b = true) ↔ a = b
  | [], b => by cases b <;> simp [ntys_eq_loop]
  | x :: xs, b => by
    cases b with
    | nil => simp
    | cons y ys =>
      simp only [ntys_eq_loop, List.length_cons, Nat.add_right_cancel_iff, List.cons.injEq, Bool.not_eq_true',
        Bool.if_false_left, Bool.and_eq_true, Bool.not_eq_true', decide_eq_false_iff_not, Bool.not_eq_false]
      rw [← ntys_eq_iff xs ys, nty_eq_iff x y]
      exact ⟨fun h => ⟨h.2.1, h.1, h.2.2⟩, fun h => ⟨h.2.1, h.1, h.2.2⟩⟩

theorem vals_eq_iff : ∀ a b : List Nval, (a.length = b.length ∧ vals_eq_loop a b = true) ↔ a = b
  | [], b => by cases b <;> simp [vals_eq_loop]
  | .mk na ta :: xs, b => by
    cases b with
    | nil => simp
    | cons y ys =>
      obtain ⟨nb, tb⟩ := y
      simp only [vals_eq_loop, List.length_cons, Nat.add_right_cancel_iff, List.cons.injEq, Bool.not_eq_true',
        Bool.if_false_left, Bool.and_eq_true, Bool.not_eq_true', decide_eq_false_iff_not, Bool.not_eq_false,
        Nval.mk.injEq]
      rw [← vals_eq_iff xs ys, nty_eq_iff ta tb, str_eq_iff]
      exact ⟨fun h => ⟨⟨h.2.1, h.2.2.1⟩, h.1, h.2.2.2⟩, fun h => ⟨h.2.1, h.1.1, h.1.2, h.2.2⟩⟩

theorem vars_eq_iff : ∀ a b : List Nvar, (a.length = b.length ∧ vars_eq_loop a b = true) ↔ a = b
  | [], b => by cases b <;> simp [vars_eq_loop]
  | .mk na ta :: xs, b => by
    cases b with
    | nil => simp
    | cons y ys =>
      obtain ⟨nb, tb⟩ := y
      simp only [vars_eq_loop, List.length_cons, Nat.add_right_cancel_iff, List.cons.injEq, Bool.not_eq_true',
        Bool.if_false_left, Bool.and_eq_true, Bool.not_eq_true', decide_eq_false_iff_not, Bool.not_eq_false,
        Nvar.mk.injEq]
      rw [← vars_eq_iff xs ys, dmv_eq_iff ta tb, str_eq_iff]
      exact ⟨fun h => ⟨⟨h.2.1.1, h.2.1.2⟩, h.1, h.2.2⟩, fun h => ⟨h.2.1, ⟨h.1.1, h.1.2⟩, h.2.2⟩⟩

theorem dmv_eq_iff : ∀ a b : Dmv, dmv_eq a b = true ↔ a = b
  | .UnitVariant, b => by cases b <;> simp [dmv_eq]
  | .NewtypeVariant t, b => by cases b <;> simp [dmv_eq]; exact nty_eq_iff t _
  | .TupleVariant t, b => by cases b <;> simp [dmv_eq]; exact ntys_eq_iff t _
  | .StructVariant t, b => by cases b <;> simp [dmv_eq]; exact vals_eq_iff t _
end

instance : DecidableEq Nty := fun a b => decidable_of_iff _ (nty_eq_iff a b)

theorem nty_eq_decide (a b : Nty) : nty_eq a b = decide (a = b) := by
  rw [Bool.eq_iff_iff, nty_eq_iff]; simp

end PRpc
