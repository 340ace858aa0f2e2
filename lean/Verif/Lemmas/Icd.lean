import Verif.Spec.Icd
import Verif.Props.Uniques
/-! Helper lemmas for the interface macros. -/

namespace PRpc

/-- Each list is right for its message types. -/
inductive AllTypesOf : List (List Nty) → List (List Nty) → Prop where
  | nil : AllTypesOf [] []
  | cons {r l rs ls} : Spec.TypesOf r l → AllTypesOf rs ls → AllTypesOf (r :: rs) (l :: ls)

theorem typesOf_unique (t : Nty) : ∃ l, unique_types t = .ok l ∧ Spec.TypesOf [t] l := by
  obtain ⟨l, h⟩ := Props.c23_unique_types_no_panic t
  refine ⟨l, h, (Props.c21_unique_types_sound t l h).1, fun x => ?_⟩
  rw [Props.c22_unique_types_partial t l h x]
  simp

/-- Merging lists that are right for their message types gives the list for all of them. -/
theorem typesOf_merge (rs : List (List Nty)) (ls : List (List Nty)) (h : AllTypesOf rs ls) :
    ∃ r, merge_types ls = .ok r ∧ Spec.TypesOf rs.flatten r := by
  have hm : ∀ x, (∃ l ∈ ls, x ∈ l) ↔ (∃ t ∈ rs.flatten, Spec.Listed x t) ∧ ¬ Spec.IsPrim x := by
    intro x
    induction h with
    | nil => simp
    | cons a b ih =>
      have a := a.2 x
      simp only [List.mem_cons, exists_eq_left, List.flatten_cons, List.mem_append, or_and_right, exists_or, ih, a]
  have hp : ∀ l ∈ ls, ∀ x ∈ l, ¬ Spec.IsPrim x := fun l hl x hx => ((hm x).mp ⟨l, hl, hx⟩).2
  obtain ⟨r, h1, _, h3, h4⟩ := Props.c25_merge_unique_lists ls hp
  exact ⟨r, h1, h3, fun x => (h4 x).trans (hm x)⟩

theorem typesOf_ep_lists (rows : List EpDecl) : ∃ rs ls, ep_lists rows = .ok ls ∧ rs.flatten = Spec.epRoots rows ∧
    AllTypesOf rs ls := by
  induction rows with
  | nil => exact ⟨[], [], rfl, rfl, .nil⟩
  | cons d ds ih =>
    obtain ⟨rs, ls, h1, h2, h3⟩ := ih
    by_cases hc : d.cfg = true
    · obtain ⟨a, a1, a2⟩ := typesOf_unique d.req_ty
      obtain ⟨b, b1, b2⟩ := typesOf_unique d.resp_ty
      exact ⟨[d.req_ty] :: [d.resp_ty] :: rs, a :: b :: ls, by simp [ep_lists, hc, a1, b1, h1],
        by simp [Spec.epRoots, hc, h2], .cons a2 (.cons b2 h3)⟩
    · exact ⟨rs, ls, by simp [ep_lists, hc, h1], by simp [Spec.epRoots, hc, h2], h3⟩

theorem typesOf_tp_lists (rows : List TpDecl) : ∃ rs ls, tp_lists rows = .ok ls ∧ rs.flatten = Spec.tpRoots rows ∧
    AllTypesOf rs ls := by
  induction rows with
  | nil => exact ⟨[], [], rfl, rfl, .nil⟩
  | cons d ds ih =>
    obtain ⟨rs, ls, h1, h2, h3⟩ := ih
    by_cases hc : d.cfg = true
    · obtain ⟨a, a1, a2⟩ := typesOf_unique d.msg_ty
      exact ⟨[d.msg_ty] :: rs, a :: ls, by simp [tp_lists, hc, a1, h1],
        by simp [Spec.tpRoots, hc, h2], .cons a2 h3⟩
    · exact ⟨rs, ls, by simp [tp_lists, hc, h1], by simp [Spec.tpRoots, hc, h2], h3⟩

theorem typesOf_ep_tys (rows : List EpDecl) : ∃ r, ep_tys_omit rows = .ok r ∧ Spec.TypesOf (Spec.epRoots rows) r := by
  obtain ⟨rs, ls, h1, h2, h3⟩ := typesOf_ep_lists rows
  obtain ⟨r, h4, h5⟩ := typesOf_merge rs ls h3
  exact ⟨r, by simp [ep_tys_omit, h1, h4], h2 ▸ h5⟩

theorem typesOf_tp_tys (rows : List TpDecl) : ∃ r, tp_tys_omit rows = .ok r ∧ Spec.TypesOf (Spec.tpRoots rows) r := by
  obtain ⟨rs, ls, h1, h2, h3⟩ := typesOf_tp_lists rows
  obtain ⟨r, h4, h5⟩ := typesOf_merge rs ls h3
  exact ⟨r, by simp [tp_tys_omit, h1, h4], h2 ▸ h5⟩

theorem ep_eps_omit_eq (for_path : Nty → Bytes → Key) (rows : List EpDecl) :
    ep_eps_omit for_path rows = Spec.epTable for_path rows := by
  induction rows with
  | nil => rfl
  | cons d ds ih =>
    unfold ep_eps_omit Spec.epTable at *
    by_cases hc : d.cfg = true <;> simp [hc, ih, EpDecl.row] <;> exact ih

theorem tp_tps_omit_eq (for_path : Nty → Bytes → Key) (rows : List TpDecl) :
    tp_tps_omit for_path rows = Spec.tpTable for_path rows := by
  induction rows with
  | nil => rfl
  | cons d ds ih =>
    unfold tp_tps_omit Spec.tpTable at *
    by_cases hc : d.cfg = true <;> simp [hc, ih, TpDecl.row] <;> exact ih

end PRpc
