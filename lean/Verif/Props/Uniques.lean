import Verif.Lemmas.Uniques
/-!
Property theorems C21-C25: compile-time type lists.
-/

namespace PRpc.Props

open PRpc

/-- A struct `A { x: B, y: [B] }` with `B { z: u8 }`, used by the examples. -/
def exB : Nty := .mk [66#8] (.Struct [.mk [122#8] (.mk [] (.Prim .U8))])
def exA : Nty := .mk [65#8] (.Struct [.mk [120#8] exB, .mk [121#8] (.mk [] (.Seq exB))])
/-- An enum with a newtype variant whose payload is `A`. -/
def exE : Nty := .mk [69#8] (.Enum [.mk [86#8] (.NewtypeVariant exA), .mk [87#8] (.TupleVariant [exB])])
/-- An enum with the single newtype variant `A`. -/
def exN : Nty := .mk [78#8] (.Enum [.mk [86#8] (.NewtypeVariant exA)])

/-- C21: the unique-type list has no duplicates, no primitive member, and only members that occur in the type. -/
theorem c21_unique_types_sound (t : Nty) (l : List Nty) (h : unique_types t = .ok l) :
    l.Nodup ∧ ∀ x ∈ l, ¬ Spec.IsPrim x ∧ Spec.Occurs x t := by
  rw [unique_types_eq] at h
  cases h
  refine ⟨addAll_nodup List.nodup_nil, fun x hx => ?_⟩
  rw [mem_addAll] at hx
  rcases hx with hx | ⟨hx, hp⟩
  · simp at hx
  · refine ⟨?_, occurs_of_listed ((mem_postN_iff x t).mp hx)⟩
    rw [isPrim_iff, hp]; simp

example : unique_types exA = .ok [exB, .mk [] (.Seq exB), exA] := by decide +kernel

/-- C22 as stated: every non-primitive schema occurring in a type is in its list.  This is false of the code, see
`c22_unique_types_complete_false`. -/
def c22_statement : Prop :=
  ∀ (t : Nty) (l : List Nty), unique_types t = .ok l → ∀ x, Spec.Occurs x t → ¬ Spec.IsPrim x → x ∈ l

/-- C22 is false: the payload of a newtype variant is listed, but nothing inside it is. -/
theorem c22_unique_types_complete_false : ¬ c22_statement := by
  intro h
  have hl : unique_types exN = .ok [exA, exN] := by decide +kernel
  have := h exN _ hl exB (.inside (c := exA) (by decide +kernel) (.inside (c := exB) (by decide +kernel) .self)) (by simp [exB, Spec.IsPrim])
  revert this
  decide +kernel

/-- C22, the part that holds: exactly the types that are not strictly inside a newtype-variant payload are listed.
Missing for the full statement: types strictly inside such a payload and nowhere else. -/
theorem c22_unique_types_partial (t : Nty) (l : List Nty) (h : unique_types t = .ok l) (x : Nty) :
    x ∈ l ↔ Spec.Listed x t ∧ ¬ Spec.IsPrim x := by
  rw [unique_types_eq] at h
  cases h
  rw [mem_addAll, mem_postN_iff, isPrim_iff]
  simp

example : Spec.Listed exA exE ∧ Spec.Listed exB exE ∧ unique_types exE = .ok [exA, exB, exE] :=
  ⟨.payload (by decide +kernel), .inside (c := exB) (by decide +kernel) .self, by decide +kernel⟩

/-- C22, full completeness when newtype variants only carry payloads without non-primitive parts. -/
theorem c22_unique_types_complete_partial (t : Nty) (l : List Nty) (h : unique_types t = .ok l)
    (flat : ∀ s p, Spec.Occurs s t → p ∈ Spec.newtypePayloads s → ∀ y, Spec.Occurs y p → y = p ∨ Spec.IsPrim y)
    (x : Nty) (hx : Spec.Occurs x t) (hp : ¬ Spec.IsPrim x) : x ∈ l := by
  refine (c22_unique_types_partial t l h x).mpr ⟨?_, hp⟩
  clear h
  induction hx with
  | self => exact .self
  | inside hc hx ih =>
    rcases (kids_split _ _).mp hc with ho | hn
    · exact .inside ho (ih (fun s p hs hp' => flat s p (.inside hc hs) hp'))
    · rcases flat _ _ .self hn _ hx with rfl | h
      · exact .payload hn
      · exact absurd h hp

/-- An enum with a newtype variant carrying a unit struct. -/
def exU : Nty := .mk [85#8] .UnitStruct
def exO : Nty := .mk [79#8] (.Enum [.mk [86#8] (.NewtypeVariant exU)])

/-- `exO` meets the hypothesis on newtype payloads, and has one. -/
example : (∀ s p, Spec.Occurs s exO → p ∈ Spec.newtypePayloads s → ∀ y, Spec.Occurs y p → y = p ∨ Spec.IsPrim y) ∧
    exU ∈ Spec.newtypePayloads exO ∧ unique_types exO = .ok [exU, exO] := by
  have inU : ∀ y, Spec.Occurs y exU → y = exU := by
    intro y h
    generalize e : exU = u at h
    cases h with
    | self => rfl
    | inside hc _ => subst e; simp [exU, Spec.kids] at hc
  refine ⟨?_, by decide +kernel, by decide +kernel⟩
  intro s p hs hp y hy
  have hp' : p = exU := by
    generalize e : exO = o at hs
    cases hs with
    | self => subst e; simpa [exO, Spec.newtypePayloads] using hp
    | @inside _ c hc hs =>
      subst e
      have : c = exU := by simpa [exO, Spec.kids, Spec.varKids] using hc
      subst this
      rw [inU s hs] at hp
      simp [exU, Spec.newtypePayloads] at hp
  subst hp'
  exact Or.inl (inU y hy)

/-- C23: the computation never panics, whatever the schema. -/
theorem c23_unique_types_no_panic (t : Nty) : ∃ l, unique_types t = .ok l := ⟨_, unique_types_eq t⟩

/-- With a capacity one smaller than the pre-computed one the same code does panic, so C23 says something. -/
example : chew_nty (nty_upper exA) exA ≠ .panic ∧ chew_nty 2 exA = .panic := by decide +kernel

/-- C24: the compile-time comparison decides structural equality. -/
theorem c24_schema_eq_iff (a b : Nty) : nty_eq a b = true ↔ a = b := nty_eq_iff a b

example : nty_eq exA exA = true ∧ nty_eq exE exN = false := by decide +kernel

open Classical in
/-- C25 (types): merging lists of non-primitive types yields the first occurrence of each, in order, without
panicking.  (Primitive members would be dropped.) -/
theorem c25_merge_types (ls : List (List Nty)) :
    merge_types ls = .ok (Spec.firstOcc (ls.flatten.filter (fun x => decide (¬ Spec.IsPrim x)))) := by
  rw [merge_types_eq, addAll_nil_firstOcc]
  congr 2
  apply List.filter_congr
  intro x _
  have := isPrim_iff x
  by_cases h : is_prim x.ty = true <;> simp_all

example : merge_types [[exB, exA], [exE, exB], []] = .ok [exB, exA, exE] := by decide +kernel

/-- C25 (types), the common case: no list contains a primitive (C21), so nothing at all is lost. -/
theorem c25_merge_unique_lists (ls : List (List Nty)) (h : ∀ l ∈ ls, ∀ x ∈ l, ¬ Spec.IsPrim x) :
    ∃ r, merge_types ls = .ok r ∧ r = Spec.firstOcc ls.flatten ∧ r.Nodup ∧ ∀ x, x ∈ r ↔ ∃ l ∈ ls, x ∈ l := by
  have e : addAll [] ls.flatten = Spec.firstOcc ls.flatten := by
    rw [addAll_nil_firstOcc]
    congr 1
    apply List.filter_eq_self.mpr
    intro x hx
    obtain ⟨l, hl, hx⟩ := List.mem_flatten.mp hx
    have := h l hl x hx
    rw [isPrim_iff] at this
    simpa using this
  refine ⟨_, merge_types_eq ls, e, addAll_nodup List.nodup_nil, fun x => ?_⟩
  rw [mem_addAll]
  constructor
  · rintro (h | ⟨h, _⟩)
    · simp at h
    · simpa [List.mem_flatten] using h
  · rintro ⟨l, hl, hx⟩
    refine Or.inr ⟨List.mem_flatten.mpr ⟨l, hl, hx⟩, ?_⟩
    have := h l hl x hx
    rw [isPrim_iff] at this
    simpa using this

example : ∀ l ∈ [[exB, exA], [exE, exB], []], ∀ x ∈ l, ¬ Spec.IsPrim x := by
  simp [exA, exB, exE, Spec.IsPrim]

/-- C25 (endpoint and topic lists): concatenation is exact and does not panic, for any element type and any filler. -/
theorem c25_concat_arrays {α : Type} (init : α) (ls : List (List α)) :
    concat_arrays init ls = .ok ls.flatten := concat_arrays_eq init ls

example : concat_arrays 0 [[1, 2], [], [3]] = .ok [1, 2, 3] := by decide +kernel

end PRpc.Props
