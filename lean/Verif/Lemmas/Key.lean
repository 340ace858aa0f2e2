import Verif.Spec.Header
/-! Helper lemmas for keys. -/

namespace PRpc

theorem keyBytes_pos (k : VarKey) : 1 ≤ (Spec.keyBytes k).length := by
  cases k <;> simp [Spec.keyBytes]

theorem xor_zero8 (a : Byte) : a ^^^ 0#8 = a := by simp

theorem shrink_bytes (k : VarKey) (kind : VarKeyKind) :
    Spec.keyBytes (k.shrink_to kind) =
      Spec.fold (min (Spec.keyBytes k).length (Spec.keyLen kind)) (Spec.keyBytes k) := by
  cases k <;> cases kind <;>
    simp [VarKey.shrink_to, Spec.keyBytes, Spec.keyLen, Spec.fold, Spec.groups, Spec.xorAll, Key1.from_key2,
      Key1.from_key4, Key1.from_key8, Key2.from_key4, Key2.from_key8, Key4.from_key8, BitVec.xor_assoc]

theorem shrink_length (k : VarKey) (kind : VarKeyKind) :
    (Spec.keyBytes (k.shrink_to kind)).length = min (Spec.keyBytes k).length (Spec.keyLen kind) := by
  cases k <;> cases kind <;> simp [VarKey.shrink_to, Spec.keyBytes, Spec.keyLen]

theorem keyBytes_inj {a b : VarKey} (h : Spec.keyBytes a = Spec.keyBytes b) : a = b := by
  cases a <;> cases b <;> simp [Spec.keyBytes] at h <;> rename_i x y <;> cases x <;> cases y <;> simp_all

theorem kind_len (k : VarKey) : Spec.keyLen k.kind = (Spec.keyBytes k).length := by
  cases k <;> rfl

theorem keyLen_inj {a b : VarKeyKind} (h : Spec.keyLen a = Spec.keyLen b) : a = b := by
  cases a <;> cases b <;> simp [Spec.keyLen] at h <;> rfl

/-- The smaller of two key kinds. -/
def minKind (a b : VarKeyKind) : VarKeyKind := if Spec.keyLen a ≤ Spec.keyLen b then a else b

theorem keyLen_minKind (a b : VarKeyKind) : Spec.keyLen (minKind a b) = min (Spec.keyLen a) (Spec.keyLen b) := by
  unfold minKind; split <;> omega

theorem shrink_shrink (k : VarKey) (a b : VarKeyKind) :
    (k.shrink_to a).shrink_to b = k.shrink_to (minKind a b) := by
  cases k <;> cases a <;> cases b <;>
    simp [VarKey.shrink_to, minKind, Spec.keyLen, Key1.from_key2, Key1.from_key4, Key1.from_key8, Key2.from_key4,
      Key2.from_key8, Key4.from_key8, BitVec.xor_assoc]

theorem shrink_self (k : VarKey) (a : VarKeyKind) (h : (Spec.keyBytes k).length ≤ Spec.keyLen a) :
    k.shrink_to a = k := by
  cases k <;> cases a <;> simp [VarKey.shrink_to, Spec.keyBytes, Spec.keyLen] at * 

theorem shrink_foldl (ks : List VarKeyKind) (k : VarKey) (a : VarKeyKind) :
    ks.foldl VarKey.shrink_to (k.shrink_to a) = k.shrink_to (ks.foldl minKind a) := by
  induction ks generalizing a with
  | nil => rfl
  | cons x xs ih => rw [List.foldl_cons, List.foldl_cons, shrink_shrink, ih]

theorem keyLen_foldl (ks : List VarKeyKind) (a : VarKeyKind) :
    Spec.keyLen (ks.foldl minKind a) = (ks.map Spec.keyLen).foldl min (Spec.keyLen a) := by
  induction ks generalizing a with
  | nil => rfl
  | cons x xs ih => rw [List.foldl_cons, List.map_cons, List.foldl_cons, ih, keyLen_minKind]

/-- Rust equality of keys, as equality after shrinking both to the smaller kind. -/
theorem eq_iff_shrink (a b : VarKey) :
    a.eq b = true ↔ a.shrink_to (minKind a.kind b.kind) = b.shrink_to (minKind a.kind b.kind) := by
  cases a <;> cases b <;>
    simp [VarKey.eq, VarKey.shrink_to, VarKey.kind, minKind, Spec.keyLen, Key1.from_key2, Key1.from_key4,
      Key1.from_key8, Key2.from_key4, Key2.from_key8, Key4.from_key8, Key2.to_bytes, Key4.to_bytes, Key.to_bytes] <;>
    rename_i x y <;> cases x <;> cases y <;> simp

theorem minKind_comm (a b : VarKeyKind) : minKind a b = minKind b a := by
  cases a <;> cases b <;> rfl

theorem eq_refl (a : VarKey) : a.eq a = true := by rw [eq_iff_shrink]

theorem eq_symm (a b : VarKey) : a.eq b = b.eq a := by
  rw [Bool.eq_iff_iff, eq_iff_shrink, eq_iff_shrink, minKind_comm]
  exact eq_comm

/-- Agreement at a length carries over to any shorter length. -/
theorem shrink_mono {a b : VarKey} {x y : VarKeyKind} (h : a.shrink_to x = b.shrink_to x)
    (hxy : Spec.keyLen y ≤ Spec.keyLen x) : a.shrink_to y = b.shrink_to y := by
  have e : minKind x y = y := by
    apply keyLen_inj; rw [keyLen_minKind]; omega
  have := congrArg (·.shrink_to y) h
  simpa only [shrink_shrink, e] using this

/-- Two kinds that are both at least as long as the relevant minimum shrink the same way. -/
theorem kind_shrink (k : VarKey) (kind : VarKeyKind) : (k.shrink_to kind).kind = minKind k.kind kind := by
  apply keyLen_inj
  rw [kind_len, shrink_length, keyLen_minKind, kind_len]

end PRpc
