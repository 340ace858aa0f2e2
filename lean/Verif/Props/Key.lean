import Verif.Lemmas.Key
/-!
Property theorems C06-C08: variable-length keys and sequence numbers.
-/

namespace PRpc.Props

open PRpc

/-- C06 (length): shrinking yields a key of the smaller of the two lengths. -/
theorem c06_shrink_length (k : VarKey) (kind : VarKeyKind) :
    (Spec.keyBytes (k.shrink_to kind)).length = min (Spec.keyBytes k).length (Spec.keyLen kind) :=
  shrink_length k kind

example : Spec.keyBytes (VarKey.shrink_to (.Key2 ⟨1#8, 2#8⟩) .Key8) = [1#8, 2#8] ∧
    Spec.keyBytes (VarKey.shrink_to (.Key2 ⟨1#8, 2#8⟩) .Key1) = [3#8] := by decide

/-- C06 (contents): the short form is the documented XOR fold of the long key. -/
theorem c06_shrink_is_fold (k : VarKey) (kind : VarKeyKind) :
    Spec.keyBytes (k.shrink_to kind) =
      Spec.fold (min (Spec.keyBytes k).length (Spec.keyLen kind)) (Spec.keyBytes k) :=
  shrink_bytes k kind

example : Spec.fold 2 [1#8, 2#8, 4#8, 8#8, 16#8, 32#8, 64#8, 128#8] = [15#8, 240#8] := by decide

/-- C06 (steps): shrinking in any sequence of steps is shrinking once to the smallest requested length. -/
theorem c06_shrink_steps (k : VarKey) (first : VarKeyKind) (more : List VarKeyKind) :
    Spec.keyBytes ((first :: more).foldl VarKey.shrink_to k) =
      Spec.fold (min (Spec.keyBytes k).length ((more.map Spec.keyLen).foldl min (Spec.keyLen first)))
        (Spec.keyBytes k) := by
  rw [List.foldl_cons, shrink_foldl, shrink_bytes, keyLen_foldl]

example : [VarKeyKind.Key4, .Key8, .Key2, .Key4].foldl VarKey.shrink_to
    (.Key8 ⟨1#8, 2#8, 4#8, 8#8, 16#8, 32#8, 64#8, 128#8⟩) = .Key2 ⟨15#8, 240#8⟩ := by decide

/-- C06 (conversions): each fallible conversion agrees with folding and fails exactly when the key is too short. -/
theorem c06_try_from (k : VarKey) :
    ((Key1.try_from_varkey k).map Key1.to_bytes =
      if 1 ≤ (Spec.keyBytes k).length then some (Spec.fold 1 (Spec.keyBytes k)) else none) ∧
    ((Key2.try_from_varkey k).map Key2.to_bytes =
      if 2 ≤ (Spec.keyBytes k).length then some (Spec.fold 2 (Spec.keyBytes k)) else none) ∧
    ((Key4.try_from_varkey k).map Key4.to_bytes =
      if 4 ≤ (Spec.keyBytes k).length then some (Spec.fold 4 (Spec.keyBytes k)) else none) ∧
    ((Key.try_from_varkey k).map Key.to_bytes =
      if 8 ≤ (Spec.keyBytes k).length then some (Spec.fold 8 (Spec.keyBytes k)) else none) := by
  cases k <;>
    simp [Key1.try_from_varkey, Key2.try_from_varkey, Key4.try_from_varkey, Key.try_from_varkey, Spec.keyBytes,
      Spec.fold, Spec.groups, Spec.xorAll, Key1.to_bytes, Key2.to_bytes, Key4.to_bytes, Key.to_bytes, Key1.from_key2,
      Key1.from_key4, Key1.from_key8, Key2.from_key4, Key2.from_key8, Key4.from_key8, BitVec.xor_assoc]

example : Key4.try_from_varkey (.Key2 ⟨1#8, 2#8⟩) = none ∧
    Key2.try_from_varkey (.Key4 ⟨1#8, 2#8, 4#8, 8#8⟩) = some ⟨3#8, 12#8⟩ := by decide

/-- C07 (meaning): two keys compare equal exactly when they agree once folded to the shorter of their lengths. -/
theorem c07_key_eq_iff (a b : VarKey) :
    a.eq b = true ↔
      Spec.fold (min (Spec.keyBytes a).length (Spec.keyBytes b).length) (Spec.keyBytes a) =
      Spec.fold (min (Spec.keyBytes a).length (Spec.keyBytes b).length) (Spec.keyBytes b) := by
  rw [eq_iff_shrink]
  have ha := shrink_bytes a (minKind a.kind b.kind)
  have hb := shrink_bytes b (minKind a.kind b.kind)
  rw [keyLen_minKind, kind_len, kind_len] at ha hb
  rw [show min (Spec.keyBytes a).length (min (Spec.keyBytes a).length (Spec.keyBytes b).length) =
    min (Spec.keyBytes a).length (Spec.keyBytes b).length by omega] at ha
  rw [show min (Spec.keyBytes b).length (min (Spec.keyBytes a).length (Spec.keyBytes b).length) =
    min (Spec.keyBytes a).length (Spec.keyBytes b).length by omega] at hb
  rw [← ha, ← hb]
  exact ⟨fun h => by rw [h], keyBytes_inj⟩

example : VarKey.eq (.Key1 ⟨3#8⟩) (.Key2 ⟨1#8, 2#8⟩) = true ∧
    VarKey.eq (.Key1 ⟨3#8⟩) (.Key2 ⟨1#8, 3#8⟩) = false := by decide

/-- C07: comparison is reflexive and symmetric. -/
theorem c07_key_eq_refl_symm (a b : VarKey) : a.eq a = true ∧ a.eq b = b.eq a := ⟨eq_refl a, eq_symm a b⟩

example : VarKey.eq (.Key2 ⟨1#8, 2#8⟩) (.Key1 ⟨3#8⟩) = true := by decide

/-- C07: equal keys stay equal under any shrinking of either side; in particular a key equals its short forms. -/
theorem c07_key_eq_shrink (a b : VarKey) (x y : VarKeyKind) (h : a.eq b = true) :
    (a.shrink_to x).eq (b.shrink_to y) = true := by
  rw [eq_iff_shrink] at *
  rw [kind_shrink, kind_shrink, shrink_shrink, shrink_shrink]
  have key : ∀ z, Spec.keyLen z ≤ Spec.keyLen (minKind a.kind b.kind) → a.shrink_to z = b.shrink_to z :=
    fun z hz => shrink_mono h hz
  have e1 : minKind x (minKind (minKind a.kind x) (minKind b.kind y)) =
      minKind (minKind a.kind x) (minKind b.kind y) := by
    apply keyLen_inj; simp only [keyLen_minKind]; omega
  have e2 : minKind y (minKind (minKind a.kind x) (minKind b.kind y)) =
      minKind (minKind a.kind x) (minKind b.kind y) := by
    apply keyLen_inj; simp only [keyLen_minKind]; omega
  rw [e1, e2]
  apply key
  simp only [keyLen_minKind]; omega

example : VarKey.eq (.Key4 ⟨1#8, 2#8, 4#8, 8#8⟩) (.Key2 ⟨3#8, 12#8⟩) = true := by decide

/-- C07: comparison is transitive when the middle key is at least as long as one of the outer two. -/
theorem c07_key_eq_trans (a b c : VarKey)
    (hm : (Spec.keyBytes a).length ≤ (Spec.keyBytes b).length ∨ (Spec.keyBytes c).length ≤ (Spec.keyBytes b).length)
    (h₁ : a.eq b = true) (h₂ : b.eq c = true) : a.eq c = true := by
  rw [eq_iff_shrink] at *
  simp only [← kind_len] at hm
  have k1 : a.shrink_to (minKind a.kind c.kind) = b.shrink_to (minKind a.kind c.kind) := by
    apply shrink_mono h₁
    simp only [keyLen_minKind]; omega
  have k2 : b.shrink_to (minKind a.kind c.kind) = c.shrink_to (minKind a.kind c.kind) := by
    apply shrink_mono h₂
    simp only [keyLen_minKind]; omega
  rw [k1, k2]

example : VarKey.eq (.Key1 ⟨3#8⟩) (.Key2 ⟨1#8, 2#8⟩) = true ∧
    VarKey.eq (.Key2 ⟨1#8, 2#8⟩) (.Key4 ⟨1#8, 0#8, 2#8, 0#8⟩) = true ∧
    VarKey.eq (.Key1 ⟨3#8⟩) (.Key4 ⟨1#8, 0#8, 2#8, 0#8⟩) = true := by decide

/-- C07: without that condition transitivity fails: one short key equals two different long keys. -/
theorem c07_key_eq_not_trans :
    ∃ a b c : VarKey, a.eq b = true ∧ b.eq c = true ∧ a.eq c = false ∧
      Spec.keyBytes a ≠ Spec.keyBytes c :=
  ⟨.Key2 ⟨1#8, 2#8⟩, .Key1 ⟨3#8⟩, .Key2 ⟨0#8, 3#8⟩, by decide⟩

example : VarKey.eq (.Key2 ⟨1#8, 2#8⟩) (.Key2 ⟨0#8, 3#8⟩) = false := by decide

/-- C08: sequence numbers compare equal exactly when their values agree, whatever their widths. -/
theorem c08_seq_eq_iff (a b : VarSeq) : a.eq b = true ↔ Spec.seqVal a = Spec.seqVal b := by
  simp only [VarSeq.eq, beq_iff_eq, ← BitVec.toNat_inj]
  have ha : a.into_u32.toNat = Spec.seqVal a := by
    cases a <;> rename_i v <;> have := v.isLt <;> simp [VarSeq.into_u32, Spec.seqVal] <;> omega
  have hb : b.into_u32.toNat = Spec.seqVal b := by
    cases b <;> rename_i v <;> have := v.isLt <;> simp [VarSeq.into_u32, Spec.seqVal] <;> omega
  rw [ha, hb]

example : VarSeq.eq (.Seq1 7#8) (.Seq4 7#32) = true ∧ VarSeq.eq (.Seq1 7#8) (.Seq2 263#16) = false := by decide

/-- C08: resizing yields exactly the requested width, keeping the low-order bits. -/
theorem c08_seq_resize (s : VarSeq) (kind : VarSeqKind) :
    Spec.seqWidth (s.resize kind) = Spec.seqLen kind ∧
    Spec.seqVal (s.resize kind) = Spec.seqVal s % 256 ^ Spec.seqLen kind := by
  cases s <;> cases kind <;> rename_i v <;> have := v.isLt <;>
    simp [VarSeq.resize, Spec.seqWidth, Spec.seqLen, Spec.seqVal] <;> omega

example : VarSeq.resize (.Seq4 0x12345678#32) .Seq2 = .Seq2 0x5678#16 := by decide

/-- C08: widening preserves the value. -/
theorem c08_seq_widen (s : VarSeq) (kind : VarSeqKind) (h : Spec.seqWidth s ≤ Spec.seqLen kind) :
    Spec.seqVal (s.resize kind) = Spec.seqVal s := by
  cases s <;> cases kind <;> rename_i v <;> have := v.isLt <;>
    simp [VarSeq.resize, Spec.seqWidth, Spec.seqLen, Spec.seqVal] at h ⊢ <;> omega

example : Spec.seqVal (VarSeq.resize (.Seq2 0x5678#16) .Seq4) = 0x5678 := by decide

/-- C08: the numeric conversions of a sequence number are its value truncated to the target width. -/
theorem c08_seq_into (s : VarSeq) :
    s.into_u8.toNat = Spec.seqVal s % 2 ^ 8 ∧ s.into_u16.toNat = Spec.seqVal s % 2 ^ 16 ∧
    s.into_u32.toNat = Spec.seqVal s := by
  cases s <;> rename_i v <;> have := v.isLt <;>
    simp [VarSeq.into_u8, VarSeq.into_u16, VarSeq.into_u32, Spec.seqVal] <;> omega

example : (VarSeq.Seq4 0x12345678#32).into_u8 = 0x78#8 := by decide

end PRpc.Props
