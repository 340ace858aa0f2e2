import Verif.Lemmas.Header
/-!
Property theorems C01-C05: the header codec.
-/

namespace PRpc.Props

open PRpc

/-- C01: decoding an encoded header followed by any body gives back exactly the header and the body. -/
theorem c01_header_round_trip (h : VarHeader) (body : Bytes) :
    ∃ bs, h.write_to_vec = .ok bs ∧ VarHeader.take_from_slice (bs ++ body) = .ok (some (h, body)) :=
  ⟨encOf h, write_to_vec_eq h, take_enc h body⟩

example : (VarHeader.mk (.Key2 ⟨0x42#8, 0xAF#8⟩) (.Seq2 0x1234#16)).write_to_vec =
    .ok [0x50#8, 0x42#8, 0xAF#8, 0x34#8, 0x12#8] ∧
    VarHeader.take_from_slice [0x50#8, 0x42#8, 0xAF#8, 0x34#8, 0x12#8, 7#8] =
      .ok (some (VarHeader.mk (.Key2 ⟨0x42#8, 0xAF#8⟩) (.Seq2 0x1234#16), [7#8])) := by decide

/-- C02 (canonical): whatever decodes is the encoding of what was decoded, followed by the remainder. -/
theorem c02_header_canonical (b : Bytes) (h : VarHeader) (rest : Bytes)
    (hd : VarHeader.take_from_slice b = .ok (some (h, rest))) :
    ∃ bs, h.write_to_vec = .ok bs ∧ b = bs ++ rest :=
  ⟨encOf h, write_to_vec_eq h, take_inv hd⟩

example : VarHeader.take_from_slice [0x00#8, 9#8, 8#8, 7#8] =
    .ok (some (VarHeader.mk (.Key1 ⟨9#8⟩) (.Seq1 8#8), [7#8])) := by decide

/-- C02 (prefix-free, hence injective): if one header's encoding is a prefix of another's, the headers are the same. -/
theorem c02_header_prefix_free (h₁ h₂ : VarHeader) (b₁ b₂ : Bytes)
    (e₁ : h₁.write_to_vec = .ok b₁) (e₂ : h₂.write_to_vec = .ok b₂) (hp : b₁ <+: b₂) : h₁ = h₂ := by
  rw [write_to_vec_eq] at e₁ e₂
  cases e₁; cases e₂
  obtain ⟨t, ht⟩ := hp
  have a := take_enc h₁ t
  have b := take_enc h₂ []
  rw [List.append_nil, ← ht, a] at b
  simp only [Exec.ok.injEq, Option.some.injEq, Prod.mk.injEq] at b
  exact b.1

example : ∃ h₁ h₂ : VarHeader, ∃ b₁ b₂, h₁.write_to_vec = .ok b₁ ∧ h₂.write_to_vec = .ok b₂ ∧ b₁ <+: b₂ ∧
    h₁ = VarHeader.mk (.Key4 ⟨1#8, 2#8, 3#8, 4#8⟩) (.Seq4 5#32) :=
  ⟨_, _, _, _, write_to_vec_eq (VarHeader.mk (.Key4 ⟨1#8, 2#8, 3#8, 4#8⟩) (.Seq4 5#32)),
    write_to_vec_eq (VarHeader.mk (.Key4 ⟨1#8, 2#8, 3#8, 4#8⟩) (.Seq4 5#32)), List.prefix_rfl, rfl⟩

/-- C03 (totality): the decoder returns, without panicking, on every byte string. -/
theorem c03_header_decode_no_panic (b : Bytes) : VarHeader.take_from_slice b ≠ .panic := by
  rcases take_cases b with h | ⟨_, _, h⟩ <;> rw [h] <;> simp

example : VarHeader.take_from_slice [0x30#8, 1#8, 1#8, 1#8, 1#8, 1#8] = .ok none := by decide

/-- C03 (acceptance): the decoder accepts exactly the byte strings that start with a well-formed header. -/
theorem c03_header_decode_accepts_iff (b : Bytes) :
    (∃ h rest, VarHeader.take_from_slice b = .ok (some (h, rest))) ↔ Spec.WellFormed b := by
  rw [wellFormed_iff_enc]
  constructor
  · rintro ⟨h, r, e⟩
    exact ⟨h, r, take_inv e⟩
  · rintro ⟨h, r, rfl⟩
    exact ⟨h, r, take_enc h r⟩

example : Spec.WellFormed [0x50#8, 1#8, 2#8, 3#8, 4#8] ∧ ¬ Spec.WellFormed [0x50#8, 1#8, 2#8, 3#8] := by
  refine ⟨⟨_, _, 1, 1, rfl, by decide, by decide, by decide, by decide⟩, ?_⟩
  rw [← c03_header_decode_accepts_iff]
  rintro ⟨h, r, e⟩
  have : VarHeader.take_from_slice [0x50#8, 1#8, 2#8, 3#8] = .ok none := by decide
  rw [this] at e
  cases e

/-- C04: the encoding is the documented layout, byte for byte, and 3 to 13 bytes long. -/
theorem c04_header_layout (h : VarHeader) :
    ∃ bs, h.write_to_vec = .ok bs ∧ bs.map BitVec.toNat = Spec.layout h ∧
      bs.length = Spec.encLen h ∧ 3 ≤ bs.length ∧ bs.length ≤ 13 := by
  refine ⟨encOf h, write_to_vec_eq h, ?_, encOf_length h, ?_, ?_⟩
  · unfold encOf Spec.layout
    rw [List.map_cons, List.map_append, discOf_toNat]
    congr 2
    obtain ⟨k, s⟩ := h
    cases s
    · rename_i v
      have := v.isLt
      simp [seqBytesOf, Spec.leDigits, Spec.seqWidth, Spec.seqVal]; omega
    · exact toNat_u16_le _
    · exact toNat_u32_le _
  all_goals
    rw [encOf_length]
    obtain ⟨k, s⟩ := h
    cases k <;> cases s <;> simp [Spec.encLen, Spec.keyBytes, Spec.seqWidth]

example : Spec.layout ⟨.Key4 ⟨1#8, 2#8, 3#8, 4#8⟩, .Seq4 0x01020304#32⟩ = [0xA0, 1, 2, 3, 4, 4, 3, 2, 1] := by decide

/-- C05: writing into a caller's buffer succeeds exactly when it is long enough, writes exactly the encoding, leaves
the rest untouched, never changes the buffer's length and never panics. -/
theorem c05_header_write_to_slice (h : VarHeader) (buf : Bytes) :
    ∃ bs res, h.write_to_vec = .ok bs ∧ h.write_to_slice buf = .ok res ∧ res.buf.length = buf.length ∧
      (if bs.length ≤ buf.length then
        res.ret = some (bs, buf.drop bs.length) ∧ res.buf = bs ++ buf.drop bs.length
      else res.ret = none) := by
  by_cases hl : Spec.encLen h ≤ buf.length
  · refine ⟨encOf h, _, write_to_vec_eq h, write_to_slice_fits h buf hl, ?_, ?_⟩
    · simp [encOf_length]; omega
    · rw [encOf_length, if_pos hl]; simp
  · obtain ⟨b', e, hb⟩ := write_to_slice_short h buf (by omega)
    refine ⟨encOf h, _, write_to_vec_eq h, e, hb, ?_⟩
    rw [encOf_length, if_neg hl]

example : (VarHeader.mk (.Key1 ⟨9#8⟩) (.Seq2 0x0102#16)).write_to_slice [7#8, 7#8, 7#8, 7#8, 7#8] =
    .ok ⟨some ([0x10#8, 9#8, 2#8, 1#8], [7#8]), [0x10#8, 9#8, 2#8, 1#8, 7#8]⟩ ∧
    (VarHeader.mk (.Key1 ⟨9#8⟩) (.Seq2 0x0102#16)).write_to_slice [7#8, 7#8, 7#8] =
    .ok ⟨none, [0x10#8, 9#8, 7#8]⟩ := by decide

end PRpc.Props
