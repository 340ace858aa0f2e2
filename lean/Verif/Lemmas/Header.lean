import Verif.Spec.Header
/-! Helper lemmas for the header codec. -/

namespace PRpc

theorem u16_le_roundtrip (s : BitVec 16) :
    u16_from_le_bytes (s.extractLsb' 0 8) (s.extractLsb' 8 8) = s := by
  unfold u16_from_le_bytes
  apply BitVec.eq_of_toNat_eq
  simp only [BitVec.toNat_append, BitVec.extractLsb'_toNat, Nat.shiftRight_zero]
  have := s.isLt
  rw [Nat.shiftLeft_eq, ← Nat.mul_comm, Nat.shiftRight_eq_div_pow]
  rw [← Nat.two_pow_add_eq_or_of_lt (by omega)]
  omega

theorem u32_le_roundtrip (s : BitVec 32) :
    u32_from_le_bytes (s.extractLsb' 0 8) (s.extractLsb' 8 8) (s.extractLsb' 16 8) (s.extractLsb' 24 8) = s := by
  unfold u32_from_le_bytes
  apply BitVec.eq_of_toNat_eq
  simp only [BitVec.toNat_append, BitVec.extractLsb'_toNat, Nat.shiftRight_zero]
  have := s.isLt
  simp only [Nat.shiftLeft_eq, Nat.shiftRight_eq_div_pow]
  simp only [Nat.mul_comm _ (2 ^ 8)]
  rw [← Nat.two_pow_add_eq_or_of_lt (by omega), ← Nat.two_pow_add_eq_or_of_lt (by omega),
    ← Nat.two_pow_add_eq_or_of_lt (by omega)]
  omega

theorem u16_from_toNat (a b : Byte) : (u16_from_le_bytes a b).toNat = a.toNat + 256 * b.toNat := by
  unfold u16_from_le_bytes
  have := a.isLt
  simp only [BitVec.toNat_append, Nat.shiftLeft_eq, Nat.mul_comm _ (2 ^ 8)]
  rw [← Nat.two_pow_add_eq_or_of_lt (by omega)]
  omega

theorem u32_from_toNat (a b c d : Byte) :
    (u32_from_le_bytes a b c d).toNat = a.toNat + 256 * b.toNat + 65536 * c.toNat + 16777216 * d.toNat := by
  unfold u32_from_le_bytes
  have := a.isLt
  have := b.isLt
  have := c.isLt
  simp only [BitVec.toNat_append, Nat.shiftLeft_eq, Nat.mul_comm _ (2 ^ 8)]
  rw [← Nat.two_pow_add_eq_or_of_lt (by omega), ← Nat.two_pow_add_eq_or_of_lt (by omega),
    ← Nat.two_pow_add_eq_or_of_lt (by omega)]
  omega

theorem u16_to_from (a b : Byte) : u16_to_le_bytes (u16_from_le_bytes a b) = [a, b] := by
  have ha := a.isLt
  have hb := b.isLt
  simp only [u16_to_le_bytes, List.cons.injEq, and_true]
  constructor <;> apply BitVec.eq_of_toNat_eq <;>
    simp only [BitVec.extractLsb'_toNat, Nat.shiftRight_eq_div_pow, u16_from_toNat] <;> omega

theorem u32_to_from (a b c d : Byte) :
    u32_to_le_bytes (u32_from_le_bytes a b c d) = [a, b, c, d] := by
  have ha := a.isLt
  have hb := b.isLt
  have hc := c.isLt
  have hd := d.isLt
  simp only [u32_to_le_bytes, List.cons.injEq, and_true]
  refine ⟨?_, ?_, ?_, ?_⟩ <;> apply BitVec.eq_of_toNat_eq <;>
    simp only [BitVec.extractLsb'_toNat, Nat.shiftRight_eq_div_pow, u32_from_toNat] <;> omega

/-- Kind bits of a key. -/
def keyBitsOf : VarKey → Byte
  | .Key1 _ => KEY_ONE_BITS
  | .Key2 _ => KEY_TWO_BITS
  | .Key4 _ => KEY_FOUR_BITS
  | .Key8 _ => KEY_EIGHT_BITS

/-- Kind bits of a sequence number. -/
def seqBitsOf : VarSeq → Byte
  | .Seq1 _ => SEQ_ONE_BITS
  | .Seq2 _ => SEQ_TWO_BITS
  | .Seq4 _ => SEQ_FOUR_BITS

/-- The discriminant byte produced for a header. -/
def discOf (h : VarHeader) : Byte := keyBitsOf h.key ||| seqBitsOf h.seq_no

/-- The sequence bytes produced for a header. -/
def seqBytesOf (s : VarSeq) : Bytes :=
  match s with
  | .Seq1 s => [s]
  | .Seq2 s => u16_to_le_bytes s
  | .Seq4 s => u32_to_le_bytes s

/-- Closed form of the encoder. -/
def encOf (h : VarHeader) : Bytes := discOf h :: (Spec.keyBytes h.key ++ seqBytesOf h.seq_no)

theorem write_to_vec_eq (h : VarHeader) : h.write_to_vec = .ok (encOf h) := by
  obtain ⟨k, s⟩ := h
  cases k <;> cases s <;> rfl

theorem seqBytesOf_length (s : VarSeq) : (seqBytesOf s).length = Spec.seqWidth s := by
  cases s <;> rfl

theorem encOf_length (h : VarHeader) : (encOf h).length = Spec.encLen h := by
  simp only [encOf, List.length_cons, List.length_append, seqBytesOf_length, Spec.encLen]
  omega

theorem discOf_ver (h : VarHeader) : discOf h &&& VER_MASK_BITS = VER_ZERO_BITS := by
  obtain ⟨k, s⟩ := h
  cases k <;> cases s <;> (simp only [discOf, keyBitsOf, seqBitsOf]; decide)

theorem split_append (x y : Bytes) (n : Nat) (h : x.length = n) : split_at_checked (x ++ y) n = some (x, y) := by
  subst h
  simp [split_at_checked]

theorem split_at_checked_eq_none {b : Bytes} {n : Nat} : split_at_checked b n = none ↔ b.length < n := by
  unfold split_at_checked; split <;> simp <;> omega

theorem split_at_checked_eq_some {b x y : Bytes} {n : Nat} :
    split_at_checked b n = some (x, y) ↔ b = x ++ y ∧ x.length = n := by
  unfold split_at_checked
  split
  · simp only [Option.some.injEq, Prod.mk.injEq]
    constructor
    · rintro ⟨rfl, rfl⟩
      exact ⟨(List.take_append_drop n b).symm, by rw [List.length_take]; omega⟩
    · rintro ⟨rfl, rfl⟩
      simp
  · simp only [reduceCtorEq, false_iff, not_and]
    rintro rfl
    simp at *
    omega

theorem take_key_enc (h : VarHeader) (r : Bytes) :
    take_key (discOf h) (Spec.keyBytes h.key ++ r) = .ok (some (h.key, r)) := by
  obtain ⟨k, s⟩ := h
  cases k <;> cases s <;> simp [take_key, discOf, keyBitsOf, seqBitsOf, Spec.keyBytes, KEY_ONE_BITS, KEY_TWO_BITS, KEY_FOUR_BITS,
    KEY_EIGHT_BITS, KEY_MASK_BITS, SEQ_ONE_BITS, SEQ_TWO_BITS, SEQ_FOUR_BITS, split_at_checked]

theorem take_seq_enc (h : VarHeader) (r : Bytes) :
    take_seq (discOf h) (seqBytesOf h.seq_no ++ r) = .ok (some (h.seq_no, r)) := by
  obtain ⟨k, s⟩ := h
  cases k <;> cases s <;> simp [take_seq, discOf, keyBitsOf, seqBitsOf, seqBytesOf, u16_to_le_bytes, u32_to_le_bytes, KEY_ONE_BITS,
    KEY_TWO_BITS, KEY_FOUR_BITS, KEY_EIGHT_BITS, SEQ_MASK_BITS, SEQ_ONE_BITS, SEQ_TWO_BITS, SEQ_FOUR_BITS,
    split_at_checked, u16_le_roundtrip, u32_le_roundtrip]

theorem take_enc (h : VarHeader) (r : Bytes) :
    VarHeader.take_from_slice (encOf h ++ r) = .ok (some (h, r)) := by
  simp only [encOf, List.cons_append, VarHeader.take_from_slice, discOf_ver, ne_eq, not_true_eq_false, if_false,
    List.append_assoc, take_key_enc, take_seq_enc, Exec.ok_bind]

/-- Which kind bits correspond to a decoded key, and how many bytes were consumed. -/
theorem take_key_inv {disc : Byte} {b : Bytes} {k : VarKey} {r : Bytes}
    (h : take_key disc b = .ok (some (k, r))) :
    b = Spec.keyBytes k ++ r ∧ disc &&& KEY_MASK_BITS = keyBitsOf k := by
  unfold take_key at h
  simp only at h
  split at h
  · rename_i hm
    split at h
    · cases h
    · cases h; exact ⟨rfl, hm⟩
  · split at h
    · rename_i hm
      split at h
      · cases h
      · rename_i kb r2 hs
        rw [split_at_checked_eq_some] at hs
        split at h
        · cases h
          refine ⟨?_, hm⟩
          simp only [Spec.keyBytes]
          exact hs.1
        · cases h
    · split at h
      · rename_i hm
        split at h
        · cases h
        · rename_i kb r2 hs
          rw [split_at_checked_eq_some] at hs
          split at h
          · cases h
            refine ⟨?_, hm⟩
            simp only [Spec.keyBytes]
            exact hs.1
          · cases h
      · split at h
        · rename_i hm
          split at h
          · cases h
          · rename_i kb r2 hs
            rw [split_at_checked_eq_some] at hs
            split at h
            · cases h
              refine ⟨?_, hm⟩
              simp only [Spec.keyBytes]
              exact hs.1
            · cases h
        · cases h

theorem take_seq_inv {disc : Byte} {b : Bytes} {s : VarSeq} {r : Bytes}
    (h : take_seq disc b = .ok (some (s, r))) :
    b = seqBytesOf s ++ r ∧ disc &&& SEQ_MASK_BITS = seqBitsOf s := by
  unfold take_seq at h
  simp only at h
  split at h
  · rename_i hm
    split at h
    · cases h
    · cases h; exact ⟨rfl, hm⟩
  · split at h
    · rename_i hm
      split at h
      · cases h
      · rename_i kb r2 hs
        rw [split_at_checked_eq_some] at hs
        split at h
        · cases h
          refine ⟨?_, hm⟩
          simp only [seqBytesOf, u16_to_from]
          exact hs.1
        · cases h
    · split at h
      · rename_i hm
        split at h
        · cases h
        · rename_i kb r2 hs
          rw [split_at_checked_eq_some] at hs
          split at h
          · cases h
            refine ⟨?_, hm⟩
            simp only [seqBytesOf, u32_to_from]
            exact hs.1
          · cases h
      · cases h

/-- A byte is the disjunction of its three fields. -/
theorem byte_fields (d : Byte) :
    d = (d &&& KEY_MASK_BITS) ||| (d &&& SEQ_MASK_BITS) ||| (d &&& VER_MASK_BITS) := by
  have e : KEY_MASK_BITS ||| SEQ_MASK_BITS ||| VER_MASK_BITS = BitVec.allOnes 8 := rfl
  rw [← BitVec.and_or_distrib_left, ← BitVec.and_or_distrib_left, e, BitVec.and_allOnes]

theorem take_inv {b : Bytes} {h : VarHeader} {r : Bytes}
    (ht : VarHeader.take_from_slice b = .ok (some (h, r))) : b = encOf h ++ r := by
  unfold VarHeader.take_from_slice at ht
  split at ht
  · cases ht
  · rename_i disc remain
    split at ht
    · cases ht
    · rename_i hv
      cases hk : take_key disc remain with
      | panic => rw [hk] at ht; cases ht
      | ok o =>
        rw [hk] at ht
        cases o with
        | none => cases ht
        | some p =>
          obtain ⟨key, rem2⟩ := p
          simp only [Exec.ok_bind] at ht
          cases hs : take_seq disc rem2 with
          | panic => rw [hs] at ht; cases ht
          | ok o =>
            rw [hs] at ht
            cases o with
            | none => cases ht
            | some p =>
              obtain ⟨seq, rem3⟩ := p
              simp only [Exec.ok_bind] at ht
              cases ht
              have ⟨hk1, hk2⟩ := take_key_inv hk
              have ⟨hs1, hs2⟩ := take_seq_inv hs
              subst hk1; subst hs1
              simp only [ne_eq, Decidable.not_not] at hv
              have hd := byte_fields disc
              rw [hk2, hs2, hv] at hd
              simp only [encOf, List.cons_append, List.append_assoc, discOf, List.cons.injEq, and_true]
              rw [hd]
              exact BitVec.or_zero

/-- Every byte carries one of the four key-length codes. -/
theorem key_bits_cover (d : Byte) :
    d &&& KEY_MASK_BITS = KEY_ONE_BITS ∨ d &&& KEY_MASK_BITS = KEY_TWO_BITS ∨
    d &&& KEY_MASK_BITS = KEY_FOUR_BITS ∨ d &&& KEY_MASK_BITS = KEY_EIGHT_BITS := by
  revert d; decide

theorem take_key_cases (d : Byte) (b : Bytes) :
    take_key d b = .ok none ∨ ∃ k r, take_key d b = .ok (some (k, r)) := by
  have hc := key_bits_cover d
  unfold take_key
  rcases hc with h | h | h | h <;> simp only [h, KEY_ONE_BITS, KEY_TWO_BITS, KEY_FOUR_BITS, KEY_EIGHT_BITS,
    reduceIte, BitVec.reduceEq]
  · cases b <;> simp
  · match b with
    | [] => left; rfl
    | [_] => left; rfl
    | _ :: _ :: _ => right; exact ⟨_, _, rfl⟩
  · match b with
    | [] => left; rfl
    | [_] => left; rfl
    | [_, _] => left; rfl
    | [_, _, _] => left; rfl
    | _ :: _ :: _ :: _ :: _ => right; exact ⟨_, _, rfl⟩
  · match b with
    | [] => left; rfl
    | [_] => left; rfl
    | [_, _] => left; rfl
    | [_, _, _] => left; rfl
    | [_, _, _, _] => left; rfl
    | [_, _, _, _, _] => left; rfl
    | [_, _, _, _, _, _] => left; rfl
    | [_, _, _, _, _, _, _] => left; rfl
    | _ :: _ :: _ :: _ :: _ :: _ :: _ :: _ :: _ => right; exact ⟨_, _, rfl⟩

theorem take_seq_cases (d : Byte) (b : Bytes) :
    take_seq d b = .ok none ∨ ∃ k r, take_seq d b = .ok (some (k, r)) := by
  unfold take_seq
  simp only
  split
  · cases b <;> simp
  · split
    · match b with
      | [] => left; rfl
      | [_] => left; rfl
      | _ :: _ :: _ => right; exact ⟨_, _, rfl⟩
    · split
      · match b with
        | [] => left; rfl
        | [_] => left; rfl
        | [_, _] => left; rfl
        | [_, _, _] => left; rfl
        | _ :: _ :: _ :: _ :: _ => right; exact ⟨_, _, rfl⟩
      · left; rfl

theorem take_cases (b : Bytes) :
    VarHeader.take_from_slice b = .ok none ∨ ∃ h r, VarHeader.take_from_slice b = .ok (some (h, r)) := by
  unfold VarHeader.take_from_slice
  split
  · left; rfl
  · split
    · left; rfl
    · rename_i d r _
      rcases take_key_cases d r with h | ⟨k, r2, h⟩
      · left; rw [h]; rfl
      · rw [h]
        rcases take_seq_cases d r2 with h' | ⟨k, r2, h'⟩
        · left; simp [h']
        · right; simp [h']

/-- The numeric value of the discriminant. -/
theorem discOf_toNat (h : VarHeader) :
    (discOf h).toNat = 64 * Spec.keyCode (Spec.keyKind h.key) +
      16 * (match h.seq_no with | .Seq1 _ => 0 | .Seq2 _ => 1 | .Seq4 _ => 2) := by
  obtain ⟨k, s⟩ := h
  cases k <;> cases s <;> (simp only [discOf, keyBitsOf, seqBitsOf, Spec.keyKind, Spec.keyBytes, List.length_cons,
    List.length_nil, Spec.keyCode]; decide)

/-- Splitting off a prefix of given length. -/
theorem exists_split {b : Bytes} {n : Nat} (h : n ≤ b.length) : ∃ x y, b = x ++ y ∧ x.length = n :=
  ⟨b.take n, b.drop n, (List.take_append_drop n b).symm, by rw [List.length_take]; omega⟩

theorem keyBytes_surj {x : Bytes} {kc : Nat} (h : x.length = 2 ^ kc) (hk : kc ≤ 3) :
    ∃ k, Spec.keyBytes k = x ∧ Spec.keyCode (Spec.keyKind k) = kc := by
  have : kc = 0 ∨ kc = 1 ∨ kc = 2 ∨ kc = 3 := by omega
  rcases this with rfl | rfl | rfl | rfl
  · match x, h with
    | [a], _ => exact ⟨.Key1 ⟨a⟩, rfl, rfl⟩
  · match x, h with
    | [a, b], _ => exact ⟨.Key2 ⟨a, b⟩, rfl, rfl⟩
  · match x, h with
    | [a, b, c, d], _ => exact ⟨.Key4 ⟨a, b, c, d⟩, rfl, rfl⟩
  · match x, h with
    | [a, b, c, d, e, f, g, h], _ => exact ⟨.Key8 ⟨a, b, c, d, e, f, g, h⟩, rfl, rfl⟩

theorem seqBytes_surj {x : Bytes} {sc : Nat} (h : x.length = 2 ^ sc) (hs : sc ≤ 2) :
    ∃ s, seqBytesOf s = x ∧ (match s with | .Seq1 _ => 0 | .Seq2 _ => 1 | .Seq4 _ => 2) = sc := by
  have : sc = 0 ∨ sc = 1 ∨ sc = 2 := by omega
  rcases this with rfl | rfl | rfl
  · match x, h with
    | [a], _ => exact ⟨.Seq1 a, rfl, rfl⟩
  · match x, h with
    | [a, b], _ => exact ⟨.Seq2 (u16_from_le_bytes a b), u16_to_from a b, rfl⟩
  · match x, h with
    | [a, b, c, d], _ => exact ⟨.Seq4 (u32_from_le_bytes a b c d), u32_to_from a b c d, rfl⟩

theorem wellFormed_iff_enc (b : Bytes) : Spec.WellFormed b ↔ ∃ h r, b = encOf h ++ r := by
  constructor
  · rintro ⟨d, rest, kc, sc, rfl, hd, hk, hs, hl⟩
    obtain ⟨x, y, rfl, hx⟩ := exists_split (b := rest) (n := 2 ^ kc) (Nat.le_trans (Nat.le_add_right _ _) hl)
    obtain ⟨z, w, rfl, hz⟩ := exists_split (b := y) (n := 2 ^ sc) (by
      rw [List.length_append] at hl; omega)
    obtain ⟨k, rfl, hk2⟩ := keyBytes_surj hx hk
    obtain ⟨s, rfl, hs2⟩ := seqBytes_surj hz hs
    refine ⟨⟨k, s⟩, w, ?_⟩
    have : d = discOf ⟨k, s⟩ := by
      apply BitVec.eq_of_toNat_eq
      rw [hd, discOf_toNat, ← hk2, ← hs2]
    rw [this, encOf, List.cons_append, List.append_assoc]
  · rintro ⟨h, r, rfl⟩
    refine ⟨discOf h, Spec.keyBytes h.key ++ seqBytesOf h.seq_no ++ r, Spec.keyCode (Spec.keyKind h.key), _, rfl,
      discOf_toNat h, ?_, ?_, ?_⟩
    · obtain ⟨k, s⟩ := h
      cases k <;> simp [Spec.keyKind, Spec.keyCode, Spec.keyBytes]
    · obtain ⟨k, s⟩ := h
      cases s <;> simp
    · obtain ⟨k, s⟩ := h
      simp only [List.length_append, seqBytesOf_length]
      cases k <;> cases s <;> simp [Spec.keyKind, Spec.keyCode, Spec.keyBytes, Spec.seqWidth]

theorem toNat_u16_le (s : BitVec 16) : (u16_to_le_bytes s).map BitVec.toNat = Spec.leDigits 2 s.toNat := by
  have := s.isLt
  simp [u16_to_le_bytes, Spec.leDigits, BitVec.extractLsb'_toNat, Nat.shiftRight_eq_div_pow]

theorem toNat_u32_le (s : BitVec 32) : (u32_to_le_bytes s).map BitVec.toNat = Spec.leDigits 4 s.toNat := by
  have := s.isLt
  simp only [u32_to_le_bytes, Spec.leDigits, BitVec.extractLsb'_toNat, Nat.shiftRight_eq_div_pow, List.map_cons,
    List.map_nil, List.cons.injEq, and_true, Nat.div_div_eq_div_mul]
  simp

theorem write_key_part_eq (k : VarKey) (b : Bytes) :
    write_key_part k b = (keyBitsOf k,
      if (Spec.keyBytes k).length ≤ b.length then .ok (some (Spec.keyBytes k, b.drop (Spec.keyBytes k).length))
      else .ok none) := by
  cases k
  · cases b <;> simp [write_key_part, keyBitsOf, Spec.keyBytes]
  all_goals
    split <;> rename_i hl
    · simp [Spec.keyBytes] at hl
      simp [write_key_part, keyBitsOf, Spec.keyBytes, split_at_checked, hl, copy_from_slice, Key2.to_bytes,
        Key4.to_bytes, Key.to_bytes]
    · simp [Spec.keyBytes] at hl
      simp [write_key_part, keyBitsOf, split_at_checked, Nat.not_le.mpr hl]

theorem write_seq_part_eq (s : VarSeq) (b : Bytes) :
    write_seq_part s b = (seqBitsOf s,
      if Spec.seqWidth s ≤ b.length then .ok (some (seqBytesOf s, b.drop (Spec.seqWidth s)))
      else .ok none) := by
  cases s
  · cases b <;> simp [write_seq_part, seqBitsOf, seqBytesOf, Spec.seqWidth]
  all_goals
    split <;> rename_i hl
    · simp [Spec.seqWidth] at hl
      simp [write_seq_part, seqBitsOf, seqBytesOf, Spec.seqWidth, split_at_checked, hl, copy_from_slice,
        u16_to_le_bytes, u32_to_le_bytes]
    · simp [Spec.seqWidth] at hl
      simp [write_seq_part, seqBitsOf, split_at_checked, Nat.not_le.mpr hl]

/-- Closed form of `write_to_slice` on a buffer that is large enough. -/
theorem write_to_slice_fits (h : VarHeader) (buf : Bytes) (hl : Spec.encLen h ≤ buf.length) :
    h.write_to_slice buf =
      .ok ⟨some (encOf h, buf.drop (Spec.encLen h)), encOf h ++ buf.drop (Spec.encLen h)⟩ := by
  cases buf with
  | nil => simp [Spec.encLen] at hl
  | cons x remain =>
    simp only [Spec.encLen, List.length_cons] at hl
    simp only [VarHeader.write_to_slice, write_key_part_eq, write_seq_part_eq]
    rw [if_pos (by omega)]
    simp only [Exec.ok_bind]
    rw [if_pos (by rw [List.length_drop]; omega)]
    simp only [Exec.ok_bind]
    have e : keyBitsOf h.key ||| seqBitsOf h.seq_no = discOf h := rfl
    have hd : List.drop (Spec.encLen h) (x :: remain) =
        List.drop (Spec.seqWidth h.seq_no) (List.drop (Spec.keyBytes h.key).length remain) := by
      rw [List.drop_drop]
      have : Spec.encLen h = (Spec.keyBytes h.key).length + Spec.seqWidth h.seq_no + 1 := by
        simp only [Spec.encLen]; omega
      rw [this, List.drop_succ_cons]
    have e2 : ∀ t : Bytes, discOf h :: (Spec.keyBytes h.key ++ (seqBytesOf h.seq_no ++ t)) = encOf h ++ t := by
      intro t; simp [encOf]
    have hlen : 1 + (Spec.keyBytes h.key).length + (seqBytesOf h.seq_no).length = (encOf h).length := by
      simp only [encOf, List.length_cons, List.length_append]; omega
    simp only [e, e2, hlen, hd]
    rw [if_pos (by simp)]
    simp

/-- `write_to_slice` on a buffer that is too small: no result, no panic. -/
theorem write_to_slice_short (h : VarHeader) (buf : Bytes) (hl : buf.length < Spec.encLen h) :
    ∃ b', h.write_to_slice buf = .ok ⟨none, b'⟩ ∧ b'.length = buf.length := by
  cases buf with
  | nil => exact ⟨[], rfl, rfl⟩
  | cons x remain =>
    simp only [Spec.encLen, List.length_cons] at hl
    simp only [VarHeader.write_to_slice, write_key_part_eq, write_seq_part_eq]
    split
    · simp only [Exec.ok_bind]
      rw [if_neg (by rw [List.length_drop]; omega)]
      simp only [Exec.ok_bind]
      refine ⟨_, rfl, ?_⟩
      simp only [List.length_cons, List.length_append, List.length_drop]
      omega
    · exact ⟨_, rfl, rfl⟩

end PRpc
