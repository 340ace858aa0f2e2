import Verif.Model.Key
/-!
Model of `VarHeader` and its wire encoding (`/repo/source/postcard-rpc/src/header.rs` 364-577).
-/

namespace PRpc

/-- `VarHeader`, header.rs 364-370.  `DecidableEq` here is structural; the Rust `==` is `VarHeader.eq`. -/
structure VarHeader where
  key : VarKey
  seq_no : VarSeq
  deriving DecidableEq, Repr

/-- `#[derive(PartialEq)]` on `VarHeader`, header.rs 364: field-wise `==` of `VarKey` and `VarSeq`. -/
def VarHeader.eq (self other : VarHeader) : Bool :=
  self.key.eq other.key && self.seq_no.eq other.seq_no

/-- header.rs 375. -/
def KEY_ONE_BITS : Byte := 0b00_00_0000#8
/-- header.rs 377. -/
def KEY_TWO_BITS : Byte := 0b01_00_0000#8
/-- header.rs 379. -/
def KEY_FOUR_BITS : Byte := 0b10_00_0000#8
/-- header.rs 381. -/
def KEY_EIGHT_BITS : Byte := 0b11_00_0000#8
/-- header.rs 383. -/
def KEY_MASK_BITS : Byte := 0b11_00_0000#8
/-- header.rs 386. -/
def SEQ_ONE_BITS : Byte := 0b00_00_0000#8
/-- header.rs 388. -/
def SEQ_TWO_BITS : Byte := 0b00_01_0000#8
/-- header.rs 390. -/
def SEQ_FOUR_BITS : Byte := 0b00_10_0000#8
/-- header.rs 392. -/
def SEQ_MASK_BITS : Byte := 0b00_11_0000#8
/-- header.rs 395. -/
def VER_ZERO_BITS : Byte := 0b00_00_0000#8
/-- header.rs 397. -/
def VER_MASK_BITS : Byte := 0b00_00_1111#8

/-- `u16::to_le_bytes` (core library), used at header.rs 430, 495. -/
def u16_to_le_bytes (s : BitVec 16) : Bytes := [s.extractLsb' 0 8, s.extractLsb' 8 8]

/-- `u32::to_le_bytes` (core library), used at header.rs 434, 501. -/
def u32_to_le_bytes (s : BitVec 32) : Bytes :=
  [s.extractLsb' 0 8, s.extractLsb' 8 8, s.extractLsb' 16 8, s.extractLsb' 24 8]

/-- `u16::from_le_bytes` (core library), used at header.rs 563. -/
def u16_from_le_bytes (b0 b1 : Byte) : BitVec 16 := b1 ++ b0

/-- `u32::from_le_bytes` (core library), used at header.rs 570. -/
def u32_from_le_bytes (b0 b1 b2 b3 : Byte) : BitVec 32 := b3 ++ b2 ++ b1 ++ b0

/-- `Vec::swap_remove(0)` (core library), used at header.rs 440: the first element is replaced by the last.
Panics on an empty vector. -/
def swap_remove_zero (v : Bytes) : Exec Bytes :=
  match v with
  | [] => .panic
  | [_] => .ok []
  | _ :: x :: xs => .ok ((x :: xs).getLast (by simp) :: (x :: xs).dropLast)

/-- `VarHeader::write_to_vec`, header.rs 401-442: placeholder byte, key bytes, sequence bytes, push of the
discriminant, `swap_remove(0)`. -/
def VarHeader.write_to_vec (self : VarHeader) : Exec Bytes :=
  let out : Bytes := [0#8]
  let (disc_out, out) :=
    match self.key with
    | .Key1 k => (KEY_ONE_BITS, out ++ [k.v])
    | .Key2 k => (KEY_TWO_BITS, out ++ k.to_bytes)
    | .Key4 k => (KEY_FOUR_BITS, out ++ k.to_bytes)
    | .Key8 k => (KEY_EIGHT_BITS, out ++ k.to_bytes)
  let (disc_out, out) :=
    match self.seq_no with
    | .Seq1 s => (disc_out ||| SEQ_ONE_BITS, out ++ [s])
    | .Seq2 s => (disc_out ||| SEQ_TWO_BITS, out ++ u16_to_le_bytes s)
    | .Seq4 s => (disc_out ||| SEQ_FOUR_BITS, out ++ u32_to_le_bytes s)
  let out := out ++ [disc_out]
  swap_remove_zero out

/-- `slice::split_at_mut_checked` / `split_at_checked` (core library). -/
def split_at_checked (b : Bytes) (n : Nat) : Option (Bytes × Bytes) :=
  if n ≤ b.length then some (b.take n, b.drop n) else none

/-- `slice::copy_from_slice` (core library): panics unless the lengths agree; the destination then holds `src`. -/
def copy_from_slice (dst src : Bytes) : Exec Bytes :=
  if dst.length = src.length then .ok src else .panic

/-- Outcome of `VarHeader::write_to_slice`: the returned option (used part, unused part) and the contents of the
whole caller buffer afterwards. -/
structure WriteRes where
  ret : Option (Bytes × Bytes)
  buf : Bytes
  deriving DecidableEq, Repr

/-- Key part of `VarHeader::write_to_slice`, header.rs 455-484: given the bytes after the discriminant, returns the
discriminant value, the key bytes now in the buffer, and the remainder; the option is the `?`. -/
def write_key_part (key : VarKey) (remain : Bytes) : Byte × Exec (Option (Bytes × Bytes)) :=
  match key with
  | .Key1 k =>
    (KEY_ONE_BITS,
      match remain with
      | [] => .ok none
      | _ :: remain2 => .ok (some ([k.v], remain2)))
  | .Key2 k =>
    (KEY_TWO_BITS,
      match split_at_checked remain 2 with
      | none => .ok none
      | some (keybs, remain2) => do
        let keybs ← copy_from_slice keybs k.to_bytes
        .ok (some (keybs, remain2)))
  | .Key4 k =>
    (KEY_FOUR_BITS,
      match split_at_checked remain 4 with
      | none => .ok none
      | some (keybs, remain2) => do
        let keybs ← copy_from_slice keybs k.to_bytes
        .ok (some (keybs, remain2)))
  | .Key8 k =>
    (KEY_EIGHT_BITS,
      match split_at_checked remain 8 with
      | none => .ok none
      | some (keybs, remain2) => do
        let keybs ← copy_from_slice keybs k.to_bytes
        .ok (some (keybs, remain2)))

/-- Sequence part of `VarHeader::write_to_slice`, header.rs 485-504. -/
def write_seq_part (seq : VarSeq) (remain : Bytes) : Byte × Exec (Option (Bytes × Bytes)) :=
  match seq with
  | .Seq1 s =>
    (SEQ_ONE_BITS,
      match remain with
      | [] => .ok none
      | _ :: rest => .ok (some ([s], rest)))
  | .Seq2 s =>
    (SEQ_TWO_BITS,
      match split_at_checked remain 2 with
      | none => .ok none
      | some (seqbs, rest) => do
        let seqbs ← copy_from_slice seqbs (u16_to_le_bytes s)
        .ok (some (seqbs, rest)))
  | .Seq4 s =>
    (SEQ_FOUR_BITS,
      match split_at_checked remain 4 with
      | none => .ok none
      | some (seqbs, rest) => do
        let seqbs ← copy_from_slice seqbs (u32_to_le_bytes s)
        .ok (some (seqbs, rest)))

/-- `VarHeader::write_to_slice`, header.rs 451-506.  The caller's buffer is threaded explicitly, so that partial
writes before a failing `?` stay visible; `used` is the count kept by the Rust code, and the final
`buf.split_at_mut(used)` panics if `used` exceeds the buffer. -/
def VarHeader.write_to_slice (self : VarHeader) (buf : Bytes) : Exec WriteRes :=
  match buf with
  | [] => .ok ⟨none, []⟩
  | _ :: remain =>
    let (disc, kp) := write_key_part self.key remain
    kp >>= fun
    | none => .ok ⟨none, disc :: remain⟩
    | some (keybs, remain) =>
      let (sbits, sp) := write_seq_part self.seq_no remain
      let disc := disc ||| sbits
      sp >>= fun
      | none => .ok ⟨none, disc :: (keybs ++ remain)⟩
      | some (seqbs, rest) =>
        let buf := disc :: (keybs ++ (seqbs ++ rest))
        let used := 1 + keybs.length + seqbs.length
        if used ≤ buf.length then
          .ok ⟨some (buf.take used, buf.drop used), buf⟩
        else .panic

/-- Key part of `VarHeader::take_from_slice`, header.rs 522-551.  The `_ => unreachable!()` arm (line 550) is `panic`. -/
def take_key (disc : Byte) (remain : Bytes) : Exec (Option (VarKey × Bytes)) :=
  let m := disc &&& KEY_MASK_BITS
  if m = KEY_ONE_BITS then
    match remain with
    | [] => .ok none
    | keybs :: remain2 => .ok (some (.Key1 ⟨keybs⟩, remain2))
  else if m = KEY_TWO_BITS then
    match split_at_checked remain 2 with
    | none => .ok none
    | some (keybs, remain2) =>
      match keybs with
      | [a, b] => .ok (some (.Key2 ⟨a, b⟩, remain2))
      | _ => .panic
  else if m = KEY_FOUR_BITS then
    match split_at_checked remain 4 with
    | none => .ok none
    | some (keybs, remain2) =>
      match keybs with
      | [a, b, c, d] => .ok (some (.Key4 ⟨a, b, c, d⟩, remain2))
      | _ => .panic
  else if m = KEY_EIGHT_BITS then
    match split_at_checked remain 8 with
    | none => .ok none
    | some (keybs, remain2) =>
      match keybs with
      | [a, b, c, d, e, f, g, h] => .ok (some (.Key8 ⟨a, b, c, d, e, f, g, h⟩, remain2))
      | _ => .panic
  else .panic

/-- Sequence part of `VarHeader::take_from_slice`, header.rs 552-574. -/
def take_seq (disc : Byte) (remain : Bytes) : Exec (Option (VarSeq × Bytes)) :=
  let m := disc &&& SEQ_MASK_BITS
  if m = SEQ_ONE_BITS then
    match remain with
    | [] => .ok none
    | seqbs :: remain3 => .ok (some (.Seq1 seqbs, remain3))
  else if m = SEQ_TWO_BITS then
    match split_at_checked remain 2 with
    | none => .ok none
    | some (seqbs, remain3) =>
      match seqbs with
      | [a, b] => .ok (some (.Seq2 (u16_from_le_bytes a b), remain3))
      | _ => .panic
  else if m = SEQ_FOUR_BITS then
    match split_at_checked remain 4 with
    | none => .ok none
    | some (seqbs, remain3) =>
      match seqbs with
      | [a, b, c, d] => .ok (some (.Seq4 (u32_from_le_bytes a b c d), remain3))
      | _ => .panic
  else .ok none

/-- `VarHeader::take_from_slice`, header.rs 514-576.  The `copy_from_slice` into fixed arrays is folded into the
pattern match on the split-off part (a wrong length is `panic`). -/
def VarHeader.take_from_slice (buf : Bytes) : Exec (Option (VarHeader × Bytes)) :=
  match buf with
  | [] => .ok none
  | disc :: remain =>
    if disc &&& VER_MASK_BITS ≠ VER_ZERO_BITS then .ok none
    else
      take_key disc remain >>= fun
      | none => .ok none
      | some (key, remain) =>
        take_seq disc remain >>= fun
        | none => .ok none
        | some (seq_no, remain) => .ok (some (⟨key, seq_no⟩, remain))

end PRpc
