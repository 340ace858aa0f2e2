import Verif.Model.Basic
/-!
Model of the COBS accumulator (`/repo/source/postcard-rpc/src/accumulator.rs`) and of the serial transport
(`/repo/source/postcard-rpc/src/host_client/serial.rs` 105-228).

The external crate `cobs` 0.2.3 is modelled by `decode_in_place` below (the published algorithm of the crate, on
indices); its encoder is a parameter, assumed to produce an encoding in the sense of `Spec.Cobs`.
-/

namespace PRpc

/-- `buf[i]`, an indexing that panics out of bounds. -/
def byte_at (buf : Bytes) (i : Nat) : Exec Byte :=
  match buf[i]? with
  | some b => .ok b
  | none => .panic

/-- `buf[i] = b`, panics out of bounds. -/
def byte_put (buf : Bytes) (i : Nat) (b : Byte) : Exec Bytes :=
  if i < buf.length then .ok (buf.set i b) else .panic

/-- The inner copy loop of `cobs::decode_in_place` (external crate, called at accumulator.rs 80): `n` bytes from
`si` on are copied to `di` on, in the same buffer. -/
def dec_copy (buf : Bytes) (si di : Nat) : Nat → Exec Bytes
  | 0 => .ok buf
  | n + 1 => do
    let x ← byte_at buf si
    let buf ← byte_put buf di x
    dec_copy buf (si + 1) (di + 1) n

/-- The main loop of `cobs::decode_in_place` (external crate, called at accumulator.rs 80).  Result: `Ok(used)` or
`Err(())` as an option, and the buffer afterwards. -/
def dec_loop (buf : Bytes) (src_end si di : Nat) : Exec (Option Nat × Bytes) :=
  if si < src_end then do
    let code ← byte_at buf si
    if si + code.toNat > src_end ∧ code ≠ 1#8 then .ok (none, buf)
    else
      let n := code.toNat - 1
      let buf ← dec_copy buf (si + 1) di n
      if code ≠ 0xFF#8 ∧ si + 1 + n < src_end then do
        let buf ← byte_put buf (di + n) 0#8
        dec_loop buf src_end (si + 1 + n) (di + n + 1)
      else dec_loop buf src_end (si + 1 + n) (di + n)
  else .ok (some di, buf)
termination_by src_end - si

/-- Position of the first zero byte (`iter().position(|&i| i == 0)`, accumulator.rs 67). -/
def zero_pos : Bytes → Option Nat
  | [] => none
  | b :: bs => if b = 0#8 then some 0 else (zero_pos bs).map (· + 1)

/-- `cobs::decode_in_place` (external crate, called at accumulator.rs 80): decodes up to the first zero byte. -/
def decode_in_place (buf : Bytes) : Exec (Option Nat × Bytes) :=
  dec_loop buf ((zero_pos buf).getD buf.length) 0 0

/-- `CobsAccumulator<N>`, accumulator.rs 13-16. -/
structure Acc where
  buf : Bytes
  idx : Nat
  deriving DecidableEq, Repr

/-- `CobsAccumulator::new`, accumulator.rs 42-47. -/
def Acc.new (N : Nat) : Acc := ⟨List.replicate N 0#8, 0⟩

/-- `FeedResult`, accumulator.rs 19-38. -/
inductive FeedResult where
  | Consumed
  | OverFull (remaining : Bytes)
  | DeserError (remaining : Bytes)
  | Success (data remaining : Bytes)
  deriving DecidableEq, Repr

/-- `CobsAccumulator::extend_unchecked`, accumulator.rs 113-117: the slice range and `copy_from_slice` panic when the
input does not fit. -/
def Acc.extend_unchecked (s : Acc) (input : Bytes) : Exec Acc :=
  let new_end := s.idx + input.length
  if new_end ≤ s.buf.length then
    .ok ⟨s.buf.take s.idx ++ input ++ s.buf.drop new_end, new_end⟩
  else .panic

/-- `CobsAccumulator::feed` / `feed_ref`, accumulator.rs 52-54, 62-106.  `N - self.idx` panics on underflow and the
slice `&input[new_start..]` when out of range. -/
def Acc.feed (N : Nat) (s : Acc) (input : Bytes) : Exec (FeedResult × Acc) :=
  if input.isEmpty then .ok (.Consumed, s)
  else
    match zero_pos input with
    | some n =>
      let take := input.take (n + 1)
      let release := input.drop (n + 1)
      if s.idx + take.length ≤ N then do
        let s ← s.extend_unchecked take
        let (r, front) ← decode_in_place (s.buf.take s.idx)
        let s : Acc := { s with buf := front ++ s.buf.drop s.idx }
        match r with
        | some used => .ok (.Success (s.buf.take used) release, { s with idx := 0 })
        | none => .ok (.DeserError release, { s with idx := 0 })
      else .ok (.OverFull release, { s with idx := 0 })
    | none =>
      if s.idx + input.length > N then
        if s.idx ≤ N ∧ N - s.idx ≤ input.length then
          .ok (.OverFull (input.drop (N - s.idx)), { s with idx := 0 })
        else .panic
      else do
        let s ← s.extend_unchecked input
        .ok (.Consumed, s)

end PRpc
