import Verif.Model.Cobs
/-!
Model of the serial transport, `/repo/source/postcard-rpc/src/host_client/serial.rs` 143-228.
-/

namespace PRpc

/-- The part of the input a feed hands back (`new_wind` / `remaining`, serial.rs 201-223); `none` for `Consumed`. -/
def FeedResult.rest : FeedResult → Option Bytes
  | .Consumed => none
  | .OverFull w => some w
  | .DeserError w => some w
  | .Success _ w => some w

/-- Termination measure of the receive loop (model bookkeeping): input left, plus one if the buffer is exactly full. -/
def feed_measure (N : Nat) (s : Acc) (w : Bytes) : Nat := 2 * w.length + if s.idx = N then 1 else 0

theorem zero_pos_lt {w : Bytes} {n : Nat} (h : zero_pos w = some n) : n < w.length := by
  induction w generalizing n with
  | nil => simp [zero_pos] at h
  | cons b w ih =>
    simp only [zero_pos] at h
    split at h
    · cases h; simp
    · cases hz : zero_pos w with
      | none => simp [hz] at h
      | some m =>
        simp [hz] at h
        have := ih hz
        simp only [List.length_cons]; omega

/-- Every feed that hands back input makes progress (needed for the receive loop to be a function). -/
theorem feed_decreases {N : Nat} (hN : 0 < N) {s s' : Acc} {w w' : Bytes} {r : FeedResult} (hw : w ≠ [])
    (h : s.feed N w = .ok (r, s')) (hr : r.rest = some w') : feed_measure N s' w' < feed_measure N s w := by
  unfold Acc.feed at h
  have hl : 0 < w.length := List.length_pos_iff.mpr hw
  simp only [List.isEmpty_iff, hw, if_false] at h
  cases hz : zero_pos w with
  | some n =>
    have hn := zero_pos_lt hz
    have key : w' = w.drop (n + 1) ∧ s'.idx = 0 := by
      simp only [hz] at h
      split at h
      · cases he : s.extend_unchecked (w.take (n + 1)) with
        | panic => simp [he] at h
        | ok s1 =>
          simp only [he, Exec.ok_bind] at h
          cases hd : decode_in_place (s1.buf.take s1.idx) with
          | panic => simp [hd] at h
          | ok q =>
            obtain ⟨o, front⟩ := q
            simp only [hd, Exec.ok_bind] at h
            cases o with
            | none =>
              simp only [Exec.ok.injEq, Prod.mk.injEq] at h
              obtain ⟨rfl, rfl⟩ := h
              simp only [FeedResult.rest, Option.some.injEq] at hr
              exact ⟨hr.symm, rfl⟩
            | some u =>
              simp only [Exec.ok.injEq, Prod.mk.injEq] at h
              obtain ⟨rfl, rfl⟩ := h
              simp only [FeedResult.rest, Option.some.injEq] at hr
              exact ⟨hr.symm, rfl⟩
      · simp only [Exec.ok.injEq, Prod.mk.injEq] at h
        obtain ⟨rfl, rfl⟩ := h
        simp only [FeedResult.rest, Option.some.injEq] at hr
        exact ⟨hr.symm, rfl⟩
    obtain ⟨rfl, hi⟩ := key
    simp only [feed_measure, hi, List.length_drop]
    rw [if_neg (by omega : ¬ 0 = N)]
    omega
  | none =>
    simp only [hz] at h
    split at h
    · split at h
      · rename_i h1 h2
        simp only [Exec.ok.injEq, Prod.mk.injEq] at h
        obtain ⟨rfl, rfl⟩ := h
        simp only [FeedResult.rest, Option.some.injEq] at hr
        subst hr
        simp only [feed_measure, List.length_drop]
        rw [if_neg (by omega : ¬ 0 = N)]
        split <;> omega
      · cases h
    · cases he : s.extend_unchecked w with
      | panic => simp [he] at h
      | ok s1 =>
        simp only [he, Exec.ok_bind, Exec.ok.injEq, Prod.mk.injEq] at h
        obtain ⟨rfl, rfl⟩ := h
        simp [FeedResult.rest] at hr

/-- The `'cobs: while !window.is_empty()` loop, serial.rs 199-224, for an accumulator of non-zero capacity `N`: the
results of the feeds in order (`Consumed` excepted, which ends the loop) and the accumulator afterwards. -/
def cobs_loop (N : Nat) (hN : 0 < N) (s : Acc) (window : Bytes) : Exec (List FeedResult × Acc) :=
  if _hw : window = [] then .ok ([], s)
  else
    match _h : s.feed N window with
    | .panic => .panic
    | .ok (r, s') =>
      match _hr : r.rest with
      | none => .ok ([], s')
      | some w' => do
        let (rs, s'') ← cobs_loop N hN s' w'
        .ok (r :: rs, s'')
termination_by feed_measure N s window
decreasing_by exact feed_decreases hN _hw _h _hr

/-- The same loop over the windows of successive reads (serial.rs 189-224): all feed results in order. -/
def cobs_reads (N : Nat) (hN : 0 < N) (s : Acc) : List Bytes → Exec (List FeedResult × Acc)
  | [] => .ok ([], s)
  | w :: ws => do
    let (o, s) ← cobs_loop N hN s w
    let (os, s) ← cobs_reads N hN s ws
    .ok (o ++ os, s)

/-- The messages in a list of feed results that the receive loop puts in the pending queue: successful ones of at least
nine bytes (`data.len() >= 9`, serial.rs 213-221). -/
def to_pending : List FeedResult → List Bytes
  | [] => []
  | .Success data _ :: rs => if data.length ≥ 9 then data :: to_pending rs else to_pending rs
  | _ :: rs => to_pending rs

/-- `SerialWireRx`, serial.rs 158-163 (without the port and its read buffer). -/
structure SerialRx where
  acc : Acc
  pending : List Bytes

/-- The capacity of the accumulator, serial.rs 161 (`CobsAccumulator<1024>`). -/
def SERIAL_ACC : Nat := 1024

/-- The receiver as constructed at serial.rs 75-80. -/
def SerialRx.new : SerialRx := ⟨Acc.new SERIAL_ACC, []⟩

/-- `SerialWireRx::recv_inner`, serial.rs 182-227, on the bytes returned by successive reads: the message returned (or
`none` while waiting for another read), the receiver and the reads left.  Read errors, which are returned to the caller
at once, are added by `SerialRx.receive` (Model/HostWires). -/
def SerialRx.recv_inner (s : SerialRx) (reads : List Bytes) : Exec (Option Bytes × SerialRx × List Bytes) :=
  match s.pending with
  | p :: ps => .ok (some p, { s with pending := ps }, reads)
  | [] =>
    match reads with
    | [] => .ok (none, s, [])
    | r :: rs => do
      let (out, acc) ← cobs_loop SERIAL_ACC (by decide) s.acc r
      SerialRx.recv_inner ⟨acc, s.pending ++ to_pending out⟩ rs
termination_by reads.length

/-- Calling `receive` (serial.rs 176-178) up to `calls` times, stopping when it waits: what was delivered, in order. -/
def SerialRx.recv_all (s : SerialRx) (reads : List Bytes) (calls : Nat) : Exec (List Bytes × SerialRx) :=
  match calls with
  | 0 => .ok ([], s)
  | calls + 1 => do
    let (m, s, reads) ← s.recv_inner reads
    match m with
    | none => .ok ([], s)
    | some d => do
      let (ds, s) ← s.recv_all reads calls
      .ok (d :: ds, s)

/-- `SerialWireTx::send_inner`, serial.rs 144-155: the bytes written to the port, with `encode` for `cobs::encode_vec`. -/
def serial_send (encode : Bytes → Bytes) (data : Bytes) : Bytes := encode data ++ [0#8]

end PRpc
