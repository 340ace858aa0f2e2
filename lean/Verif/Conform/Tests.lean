import Verif.Conform.Units
import Verif.Model.System
import Verif.Model.Channel
/-!
The integration tests `/repo/source/postcard-rpc-test/tests/basic.rs` and `subscrobble.rs` replayed on the model: what they assert
holds of a run of the model in which everything happens in the order the test expects.  These are checks of the model on the
given inputs, not proofs of properties.  Keys are hashes (external); here each path has its own.
-/

namespace PRpc.Conform

/-- The message types of the tests, basic.rs 29-49: `AReq`/`AResp` (a `u8`), `BReq`/`BResp` (a `u16`/`u32`), `ZMsg` (an `i16`). -/
inductive TVal where
  | a (n : Nat)
  | b (n : Nat)
  | z (n : Int)
  deriving DecidableEq

/-- `postcard`'s encoding of an unsigned integer (external), for numbers below 2^21. -/
def varint (n : Nat) : Bytes :=
  if n < 128 then [BitVec.ofNat 8 n]
  else if n < 16384 then [BitVec.ofNat 8 (n % 128 + 128), BitVec.ofNat 8 (n / 128)]
  else [BitVec.ofNat 8 (n % 128 + 128), BitVec.ofNat 8 (n / 128 % 128 + 128), BitVec.ofNat 8 (n / 16384)]

/-- The reverse of it, for one and two bytes. -/
def unvarint : Bytes → Option Nat
  | [x] => if x.toNat < 128 then some x.toNat else none
  | [x, y] => if x.toNat ≥ 128 ∧ y.toNat < 128 then some (x.toNat - 128 + 128 * y.toNat) else none
  | _ => none

/-- `postcard`'s encoding of a signed integer (external). -/
def zigzag (n : Int) : Nat := if n < 0 then (-2 * n - 1).toNat else (2 * n).toNat
/-- The reverse of it. -/
def unzigzag (n : Nat) : Int := if n % 2 = 0 then (n / 2 : Nat) else -((n / 2 : Nat) : Int) - 1

/-- The serialized messages. -/
def tEnc : Body TVal → Bytes
  | .val (.a n) => [BitVec.ofNat 8 n]
  | .val (.b n) => varint n
  | .val (.z n) => varint (zigzag n)
  | _ => []

/-- `from_bytes::<AReq>` (external). -/
def decA : Bytes → Option TVal
  | [x] => some (.a x.toNat)
  | _ => none
/-- `from_bytes::<BReq>` (external). -/
def decB (b : Bytes) : Option TVal := (unvarint b).map .b
/-- `from_bytes::<ZMsg>` (external). -/
def decZ (b : Bytes) : Option TVal := (unvarint b).map fun n => .z (unzigzag n)

/-- Some key for every path. -/
def tKey (n : Byte) : Key := ⟨n, 0, 0, 0, 0, 0, 0, 0⟩

/-- The request key of `AlphaEndpoint`, basic.rs 72. -/
def alphaReq : Key := tKey 3
/-- The response key of `AlphaEndpoint`, basic.rs 72. -/
def alphaResp : Key := tKey 0x83
/-- The request key of `BetaEndpoint`, basic.rs 73. -/
def betaReq : Key := tKey 4
/-- The response key of `BetaEndpoint`, basic.rs 73. -/
def betaResp : Key := tKey 0x84
/-- `ZetaTopic1`, basic.rs 88. -/
def zeta1 : Key := tKey 5
/-- `ZetaTopic2`, basic.rs 89. -/
def zeta2 : Key := tKey 6
/-- `ZetaTopic3`, basic.rs 90. -/
def zeta3 : Key := tKey 7
/-- `ZetaTopic10`, basic.rs 102. -/
def zeta10 : Key := tKey 0x85

/-- The standard interface. -/
def tStd : StdKeys := ⟨tKey 0xE0, tKey 1, tKey 1, tKey 2, tKey 0x82, tKey 0x90, tKey 0x91⟩

/-- `define_dispatch!` of the tests, basic.rs 127-157, without the borrowing rows.  The context is the pair of counters
`ctr`, `topic_ctr` (105-109); the counters are shared with spawned handlers, which is outside dispatch. -/
def tApp : App TVal WireTxErrorKind Unit (Nat × Nat) where
  std := tStd
  endpoint_list := ⟨[], [⟨nm "postcard-rpc/ping", tKey 1, tKey 1⟩, ⟨nm "postcard-rpc/schemas/get", tKey 2, tKey 0x82⟩,
    ⟨nm "alpha", alphaReq, alphaResp⟩, ⟨nm "beta", betaReq, betaResp⟩]⟩
  topic_in_list := ⟨.ToServer, [], [⟨nm "zeta1", zeta1⟩, ⟨nm "zeta2", zeta2⟩, ⟨nm "zeta3", zeta3⟩]⟩
  topic_out_list := ⟨.ToClient, [], [⟨nm "postcard-rpc/schema/data", tKey 0x90⟩, ⟨nm "postcard-rpc/logging", tKey 0x91⟩,
    ⟨nm "zeta10", zeta10⟩]⟩
  eps := [⟨0, alphaReq, alphaResp, decA, .async fun c _ v => (v, (c.1 + 1, c.2))⟩, ⟨1, betaReq, betaResp, decB, .spawn⟩]
  tps := [⟨0, zeta1, decZ, .blocking fun c _ _ => (c.1, c.2 + 1)⟩, ⟨1, zeta2, decZ, .async fun c _ _ => .done (c.1, c.2 + 1)⟩,
    ⟨2, zeta3, decZ, .spawn⟩]
  ping_decode := decB
  spawn_ctxt := fun c => ((), c)

/-- The dispatcher (`SingleDispatcher`), of the key length the macro computes. -/
def tDisp : Dispatcher TVal WireTxErrorKind Unit (Nat × Nat) where
  std := tApp.std
  n := .Key1
  eps := tApp.eps
  tps := tApp.tps
  ping_decode := tApp.ping_decode
  spawn_ctxt := tApp.spawn_ctxt
  device_map := ⟨[], tApp.endpoint_list.endpoints, tApp.topic_in_list.topics, tApp.topic_out_list.topics, .Key1⟩

example : (match define_dispatch tApp with
    | .ok d => decide (d.n = tDisp.n ∧ d.device_map.endpoints = tDisp.device_map.endpoints ∧
        d.device_map.topics_in = tDisp.device_map.topics_in ∧ d.device_map.topics_out = tDisp.device_map.topics_out)
    | .panic => false) = true := by decide +kernel

/-- Sends and spawns succeed. -/
def tEnv : Env TVal WireTxErrorKind Unit := ⟨fun _ _ => none, fun _ _ => true, true⟩

/-! ### basic.rs 230-372, `smoke` -/

/-- A request or message built by hand, basic.rs 261-270. -/
def byHand (key : Key) (seq : BitVec 32) (body : Bytes) : Rx Empty :=
  match (VarHeader.mk (.Key8 key) (.Seq4 seq)).write_to_vec with
  | .ok h => .frame (h ++ body)
  | .panic => .frame []

/-- The input of the test. -/
def smokeIn : List (Rx Empty) :=
  [byHand alphaReq 123 [42], byHand betaReq 234 (varint 1000)] ++
  [0, 1, 2].map (fun i => byHand zeta1 i (varint (zigzag 456))) ++
  [0, 1, 2].map (fun i => byHand zeta2 i (varint (zigzag 456))) ++
  [0, 1, 2].map (fun i => byHand zeta3 i (varint (zigzag 456)))

/-- What the test looks at of the log: the frames sent (as bytes), and the tasks spawned, by table and row, with sequence number
and message. -/
def seenOf : List (Event TVal WireTxErrorKind Unit) → List Bytes × List (Role × Nat × VarSeq × TVal)
  | [] => ([], [])
  | .sent _ f none :: es =>
    match frame_bytes tEnc f with
    | .ok b => (b :: (seenOf es).1, (seenOf es).2)
    | .panic => seenOf es
  | .sent _ _ (some _) :: es => seenOf es
  | .ran _ _ _ _ :: es => seenOf es
  | .spawned t _ :: es => ((seenOf es).1, (t.role, t.name, t.hdr.seq_no, t.arg) :: (seenOf es).2)

/-- The server's part of the test: it goes on waiting, has answered alpha, spawned beta and the three handlers of `ZetaTopic3`, and
run the other six topic handlers. -/
def smokeRes : Option ((Nat × Nat) × List Bytes × List (Role × Nat × VarSeq × TVal)) :=
  match server_run (RE := Empty) id (fun e => nomatch e) (handle tEnv tDisp .Key1) smokeIn ⟨(0, 0), []⟩ with
  | .ok (.waiting s) => some (s.ctx, seenOf s.log)
  | _ => none

set_option synthInstance.maxSize 1000 in
theorem smoke_server : smokeRes = some ((1, 6), [[0x20, 0x83, 123, 0, 0, 0, 42]],
    [(.endpoint, 1, .Seq4 234, .b 1000), (.topic, 2, .Seq4 0, .z 456), (.topic, 2, .Seq4 1, .z 456), (.topic, 2, .Seq4 2, .z 456)]) := by
  decide +kernel

/-- The test's reading of a response, basic.rs 272-277: key, sequence number, message. -/
def respIs (b : Bytes) (key : Key) (seq : BitVec 32) (body : Bytes) : Bool :=
  match VarHeader.take_from_slice b with
  | .ok (some (hdr, rest)) => hdr.key.eq (.Key8 key) && hdr.seq_no.eq (.Seq4 seq) && decide (rest = body)
  | _ => false

/-- The reply to alpha, basic.rs 272-277, and the reply of the beta task, 290-295. -/
example : respIs [0x20, 0x83, 123, 0, 0, 0, 42] alphaResp 123 [42] = true ∧
    (match sender_reply tEnv .Key1 betaResp (.Seq4 234) (.val (.b 1000)) (⟨(0, 0), []⟩ : St TVal WireTxErrorKind Unit (Nat × Nat)) with
      | (_, s) => (seenOf s.log).1.all fun b => respIs b betaResp 234 (varint 1000)) = true := by decide +kernel

/-! ### basic.rs 374-412, `end_to_end`, and 465-503, `end_to_end_force8` -/

/-- The composed system of the test, with the sequence numbers and key length given. -/
def tSys (seq : VarSeqKind) (kkind : VarKeyKind) : SysCfg TVal WireTxErrorKind Unit (Nat × Nat) :=
  ⟨⟨seq, tKey 0xE0, 64, true⟩, tDisp, kkind, tEnv, id, tEnc, fun _ _ => 0⟩

/-- A call until its frame is with the server. -/
def callOut (c : Nat) (req resp : Key) (body : Bytes) : List (SLabel TVal) :=
  [.client (.call_begin req resp body), .client (.call_kind c), .client (.call_reg_ok c), .client (.call_reg_err c),
   .client (.call_send c), .client .out_poll, .client .out_recv, .client (.out_done true), .client .out_yield, .serve]

/-- The client receives a frame for a call. -/
def callIn (c : Nat) (b : Bytes) : List (SLabel TVal) :=
  [.client .in_poll, .client (.in_recv (some b)), .client .in_lookup, .client (.in_wake (some ⟨c, false⟩)), .client .in_yield,
   .client (.call_ok c)]

/-- The bodies the calls got as their responses. -/
def results (s : Sys TVal WireTxErrorKind Unit (Nat × Nat)) : List (Option (Bool × Bytes)) :=
  s.client.calls.map fun cl =>
    match cl.phase with
    | .done (.Resp f _) => some (false, f.body)
    | .done (.ErrResp f _) => some (true, f.body)
    | _ => none

/-- Alpha with 42, then beta with 1234: the responses are 42 and 1234. -/
def twoCalls (a b : Bytes) : List (SLabel TVal) :=
  callOut 0 alphaReq alphaResp [42] ++ [.flush] ++ callIn 0 a ++ callOut 1 betaReq betaResp (varint 1234) ++
  [.task_reply 0 (.b 1234)] ++ callIn 1 b

set_option synthInstance.maxSize 1000 in
example : (sys_run (tSys .Seq1 .Key1) (twoCalls [0x20, 0x83, 0, 0, 0, 0, 42] ([0x20, 0x84, 1, 0, 0, 0] ++ varint 1234)) (Sys.new (0, 0))).map
    results = some [some (false, [42]), some (false, varint 1234)] := by decide +kernel

set_option synthInstance.maxSize 1000 in
example : (sys_run (tSys .Seq4 .Key8) (twoCalls ([0xE0] ++ alphaResp.to_bytes ++ [0, 0, 0, 0, 42])
    ([0xE0] ++ betaResp.to_bytes ++ [1, 0, 0, 0] ++ varint 1234)) (Sys.new (0, 0))).map
    results = some [some (false, [42]), some (false, varint 1234)] := by decide +kernel

/-! ### basic.rs 567-609, `end_to_end_stoppable` -/

/-- The server's `receive` returns `ChannelClosed` once stopped (C61), and `run` returns. -/
example : (ch_run 1 (tKey 0x91) 1024 [.stop, .rx_closed] (ChSt.new 16)).isSome = true ∧
    (match server_run (RE := ChRxErr) id ChRxErr.as_kind (handle tEnv tDisp .Key1) [.error .ChannelClosed]
        (⟨(0, 0), []⟩ : St TVal WireTxErrorKind Unit (Nat × Nat)) with
      | .ok (.rx_fatal .ChannelClosed _ _) => true
      | _ => false) = true := by decide +kernel

/-! ### subscrobble.rs 228-327, `exclusive_subs_work`, and 329-409, `broadcast_subs_work` -/

/-- The server publishes on `ZetaTopic10`, and the client receives it. -/
def pub (seq : Byte) (n : Int) : List (SLabel TVal) :=
  [.app_publish zeta10 (.Seq4 (seq.setWidth 32)) (.z n), .client .in_poll,
   .client (.in_recv (some ([0x20, 0x85, seq, 0, 0, 0] ++ varint (zigzag n)))), .client .in_lookup, .client .in_yield]

/-- Three publications. -/
def pub3 (a b c : Int) : List (SLabel TVal) := pub 1 a ++ pub 2 b ++ pub 3 c

/-- Three receives of an exclusive subscription. -/
def recv3 (id : Nat) : List (SLabel TVal) := List.replicate 3 (.client (.recv_excl id))
/-- Three receives of a shared subscription. -/
def recvm3 (id : Nat) : List (SLabel TVal) := List.replicate 3 (.client (.recv_multi id))

/-- Subscribing with the deprecated `subscribe`. -/
def subR : List (SLabel TVal) := [.client (.sub_repl zeta10 16)]
/-- Subscribing with `subscribe_multi`. -/
def subM : List (SLabel TVal) := [.client (.sub_multi zeta10 16)]

/-- What the test has received so far, per exclusive and per shared subscription, and the exclusive ones whose next receive
returns `None`. -/
def gotten (s : Sys TVal WireTxErrorKind Unit (Nat × Nat)) : List (List (Option TVal)) × List (List (Option TVal)) × List Nat :=
  (s.client.subs.chans.map fun c => c.got.map fun f => decZ f.body, s.client.subs.brxs.map fun c => c.got.map fun f => decZ f.body,
   (List.range s.client.subs.chans.length).filter fun i => (sub_recv s.client.subs i).1 = some none)

/-- Three messages. -/
def zs (a b c : Int) : List (Option TVal) := [some (.z a), some (.z b), some (.z c)]

/-- Up to the assertion that `sub2` has ended, subscrobble.rs 260-291. -/
def exclusiveRun1 : List (SLabel TVal) :=
  subR ++ pub3 10 20 30 ++ recv3 0 ++ subR ++ pub3 11 21 31 ++ subR ++ recv3 1

/-- The rest, 293-327. -/
def exclusiveRun2 : List (SLabel TVal) :=
  pub3 12 22 32 ++ recv3 2 ++ subR ++ subM ++ pub3 15 25 35 ++ recv3 3 ++ recvm3 0

set_option synthInstance.maxSize 1000 in
example : (sys_run (tSys .Seq1 .Key1) exclusiveRun1 (Sys.new (0, 0))).map gotten =
    some ([zs 10 20 30, zs 11 21 31, []], [], [0, 1]) := by decide +kernel

set_option synthInstance.maxSize 1000 in
example : (sys_run (tSys .Seq1 .Key1) (exclusiveRun1 ++ exclusiveRun2) (Sys.new (0, 0))).map gotten =
    some ([zs 10 20 30, zs 11 21 31, zs 12 22 32, zs 15 25 35], [zs 15 25 35], [0, 1, 2]) := by decide +kernel

/-- subscrobble.rs 363-409.  The tasks that received from the first two subscriptions are over (`sub1` and `sub2` are moved into
them and dropped at their end). -/
def broadcastRun : List (SLabel TVal) :=
  subM ++ subM ++ pub3 10 20 30 ++ recvm3 0 ++ recvm3 1 ++ [.client (.drop_multi 0), .client (.drop_multi 1)] ++
  subM ++ subM ++ subR ++ pub3 10 20 30 ++ recvm3 2 ++ recvm3 3 ++ recv3 0

set_option synthInstance.maxSize 1000 in
example : (sys_run (tSys .Seq1 .Key1) broadcastRun (Sys.new (0, 0))).map gotten =
    some ([zs 10 20 30], [zs 10 20 30, zs 10 20 30, zs 10 20 30, zs 10 20 30], []) := by decide +kernel

end PRpc.Conform
