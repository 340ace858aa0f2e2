import Verif.Lemmas.Server
import Verif.Props.Dispatch
/-!
Property theorems C17-C19: the server loop, reply failures and the schema dump.
-/

namespace PRpc.Props

open PRpc

/-! ### C17 -/

section
variable {E RE S : Type} (tx_kind : E → WireTxErrorKind) (rx_kind : RE → WireRxErrorKind)
  (hd : VarHeader → Bytes → S → Exec (Option E × S)) (rs : List (Rx RE)) (s : S)

/-- C17 (still running): the loop is waiting for more input after `rs` exactly when no receive error in `rs` closed the
connection and dispatching the well-formed frames of `rs`, each once and in order, gave no fatal send error; its state
is then the result of those dispatches. -/
theorem c17_still_running (s' : S) :
    server_run tx_kind rx_kind hd rs s = .ok (.waiting s') ↔
      ∃ fs, Spec.Consumed rx_kind rs fs ∧ Spec.Dispatched tx_kind hd fs s s' := by
  constructor
  · intro h
    have ho := run_outcome (tx_kind := tx_kind) (rx_kind := rx_kind) (hd := hd) rs s
    rw [h] at ho
    cases ho with
    | waiting a b => exact ⟨_, a, b⟩
  · rintro ⟨fs, hc, hds⟩
    have := run_consumed hc hds []
    rw [List.append_nil] at this
    rw [this]; rfl

/-- C17 (receive side): the loop returns a receive error exactly when that error closes the connection and everything
before it was consumed without a fatal error; nothing after it is looked at. -/
theorem c17_stops_on_rx (e : RE) (rest : List (Rx RE)) (s' : S) :
    server_run tx_kind rx_kind hd rs s = .ok (.rx_fatal e rest s') ↔
      ∃ (pre : List (Rx RE)) (fs : _), rs = pre ++ .error e :: rest ∧ rx_kind e = .ConnectionClosed ∧
        Spec.Consumed rx_kind pre fs ∧ Spec.Dispatched tx_kind hd fs s s' := by
  constructor
  · intro h
    have ho := run_outcome (tx_kind := tx_kind) (rx_kind := rx_kind) (hd := hd) rs s
    rw [h] at ho
    cases ho with
    | rx a b c d => exact ⟨_, _, a, b, c, d⟩
  · rintro ⟨pre, fs, rfl, hk, hc, hds⟩
    rw [run_consumed hc hds, run_error_fatal hk]

/-- C17 (send side): the loop returns a send error exactly when the dispatch of a well-formed frame returned it, its
kind is closed-connection or timeout, and everything before that frame was consumed without a fatal error. -/
theorem c17_stops_on_tx (e : E) (rest : List (Rx RE)) (s' : S) :
    server_run tx_kind rx_kind hd rs s = .ok (.tx_fatal e rest s') ↔
      ∃ (pre : List (Rx RE)) (b : Bytes) (hdr : VarHeader) (body : Bytes) (fs : _) (s₁ : S),
        rs = pre ++ .frame b :: rest ∧ Spec.IsFrame b hdr body ∧
        Spec.Consumed rx_kind pre fs ∧ Spec.Dispatched tx_kind hd fs s s₁ ∧
        hd hdr body s₁ = .ok (some e, s') ∧ (tx_kind e = .ConnectionClosed ∨ tx_kind e = .Timeout) := by
  constructor
  · intro h
    have ho := run_outcome (tx_kind := tx_kind) (rx_kind := rx_kind) (hd := hd) rs s
    rw [h] at ho
    cases ho with
    | tx a b c d e f => exact ⟨_, _, _, _, _, _, a, b, c, d, e, f⟩
  · rintro ⟨pre, b, hdr, body, fs, s₁, rfl, hf, hc, hds, hh, hk⟩
    rw [run_consumed hc hds, run_frame_fatal hf _ hh hk]

/-- C17: the loop itself never panics; it can only pass on a panic of a dispatch. -/
theorem c17_panics_iff :
    server_run tx_kind rx_kind hd rs s = .panic ↔
      ∃ (pre : List (Rx RE)) (b : Bytes) (hdr : VarHeader) (body : Bytes) (rest : List (Rx RE)) (fs : _) (s₁ : S),
        rs = pre ++ .frame b :: rest ∧ Spec.IsFrame b hdr body ∧ Spec.Consumed rx_kind pre fs ∧
        Spec.Dispatched tx_kind hd fs s s₁ ∧ hd hdr body s₁ = .panic := by
  constructor
  · intro h
    have ho := run_outcome (tx_kind := tx_kind) (rx_kind := rx_kind) (hd := hd) rs s
    rw [h] at ho
    cases ho with
    | panic a b c d e => exact ⟨_, _, _, _, _, _, _, a, b, c, d, e⟩
  · rintro ⟨pre, b, hdr, body, rest, fs, s₁, rfl, hf, hc, hds, hh⟩
    rw [run_consumed hc hds, run_frame_panic hf _ hh]

end

/-- A dispatcher that records the sequence number and fails with a timeout on sequence number 9. -/
def exHandle (hdr : VarHeader) (_ : Bytes) (s : List Nat) : Exec (Option WireTxErrorKind × List Nat) :=
  .ok (if (Spec.seqVal hdr.seq_no) = 9 then some .Timeout else none, s ++ [(Spec.seqVal hdr.seq_no)])

/-- Three frames (the second malformed), a too-large error, a frame on which dispatch times out, and one more frame. -/
def exRx : List (Rx WireRxErrorKind) :=
  [.frame [0#8, 3#8, 7#8], .frame [0xFF#8], .error .ReceivedMessageTooLarge, .frame [0#8, 3#8, 9#8],
    .frame [0#8, 3#8, 8#8]]

example : server_run id id exHandle exRx [] = .ok (.tx_fatal .Timeout [.frame [0#8, 3#8, 8#8]] [7, 9]) := by rfl
example : server_run id id exHandle (exRx.take 3) [] = .ok (.waiting [7]) := by rfl
example : server_run id id exHandle [.frame [0#8, 3#8, 7#8], .error .ConnectionClosed, .frame []] [] =
    .ok (.rx_fatal .ConnectionClosed [.frame []] [7]) := by rfl
example : server_run (S := Nat) (E := Nat) (fun _ => .Other) id (fun _ _ _ => .panic) [.frame [0#8, 3#8, 7#8]] 0 = .panic := by
  rfl

/-! ### C18 -/

section
variable {V E SC Ctx RE : Type}

/-- C18 as stated: if sending the reply of a blocking or async endpoint fails with a fatal kind, the server loop
terminates with that error. -/
def c18_statement : Prop :=
  ∀ (V E SC Ctx RE : Type) (tx_kind : E → WireTxErrorKind) (rx_kind : RE → WireRxErrorKind) (env : Env V E SC)
    (D : Dispatcher V E SC Ctx) (kkind : VarKeyKind) (h : EpHandler V Ctx) (f : Ctx → VarHeader → V → V × Ctx)
    (hdr : VarHeader) (body : Bytes) (v : V) (b : Bytes) (rest : List (Rx RE)) (s : St V E SC Ctx) (e : E),
    Spec.ForEndpoint D hdr h → (h.flavor = .blocking f ∨ h.flavor = .async f) → h.decode body = some v →
    Spec.IsFrame b hdr body →
    (∀ fr, Spec.IsMsg kkind h.resp hdr.seq_no (.val (f s.ctx hdr v).1) fr →
      env.send (s.log ++ [.ran .endpoint h.name hdr v]) fr = some e) →
    Spec.FatalTx (tx_kind e) →
    ∃ s', server_run tx_kind rx_kind (handle env D kkind) (.frame b :: rest) s = .ok (.tx_fatal e rest s')

/-- A wire whose first send times out and whose later sends succeed. -/
def exEnvOnce : Env Nat WireTxErrorKind Nat :=
  ⟨fun log _ => if (Spec.frames log).isEmpty then some .Timeout else none, fun _ _ => true, true⟩

theorem exFor : Spec.ForEndpoint exDisp exHdr exBlocking :=
  ⟨by unfold Spec.LongEnough; decide, by unfold Spec.NotStd Spec.rxShort; decide, by unfold Spec.rxShort; decide,
    [], _, rfl, by simp⟩

/-- C18 is false: after a failed reply the dispatcher sends a `SerFailed` error and returns only that error's outcome,
so a reply that timed out goes unreported when the follow-up succeeds (against the documentation of the transmit
timeout, embassy_usb_v0_4.rs 260-261). -/
theorem c18_reply_failure_false : ¬ c18_statement := by
  intro h
  have hf : Spec.IsFrame (encOf exHdr ++ [9#8]) exHdr [9#8] := by rw [isFrame_iff]; exact take_enc _ _
  obtain ⟨s', hs⟩ := h Nat WireTxErrorKind Nat Nat WireRxErrorKind id id exEnvOnce exDisp .Key1 exBlocking _ exHdr
    [9#8] 9 _ [] ⟨0, []⟩ .Timeout exFor (Or.inl rfl) rfl hf (fun fr _ => rfl) (Or.inr rfl)
  rw [run_frame hf, handle_ep _ _ _ _ _ _ _ exFor] at hs
  have hd : exBlocking.decode [9#8] = some 9 := rfl
  have e : ep_arm exEnvOnce exDisp .Key1 exBlocking exHdr 9 ⟨0, []⟩ =
      reply_arm exEnvOnce exStd .Key1 exBlocking (fun c _ v => (v + c, c + 1)) exHdr 9 ⟨0, []⟩ := rfl
  simp only [hd, e, reply_arm_eq, after_handle, Exec.ok_bind] at hs
  simp [sendOne, exEnvOnce, Spec.frames, server_run] at hs

/-- C18, what does hold.  After a failed reply exactly one `SerFailed` error frame with the request's sequence number
is sent; the dispatch returns the outcome of that frame, so the loop terminates exactly if it fails fatally, with its
error.  Missing for the full statement: the first error is lost. -/
theorem c18_reply_failure_partial (tx_kind : E → WireTxErrorKind) (rx_kind : RE → WireRxErrorKind) (env : Env V E SC)
    (D : Dispatcher V E SC Ctx) (kkind : VarKeyKind) (h : EpHandler V Ctx) (f : Ctx → VarHeader → V → V × Ctx)
    (hdr : VarHeader) (body : Bytes) (v : V) (b : Bytes) (rest : List (Rx RE)) (s : St V E SC Ctx) (e₁ : E)
    (hfor : Spec.ForEndpoint D hdr h) (hfl : h.flavor = .blocking f ∨ h.flavor = .async f) (hd : h.decode body = some v)
    (hfr : Spec.IsFrame b hdr body)
    (hfail : ∀ fr, Spec.IsMsg kkind h.resp hdr.seq_no (.val (f s.ctx hdr v).1) fr →
      env.send (s.log ++ [.ran .endpoint h.name hdr v]) fr = some e₁) :
    ∃ fr₁ fr₂, Spec.IsMsg kkind h.resp hdr.seq_no (.val (f s.ctx hdr v).1) fr₁ ∧
      Spec.IsMsg kkind D.std.error hdr.seq_no (.err .SerFailed) fr₂ ∧
      let log₁ := s.log ++ [.ran .endpoint h.name hdr v, .sent .dispatcher fr₁ (some e₁)]
      let r₂ := env.send log₁ fr₂
      let s' : St V E SC Ctx := ⟨(f s.ctx hdr v).2, log₁ ++ [.sent .dispatcher fr₂ r₂]⟩
      handle env D kkind hdr body s = .ok (r₂, s') ∧
      (∀ e₂, r₂ = some e₂ → Spec.FatalTx (tx_kind e₂) →
        server_run tx_kind rx_kind (handle env D kkind) (.frame b :: rest) s = .ok (.tx_fatal e₂ rest s')) ∧
      ((∀ e₂, r₂ = some e₂ → ¬ Spec.FatalTx (tx_kind e₂)) →
        server_run tx_kind rx_kind (handle env D kkind) (.frame b :: rest) s =
          server_run tx_kind rx_kind (handle env D kkind) rest s') := by
  refine ⟨replyFrame kkind h.resp hdr.seq_no (.val (f s.ctx hdr v).1), errFrame D.std kkind hdr.seq_no .SerFailed,
    replyFrame_isMsg .., errFrame_isMsg .., ?_⟩
  intro log₁ r₂ s'
  have hh : handle env D kkind hdr body s = .ok (r₂, s') := by
    have e : ep_arm env D kkind h hdr v s = reply_arm env D.std kkind h f hdr v s := by
      unfold ep_arm; rcases hfl with e | e <;> rw [e]
    rw [handle_ep _ _ _ _ _ _ h hfor, hd]
    simp only [e, reply_arm_eq, sendOne, hfail _ (replyFrame_isMsg ..)]
    simp [s', r₂, log₁]
  exact ⟨hh, fun e₂ h2 hk => run_frame_fatal hfr _ (h2 ▸ hh) hk, fun hk => run_frame_ok hfr _ hh hk⟩

/-- A wire on which everything is closed: both sends fail. -/
example : Spec.ForEndpoint exDisp exHdr exBlocking ∧ exBlocking.decode [9#8] = some 9 ∧
    Spec.IsFrame (encOf exHdr ++ [9#8]) exHdr [9#8] ∧
    ∀ log fr, (⟨fun _ _ => some .ConnectionClosed, fun _ _ => true, true⟩ : Env Nat WireTxErrorKind Nat).send log fr
      = some .ConnectionClosed :=
  ⟨exFor, rfl, by rw [isFrame_iff]; exact take_enc _ _, fun _ _ => rfl⟩

/-- C18 for the built-in ping, where it holds: a fatal failure of the reply ends the loop with that error. -/
theorem c18_ping_reply_failure (tx_kind : E → WireTxErrorKind) (rx_kind : RE → WireRxErrorKind) (env : Env V E SC)
    (D : Dispatcher V E SC Ctx) (kkind : VarKeyKind) (hdr : VarHeader) (body : Bytes) (v : V) (b : Bytes)
    (rest : List (Rx RE)) (s : St V E SC Ctx) (e : E) (hl : Spec.LongEnough D hdr)
    (hp : Spec.rxShort D hdr = Spec.short (Spec.keyLen D.n) D.std.ping_req) (hd : D.ping_decode body = some v)
    (hfr : Spec.IsFrame b hdr body)
    (hfail : ∀ fr, Spec.IsMsg kkind D.std.ping_resp hdr.seq_no (.val v) fr → env.send s.log fr = some e)
    (hk : Spec.FatalTx (tx_kind e)) :
    ∃ s', server_run tx_kind rx_kind (handle env D kkind) (.frame b :: rest) s = .ok (.tx_fatal e rest s') := by
  obtain ⟨fr, hm, hh⟩ := c14_ping env D kkind hdr body s v hl hp hd
  rw [hfail fr hm] at hh
  exact ⟨_, run_frame_fatal hfr _ hh hk⟩

example : Spec.LongEnough exDisp ⟨.Key1 ⟨1#8⟩, .Seq4 5#32⟩ ∧ (∀ fr, exEnvOnce.send [] fr = some .Timeout) ∧
    Spec.FatalTx (id WireTxErrorKind.Timeout) :=
  ⟨by unfold Spec.LongEnough; decide, fun _ => rfl, Or.inr rfl⟩

/-! ### C19 -/

/-- C19: for a device map with at most 65535 entries the schema query publishes one message per type, endpoint,
outgoing topic and incoming topic, in that order, numbered 0, 1, 2, ... with two-byte sequence numbers, whatever sends
fail, and then replies to the requester with the four list lengths and the number of failed publications.  Nothing else
is sent, no handler runs, the context is unchanged and nothing panics. -/
theorem c19_schema_dump (env : Env V E SC) (D : Dispatcher V E SC Ctx) (kkind : VarKeyKind) (hdr : VarHeader)
    (body : Bytes) (s : St V E SC Ctx) (hl : Spec.LongEnough D hdr)
    (hp : Spec.rxShort D hdr ≠ Spec.short (Spec.keyLen D.n) D.std.ping_req)
    (hq : Spec.rxShort D hdr = Spec.short (Spec.keyLen D.n) D.std.schemas_req)
    (hlen : (Spec.schemaMsgs D.device_map).length ≤ 65535) :
    ∃ ev last t, Spec.IsMsg kkind D.std.schemas_resp hdr.seq_no (.totals t) last ∧
      handle env D kkind hdr body s = .ok (env.send (s.log ++ ev) last,
        ⟨s.ctx, s.log ++ ev ++ [.sent .dispatcher last (env.send (s.log ++ ev) last)]⟩) ∧
      (∀ e ∈ ev, ∃ f r, e = .sent .dispatcher f r) ∧
      (Spec.frames ev).length = (Spec.schemaMsgs D.device_map).length ∧
      (∀ i (hi : i < (Spec.schemaMsgs D.device_map).length), ∃ f, (Spec.frames ev)[i]? = some f ∧
        ∃ q : BitVec 16, q.toNat = i ∧
          Spec.IsMsg kkind D.std.schema_topic (.Seq2 q) (.schema (Spec.schemaMsgs D.device_map)[i]) f) ∧
      t.types_sent.toNat = D.device_map.types.length ∧ t.endpoints_sent.toNat = D.device_map.endpoints.length ∧
      t.topics_in_sent.toNat = D.device_map.topics_in.length ∧
      t.topics_out_sent.toNat = D.device_map.topics_out.length ∧ t.errors.toNat = Spec.failures ev := by
  obtain ⟨q, hq'⟩ := publish_loop_total env D.std kkind (Spec.schemaMsgs D.device_map) 0 0 s (Or.inr (by omega))
  obtain ⟨ev, ha, hf, rfl⟩ := publish_loop_spec env D.std kkind _ 0 0 s q hq'
  have hfail : ∀ l : List (Event V E SC), Spec.failures l ≤ (Spec.frames l).length := by
    intro l
    induction l with
    | nil => simp [Spec.failures]
    | cons e l ih =>
      cases e with
      | sent o f r => cases r <;> simp only [Spec.failures, Spec.frames, List.length_cons] <;> omega
      | ran => simpa [Spec.failures, Spec.frames] using ih
      | spawned => simpa [Spec.failures, Spec.frames] using ih
  have hfl := hfail ev
  rw [ha.frames, hf, schemaFrames_length] at hfl
  refine ⟨ev, _, ⟨BitVec.ofNat 32 D.device_map.types.length, BitVec.ofNat 32 D.device_map.endpoints.length,
    BitVec.ofNat 32 D.device_map.topics_in.length, BitVec.ofNat 32 D.device_map.topics_out.length,
    BitVec.ofNat 32 (0 + Spec.failures ev)⟩, replyFrame_isMsg .., ?_, ha, ?_, ?_, ?_⟩
  · rw [handle_schemas _ _ _ _ _ _ hl hp hq, send_all_schemas_eq]
    rw [show (0#16 : BitVec 16) = BitVec.ofNat 16 0 from rfl, show (0#32 : BitVec 32) = BitVec.ofNat 32 0 from rfl, hq']
    rfl
  · rw [ha.frames, hf, schemaFrames_length]
  · intro i hi
    rw [ha.frames, hf, schemaFrames_get _ _ _ _ _ hi]
    refine ⟨_, rfl, BitVec.ofNat 16 (0 + i), ?_, replyFrame_isMsg ..⟩
    simp
    omega
  · have hl' := hlen
    simp only [Spec.schemaMsgs, List.length_append, List.length_map] at hl' hfl
    simp only [BitVec.toNat_ofNat, Nat.zero_add]
    refine ⟨Nat.mod_eq_of_lt ?_, Nat.mod_eq_of_lt ?_, Nat.mod_eq_of_lt ?_, Nat.mod_eq_of_lt ?_, Nat.mod_eq_of_lt ?_⟩ <;>
      omega

/-- The schema query of `exDisp`: five endpoints, two outgoing and two incoming topics. -/
example : Spec.LongEnough exDisp ⟨.Key1 ⟨2#8⟩, .Seq1 5#8⟩ ∧
    Spec.rxShort exDisp ⟨.Key1 ⟨2#8⟩, .Seq1 5#8⟩ ≠ Spec.short (Spec.keyLen exDisp.n) exDisp.std.ping_req ∧
    Spec.rxShort exDisp ⟨.Key1 ⟨2#8⟩, .Seq1 5#8⟩ = Spec.short (Spec.keyLen exDisp.n) exDisp.std.schemas_req ∧
    (Spec.schemaMsgs exDisp.device_map).length = 9 := by
  unfold Spec.LongEnough Spec.rxShort; decide

/-- Beyond C19's bound: with more than 65535 entries in a build with overflow checks the query panics (the message
counter is 16 bits wide). -/
theorem c19_schema_dump_overflow (env : Env V E SC) (D : Dispatcher V E SC Ctx) (kkind : VarKeyKind) (hdr : VarHeader)
    (body : Bytes) (s : St V E SC Ctx) (hl : Spec.LongEnough D hdr)
    (hp : Spec.rxShort D hdr ≠ Spec.short (Spec.keyLen D.n) D.std.ping_req)
    (hq : Spec.rxShort D hdr = Spec.short (Spec.keyLen D.n) D.std.schemas_req)
    (hc : env.overflow_checks = true) (hlen : 65536 ≤ (Spec.schemaMsgs D.device_map).length) :
    handle env D kkind hdr body s = .panic := by
  rw [handle_schemas _ _ _ _ _ _ hl hp hq, send_all_schemas_eq,
    show (0#16 : BitVec 16) = BitVec.ofNat 16 0 from rfl,
    publish_loop_overflow env D.std kkind _ 0 _ s hc (by omega) (by omega)]
  rfl

/-- Device maps of every size exist, so also of 65536 entries. -/
example (n : Nat) : (Spec.schemaMsgs ⟨[], List.replicate n ⟨[], exKey 1#8, exKey 1#8⟩, [], [], .Key1⟩).length = n := by
  simp [Spec.schemaMsgs]

end

end PRpc.Props
