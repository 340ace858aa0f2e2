import Verif.Lemmas.UsbAnswer
import Verif.Lemmas.Postcard
import Verif.Props.UsbServer
import Verif.Props.Postcard
/-!
Property theorems C86: what the host gets back over USB, answers that do not fit included.
-/

namespace PRpc.Props

open PRpc PRpc.Spec

variable {V E SC Ctx : Type}

/-- C86, there and back: the host sends any requests; if all transfers and packet writes succeed and nobody else uses the
transmitter, the host's receiver returns exactly the answers to the requests shorter than the device's receive buffer, one message
each, in order; a reply that cannot be serialized or does not fit into the transmit buffer is replaced by `SerFailed` with the
sequence number of its request, a schema item that cannot be sent is left out and counted in the totals.  The server goes on
waiting, until the endpoint is disabled. -/
theorem c86_round_trip (L : UsbLink V) (hw : 0 < L.w) (hcap : L.buf.length < 2 ^ (8 * L.w)) (h0 : ∀ i, L.others i = [])
    (hok : ∀ i k, L.outs i k = .ok) (spawn : List (Event V WireTxErrorKind SC) → Task V SC → Bool) (oc : Bool)
    (D : Dispatcher V WireTxErrorKind SC Ctx) (hov : oc = true → (schemaMsgs D.device_map).length ≤ 65535)
    (lost : Bool) (B : Nat) (hB : 64 ∣ B) (hpos : 0 < B)
    (c c' : Ctx) (reqs : List Bytes) (hreq : ∀ d ∈ reqs, d ≠ []) (ans : List (Frame V))
    (ha : MustAnswer D L.buf.length L.enc c (reqs.filter fun d => d.length < B) ans c')
    (cs : List Completion) (n : Nat) (tx : NusbTx) (hsend : nusb_send_all reqs ⟨some 64, [], 0⟩ cs = .ok (n, .Ok, tx))
    (unplugged : Bool) (calls : Nat) (hc : reqs.length < calls) :
    ∃ log, usb_server L spawn oc D lost B calls ((tx.submitted.flatMap (bulk 64)).map .packet ++ if unplugged then [.disabled] else [])
        ⟨c, []⟩ = .ok (if unplugged then .rx_fatal .ConnectionClosed [] ⟨c', log⟩ else .waiting ⟨c', log⟩) ∧
      delivered log = ans ∧
    ∃ rs t, eusb_run L.w L.logging (usb_ops L 0 (frames log)) (EUsbTx.new L.buf) = .ok (rs, t) ∧
    ∀ m, (arrivals t.ep.pkts).length < m → ∃ s ms, nusb_receive_all m [] NusbRx.new (arrivals t.ep.pkts) = .ok (ms, none, s) ∧
      ms.map (List.map BitVec.toNat) = ans.map (fun fr => layout fr.hdr ++ (L.enc fr.body).bytes.map BitVec.toNat) := by
  have hharm : Harmless L := fun i x hx => by rw [h0 i] at hx; cases hx
  have hin : usb_inputs ((usb_receive_all lost B calls
      ((tx.submitted.flatMap (bulk 64)).map .packet ++ if unplugged then [.disabled] else [])).1) =
      (reqs.map fun d => if d.length < B then Rx.frame d else .error .ReceivedMessageTooLarge) ++
        if unplugged then [.error .ConnectionClosed] else [] := by
    rw [device_receives_any lost B hB hpos reqs hreq cs n tx hsend unplugged calls hc]
    clear hreq ha hsend hc
    induction reqs with
    | nil => cases unplugged <;> rfl
    | cons b bs ih =>
      by_cases hl : b.length < B
      · simp only [List.map_cons, if_pos hl, List.cons_append, usb_inputs, ih]
      · simp only [List.map_cons, if_neg hl, List.cons_append, usb_inputs, ih]
  obtain ⟨log, e1, e2⟩ := must_answer_run (RE := WireRxErrorKind) (tx_kind := id) (rx_kind := id)
    (usb_refuses hw hcap hharm hok spawn oc) hov ha []
  rw [List.nil_append] at e1
  have e : ∀ l : List (Event V WireTxErrorKind SC), handed l = frames l := by
    intro l
    induction l with
    | nil => rfl
    | cons x l ih => cases x <;> simp [handed, frames, ih]
  refine ⟨log, ?_, e2.delivered, ?_⟩
  · rw [usb_server, hin]
    obtain ⟨fs, f1, f2⟩ := (c17_still_running id id _ _ _ _).mp e1
    rw [run_consumed (consumed_skips B reqs f1) f2]
    cases unplugged
    · rfl
    · exact run_error_fatal rfl _ _
  · obtain ⟨h, rs, t, g1, g2, g3, g4⟩ := thinned_history h0 e2 0 (EUsbTx.new L.buf) rfl
    have g2' : t.ep = (send_history h UsbTx.new).2 := g2
    have hans : ∀ fr ∈ ans, Sendable L.buf.length L.enc fr := by
      have : ∀ {ev : List (Event V WireTxErrorKind SC)} {frs : List (Frame V)}, Thinned L.buf.length L.enc ev frs →
          ∀ fr ∈ frs, Sendable L.buf.length L.enc fr := by
        intro ev frs h
        induction h with
        | nil => intro fr hfr; cases hfr
        | keep h _ ih =>
          intro fr hfr
          rcases List.mem_cons.mp hfr with rfl | hfr
          · exact h
          · exact ih fr hfr
        | drop _ _ ih => exact ih
        | ran _ ih => exact ih
        | spawned _ ih => exact ih
      exact this e2
    have hall : ∀ r ∈ (send_history h UsbTx.new).1, r = .Ok := by
      have : ∀ (h : List (Bytes × (Nat → WriteOut))) (t : UsbTx), (∀ x ∈ h, ∃ j, x.2 = L.outs j) → ∀ r ∈ (send_history h t).1, r = .Ok := by
        intro h
        induction h with
        | nil => intro t _ r hr; cases hr
        | cons x h ih =>
          intro t hx r hr
          simp only [send_history, List.mem_cons] at hr
          rcases hr with rfl | hr
          · obtain ⟨j, hj⟩ := hx x (List.mem_cons_self ..)
            exact (c68_usb_send_result _ _ _).1.mpr fun i _ => by rw [hj]; exact hok j i
          · exact ih _ (fun y hy => hx y (List.mem_cons_of_mem _ hy)) r hr
      exact this h UsbTx.new g4
    refine ⟨rs, t, by rw [← e]; exact g1, fun m hm => ?_⟩
    rw [g2'] at hm ⊢
    have hne : ∀ x ∈ h, x.1 ≠ [] ∧ x.1.length < 1024 := by
      intro x hx
      have hx1 : x.1 ∈ h.map Prod.fst := List.mem_map_of_mem hx
      rw [g3] at hx1
      obtain ⟨fr, hfr, hfe⟩ := List.mem_map.mp hx1
      have hs := (hans fr hfr).short
      rw [layout_length] at hs
      have hl : x.1.length = encLen fr.hdr + (L.enc fr.body).bytes.length := by
        rw [← hfe, List.length_append, encOf_length]
      refine ⟨fun e => ?_, by omega⟩
      rw [e] at hl
      simp only [List.length_nil, encLen] at hl
      omega
    obtain ⟨s, hs⟩ := c49_usb_link_partial h hall hne m hm
    refine ⟨s, _, hs, ?_⟩
    rw [g3, List.map_map]
    apply List.map_congr_left
    intro fr _
    show List.map _ (encOf fr.hdr ++ _) = _
    rw [List.map_append, layout_encOf]

/-- C86, every request: with a transmit buffer of 38 to 1023 bytes there is an answer as above to whatever the host sends, if no
endpoint handler is spawned and no topic handler sends. -/
theorem c86_every_request (D : Dispatcher V E SC Ctx) (hin : InDispatcher D) (cap : Nat) (h1 : 38 ≤ cap) (h2 : cap < 1024)
    (enc : Body V → Ser) (henc : FitsStd D enc) (c : Ctx) (bs : List Bytes) : ∃ frs c', MustAnswer D cap enc c bs frs c' := by
  have herr : ∀ (seq : VarSeq) (e : WireError), Sendable cap enc (replyFrame D.n D.std.error seq (.err e)) := by
    intro seq e
    obtain ⟨a, h3⟩ := henc.err e
    have h4 := layout_le (replyFrame (V := V) D.n D.std.error seq (.err e)).hdr
    exact ⟨a, Nat.le_trans (Nat.add_le_add h4 h3) (by omega), Nat.lt_of_le_of_lt (Nat.add_le_add h4 h3) (by omega)⟩
  have hrep : ∀ (i : Nat) (ds : List SchemaData), ∃ frs k, Reported D cap enc i ds frs k := by
    intro i ds
    induction ds generalizing i with
    | nil => exact ⟨[], 0, .nil⟩
    | cons d ds ih =>
      obtain ⟨frs, k, h⟩ := ih (i + 1)
      rcases sendable_or_too_big enc h2 (replyFrame D.n D.std.schema_topic (.Seq2 (BitVec.ofNat 16 i)) (.schema d)) with hs | hs
      · exact ⟨_, _, .sent (isMsg_replyFrame _ _ _ _) hs h⟩
      · exact ⟨_, _, .lost (isMsg_replyFrame _ _ _ _) hs h⟩
  induction bs generalizing c with
  | nil => exact ⟨[], c, .nil⟩
  | cons b bs ih =>
    by_cases hb : ∀ hdr body, ¬ IsFrame b hdr body
    · obtain ⟨frs, c', h⟩ := ih c
      exact ⟨frs, c', .malformed hb h⟩
    · have hb : ∃ hdr body, IsFrame b hdr body := Classical.byContradiction fun q => hb fun hdr body r => q ⟨hdr, body, r⟩
      obtain ⟨hdr, body, hb⟩ := hb
      rcases frame_for D hdr with hl | ⟨hl, hp | ⟨hp, hs⟩ | ⟨g, hg, hf⟩ | ⟨t, htp, hf⟩ | hu⟩
      · obtain ⟨frs, c', h⟩ := ih c
        exact ⟨_, c', .tooShort hb hl (isMsg_replyFrame _ _ _ _) (herr _ _) h⟩
      · obtain ⟨frs, c', h⟩ := ih c
        cases hd : D.ping_decode body with
        | none => exact ⟨_, c', .pingUndecodable hb hl hp hd (isMsg_replyFrame _ _ _ _) (herr _ _) h⟩
        | some v =>
          obtain ⟨a1, a2⟩ := henc.ping body v hd
          have h4 := layout_le (replyFrame D.n D.std.ping_resp hdr.seq_no (.val v)).hdr
          exact ⟨_, c', .ping hb hl hp hd (isMsg_replyFrame _ _ _ _) ⟨a1, Nat.le_trans (Nat.add_le_add h4 a2) (by omega),
            Nat.lt_of_le_of_lt (Nat.add_le_add h4 a2) (by omega)⟩ h⟩
      · obtain ⟨frs, c', h⟩ := ih c
        obtain ⟨items, k, hr⟩ := hrep 0 (schemaMsgs D.device_map)
        refine ⟨_, c', .schemas hb hl hp hs hr (isMsg_replyFrame _ _ _ _) ?_ h⟩
        generalize (⟨BitVec.ofNat 32 D.device_map.types.length, BitVec.ofNat 32 D.device_map.endpoints.length,
          BitVec.ofNat 32 D.device_map.topics_in.length, BitVec.ofNat 32 D.device_map.topics_out.length, BitVec.ofNat 32 k⟩ : SchemaTotals) = t
        obtain ⟨a, h3⟩ := henc.totals t
        have h4 := layout_le (replyFrame (V := V) D.n D.std.schemas_resp hdr.seq_no (.totals t)).hdr
        exact ⟨a, Nat.le_trans (Nat.add_le_add h4 h3) (by omega), Nat.lt_of_le_of_lt (Nat.add_le_add h4 h3) (by omega)⟩
      · cases hd : g.decode body with
        | none =>
          obtain ⟨frs, c', h⟩ := ih c
          exact ⟨_, c', .undecodable hb hf hd (isMsg_replyFrame _ _ _ _) (herr _ _) h⟩
        | some v =>
          obtain ⟨f, hfl⟩ := hin.1 g hg
          obtain ⟨frs, c', h⟩ := ih (f c hdr v).2
          rcases sendable_or_too_big enc h2 (replyFrame D.n g.resp hdr.seq_no (.val (f c hdr v).1)) with hs | hs
          · exact ⟨_, c', .reply hb hf hfl hd (isMsg_replyFrame _ _ _ _) hs h⟩
          · exact ⟨_, c', .replyTooBig hb hf hfl hd (isMsg_replyFrame _ _ _ _) hs (isMsg_replyFrame _ _ _ _) (herr _ _) h⟩
      · cases hd : t.decode body with
        | none =>
          obtain ⟨frs, c', h⟩ := ih c
          exact ⟨_, c', .topicUndecodable hb hf hd h⟩
        | some v =>
          rcases hin.2 t htp with ⟨f, hfl⟩ | hfl
          · obtain ⟨frs, c', h⟩ := ih (f c hdr v)
            exact ⟨_, c', .topic hb hf hfl hd h⟩
          · obtain ⟨frs, c', h⟩ := ih (D.spawn_ctxt c).2
            exact ⟨_, c', .topicSpawned hb hf hfl hd h⟩
      · obtain ⟨frs, c', h⟩ := ih c
        exact ⟨_, c', .unknown hb hl hu (isMsg_replyFrame _ _ _ _) (herr _ _) h⟩

/-- Both together: whatever the host sends, it gets the answers to it. -/
theorem c86_answered (L : UsbLink V) (hw : 0 < L.w) (hcap : L.buf.length < 2 ^ (8 * L.w)) (h0 : ∀ i, L.others i = [])
    (hok : ∀ i k, L.outs i k = .ok) (spawn : List (Event V WireTxErrorKind SC) → Task V SC → Bool) (oc : Bool)
    (D : Dispatcher V WireTxErrorKind SC Ctx) (hov : oc = true → (schemaMsgs D.device_map).length ≤ 65535)
    (hin : InDispatcher D) (h38 : 38 ≤ L.buf.length) (h1024 : L.buf.length < 1024) (henc : FitsStd D L.enc)
    (lost : Bool) (B : Nat) (hB : 64 ∣ B) (hpos : 0 < B) (c : Ctx) (reqs : List Bytes) (hreq : ∀ d ∈ reqs, d ≠ [])
    (cs : List Completion) (n : Nat) (tx : NusbTx) (hsend : nusb_send_all reqs ⟨some 64, [], 0⟩ cs = .ok (n, .Ok, tx))
    (unplugged : Bool) (calls : Nat) (hc : reqs.length < calls) :
    ∃ ans c', MustAnswer D L.buf.length L.enc c (reqs.filter fun d => d.length < B) ans c' ∧
    ∃ log, usb_server L spawn oc D lost B calls ((tx.submitted.flatMap (bulk 64)).map .packet ++ if unplugged then [.disabled] else [])
        ⟨c, []⟩ = .ok (if unplugged then .rx_fatal .ConnectionClosed [] ⟨c', log⟩ else .waiting ⟨c', log⟩) ∧
    ∃ rs t, eusb_run L.w L.logging (usb_ops L 0 (frames log)) (EUsbTx.new L.buf) = .ok (rs, t) ∧
    ∀ m, (arrivals t.ep.pkts).length < m → ∃ s ms, nusb_receive_all m [] NusbRx.new (arrivals t.ep.pkts) = .ok (ms, none, s) ∧
      ms.map (List.map BitVec.toNat) = ans.map (fun fr => layout fr.hdr ++ (L.enc fr.body).bytes.map BitVec.toNat) := by
  obtain ⟨ans, c', ha⟩ := c86_every_request D hin L.buf.length h38 h1024 L.enc henc c (reqs.filter fun d => d.length < B)
  obtain ⟨log, e1, _, e2⟩ := c86_round_trip L hw hcap h0 hok spawn oc D hov lost B hB hpos c c' reqs hreq ans ha cs n tx hsend
    unplugged calls hc
  exact ⟨ans, c', ha, log, e1, e2⟩

/-! ### Examples -/

/-- Messages as in C85; numbers from 2³² on are something long, and so are the schemas of types. -/
def exBigEnc : Body Nat → Ser
  | .val v => if v < 2 ^ 32 then ⟨enc_u32 (BitVec.ofNat 32 v), false, 0⟩ else ⟨List.replicate 60 7, false, 0⟩
  | .err e => ⟨enc_wire_error e, false, 0⟩
  | .totals t => ⟨enc_totals t, false, 0⟩
  | .schema (.Type _) => ⟨List.replicate 50 7, false, 0⟩
  | .schema _ => ⟨[1], false, 0⟩

/-- A transmit buffer of 38 bytes. -/
def exBigLink : UsbLink Nat := { exLink with buf := List.replicate 38 0, enc := exBigEnc }

def exBigDisp : Dispatcher Nat WireTxErrorKind Nat Nat :=
  { exPcDisp with eps := [exBlocking, exAsync], tps := [exTopic], device_map := exMap }

theorem exBig_fits : FitsStd exBigDisp exBigEnc where
  err e := ⟨rfl, (c85_sizes.1 e).2⟩
  totals t := ⟨rfl, (c85_sizes.2.2.1 t).2⟩
  ping b v h := by
    have h : (from_bytes take_u32 b).map BitVec.toNat = some v := h
    obtain ⟨x, _, rfl⟩ := Option.map_eq_some_iff.mp h
    have hx : x.toNat < 2 ^ 32 := x.isLt
    simp only [exBigEnc, if_pos hx]
    exact ⟨trivial, (c85_sizes.2.2.2 _).2⟩

theorem exBig_in : InDispatcher exBigDisp := by
  refine ⟨fun h hh => ?_, fun t ht => ?_⟩
  · simp only [exBigDisp, List.mem_cons, List.not_mem_nil, or_false] at hh
    rcases hh with rfl | rfl
    · exact ⟨_, .inl rfl⟩
    · exact ⟨_, .inr rfl⟩
  · simp only [exBigDisp, List.mem_cons, List.not_mem_nil, or_false] at ht
    subst ht
    exact .inl ⟨_, rfl⟩

/-- A request whose reply is too big for the buffer, one too long for the receive buffer, the query for the schemas, a ping. -/
def exBigReqs : List Bytes :=
  [[0x50#8, 3#8, 0#8, 77#8, 0#8, 9#8], List.replicate 70 0#8, [0#8, 2#8, 8#8], [0#8, 1#8, 9#8, 0xAC#8, 2#8]]

/-- The answers: `SerFailed` with sequence number 77, the schemas of the endpoints and of the topic, the totals with two errors, the number. -/
def exBigAns : List (Frame Nat) :=
  [⟨⟨.Key1 ⟨0xE0#8⟩, .Seq2 77#16⟩, .err .SerFailed⟩,
   replyFrame .Key1 exStd.schema_topic (.Seq2 2#16) (.schema (.Endpoint [1] (exHash [1] exTy) (exHash [1] exTy))),
   replyFrame .Key1 exStd.schema_topic (.Seq2 3#16) (.schema (.Endpoint [2] (exHash [2] exTy) (exHash [2] exTy))),
   replyFrame .Key1 exStd.schema_topic (.Seq2 4#16) (.schema (.Topic [3] (exHash [3] exTy) .ToClient)),
   ⟨⟨.Key1 ⟨0x82#8⟩, .Seq1 8#8⟩, .totals ⟨2, 2, 0, 1, 2⟩⟩, ⟨⟨.Key1 ⟨1#8⟩, .Seq1 9#8⟩, .val 300⟩]

theorem exBig_answers : MustAnswer exBigDisp exBigLink.buf.length exBigLink.enc (2 ^ 32) (exBigReqs.filter fun d => d.length < 64)
    exBigAns (2 ^ 32 + 1) := by
  refine .replyTooBig (hdr := exHdr) (body := [9#8]) (h := exBlocking) (v := 9) (by unfold IsFrame; decide)
    ⟨by unfold LongEnough; decide, by unfold NotStd rxShort; decide, by unfold rxShort; decide, [], _, rfl, by simp⟩ (.inl rfl) rfl
    (isMsg_replyFrame _ _ _ _) (.inr (by decide +kernel)) ⟨by decide, rfl, rfl⟩ ⟨rfl, by decide, by decide⟩ ?_
  refine .schemas (hdr := ⟨.Key1 ⟨2#8⟩, .Seq1 8#8⟩) (body := []) (k := 2) (items := [_, _, _]) (by unfold IsFrame; decide)
    (by unfold LongEnough; decide) (by unfold rxShort; decide) (by unfold rxShort; decide) ?_ ⟨by decide, rfl, rfl⟩
    ⟨rfl, by decide, by decide⟩ ?_
  · exact .lost (isMsg_replyFrame _ _ _ _) (.inr (by decide)) (.lost (isMsg_replyFrame _ _ _ _) (.inr (by decide))
      (.sent (isMsg_replyFrame _ _ _ _) ⟨rfl, by decide, by decide⟩ (.sent (isMsg_replyFrame _ _ _ _) ⟨rfl, by decide, by decide⟩
        (.sent (isMsg_replyFrame _ _ _ _) ⟨rfl, by decide, by decide⟩ .nil))))
  · refine .ping (hdr := ⟨.Key1 ⟨1#8⟩, .Seq1 9#8⟩) (body := [0xAC#8, 2#8]) (v := 300) (by unfold IsFrame; decide)
      (by unfold LongEnough; decide) (by unfold rxShort; decide) (by decide +kernel) ⟨by decide, rfl, rfl⟩ ⟨by decide +kernel, by decide +kernel, by decide +kernel⟩ ?_
    exact .nil

/-- The whole way for these requests. -/
example : InDispatcher exBigDisp ∧ FitsStd exBigDisp exBigLink.enc ∧ (schemaMsgs exBigDisp.device_map).length ≤ 65535 ∧
    ∃ n tx, nusb_send_all exBigReqs ⟨some 64, [], 0⟩ (List.replicate 5 ⟨none, []⟩) = .ok (n, .Ok, tx) ∧
    ∃ log, usb_server exBigLink (fun _ _ => true) true exBigDisp false 64 5 ((tx.submitted.flatMap (bulk 64)).map .packet ++ [.disabled])
      ⟨2 ^ 32, []⟩ = .ok (.rx_fatal .ConnectionClosed [] ⟨2 ^ 32 + 1, log⟩) ∧ delivered log = exBigAns := by
  refine ⟨exBig_in, exBig_fits, by decide, ?_⟩
  have h0 : (match nusb_send_all exBigReqs ⟨some 64, [], 0⟩ (List.replicate 5 ⟨none, []⟩) with
      | .ok (_, .Ok, _) => true | _ => false) = true := by decide +kernel
  cases e : nusb_send_all exBigReqs ⟨some 64, [], 0⟩ (List.replicate 5 ⟨none, []⟩) with
  | panic => rw [e] at h0; cases h0
  | ok y =>
    obtain ⟨n, r, tx⟩ := y
    rw [e] at h0
    cases r <;> first | (cases h0; done) | skip
    obtain ⟨log, h1, h2, _⟩ := c86_round_trip exBigLink (by decide) (by decide) (fun _ => rfl) (fun _ _ => rfl) (fun _ _ => true) true
      exBigDisp (fun _ => by decide) false 64 (by decide) (by decide) (2 ^ 32) (2 ^ 32 + 1) exBigReqs (by decide) exBigAns exBig_answers
      _ n tx e true 5 (by decide)
    exact ⟨n, tx, rfl, log, h1, h2⟩

/-- The bound on the buffer is needed: with one byte less than a ping's answer takes there is no answer to the ping, not even an
error, and the server goes on. -/
theorem c86_no_room : ∃ (L : UsbLink Nat) (D : Dispatcher Nat WireTxErrorKind Nat Nat), InDispatcher D ∧ FitsStd D L.enc ∧
    0 < L.w ∧ L.buf.length < 2 ^ (8 * L.w) ∧ (∀ i, L.others i = []) ∧ (∀ i k, L.outs i k = .ok) ∧
    (usb_server L (fun _ _ => true) true D false 64 2 [.packet [0, 1, 9, 0xAC, 2]] ⟨0, []⟩ = .ok (.waiting ⟨0, [.sent .dispatcher
      ⟨⟨.Key1 ⟨1#8⟩, .Seq1 9#8⟩, .val 300⟩ (some .Other)]⟩)) ∧
    ∃ rs t, eusb_run L.w L.logging (usb_ops L 0 [⟨⟨.Key1 ⟨1#8⟩, .Seq1 9#8⟩, .val 300⟩]) (EUsbTx.new L.buf) = .ok (rs, t) ∧
      t.ep.pkts = [] := by
  refine ⟨{ exBigLink with buf := List.replicate 4 0 }, exBigDisp, exBig_in, exBig_fits, by decide, by decide, fun _ => rfl,
    fun _ _ => rfl, rfl, _, _, rfl, rfl⟩

end PRpc.Props
