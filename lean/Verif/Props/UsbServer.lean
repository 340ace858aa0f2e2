import Verif.Lemmas.UsbServer
import Verif.Props.UsbLink
import Verif.Props.EUsbTx
import Verif.Props.UsbSend
import Verif.Props.Dispatch
import Verif.Props.Server
/-!
Property theorems C72: a server over USB, from the packets the host sends to the messages the host receives.
-/

namespace PRpc.Props

open PRpc PRpc.Spec

variable {V SC Ctx : Type}

/-- If the device's non-empty transfers are all shorter than 1024 bytes, they are what the host's receiver returns, except that
the last may still be under way. -/
theorem arrivals_view (pkts : List Bytes) (hsm : ∀ q ∈ pkts, q.length ≤ 64) (cs : List Bytes)
    (h3 : ((transfers [] pkts).1 ++ [(transfers [] pkts).2]).filter (fun x => !x.isEmpty) = cs) (hcs : ∀ t ∈ cs, t.length < 1024) :
    ∃ tail : List Bytes, (inTransfers MAX_TRANSFER_SIZE [] pkts).1.filter (fun t => !t.isEmpty) ++ tail = cs ∧ tail.length ≤ 1 := by
  obtain ⟨h5, _⟩ := inTransfers_eq 1024 (by omega) (by decide) _ hsm [] (by simp)
  have z1 : blocks 1024 ([] : Bytes) = [] := blocks_lt (by simp)
  have z2 : leftover 1024 ([] : Bytes) = [] := leftover_lt (by simp)
  rw [z1, z2, List.nil_append] at h5
  rw [← h3] at hcs
  rw [List.filter_append] at h3 hcs
  have hdone : ∀ d ∈ (transfers [] pkts).1, d.length < 1024 := by
    intro d hd
    cases d with
    | nil => simp
    | cons a d => exact hcs _ (by simp [hd])
  have hopen : (transfers [] pkts).2.length < 1024 := by
    generalize (transfers [] pkts).2 = o at hcs
    cases o with
    | nil => simp
    | cons a d => exact hcs _ (by simp)
  have hfm : ∀ l : List Bytes, (∀ d ∈ l, d.length < 1024) →
      (l.flatMap fun d => blocks 1024 d ++ [leftover 1024 d]) = l := by
    intro l
    induction l with
    | nil => intro _; rfl
    | cons d l ih =>
      intro hl
      have := hl d (by simp)
      rw [List.flatMap_cons, ih fun x hx => hl x (List.mem_cons_of_mem _ hx), blocks_lt this, leftover_lt this]
      rfl
  rw [hfm _ hdone, blocks_lt hopen, List.append_nil] at h5
  refine ⟨[(transfers [] pkts).2].filter (fun t => !t.isEmpty), ?_, Nat.le_trans (List.length_filter_le _ _) (by simp)⟩
  rw [show MAX_TRANSFER_SIZE = 1024 from rfl, h5]
  exact h3

/-- The frame the operation stands for is shorter than 1024 bytes (for log messages: because the buffer is). -/
def ShortOp (cap : Nat) : TxOp → Prop
  | .send hdr m => (layout hdr).length + m.bytes.length < 1024
  | .send_raw buf => buf.length < 1024
  | .send_log_str _ _ _ => cap < 1024
  | .send_log_fmt _ _ _ => cap < 1024

theorem shortOp_length {w cap : Nat} {logging : Key} {n : Nat} {op : TxOp} {f : Bytes} (h : ShortOp cap op)
    (hf : FrameOf w cap logging n op f) : f.length < 1024 := by
  cases op with
  | send hdr m =>
    obtain ⟨hb, h1, rfl, _⟩ := hf
    have := congrArg List.length h1
    rw [List.length_map] at this
    rw [List.length_append, this]
    exact h
  | send_raw buf => rw [show f = buf from hf]; exact h
  | send_log_str kk s k => obtain ⟨_, _, _, _, _, hf⟩ := hf; exact Nat.lt_of_le_of_lt hf h
  | send_log_fmt kk ps fl => obtain ⟨_, _, _, _, _, hf⟩ := hf; exact Nat.lt_of_le_of_lt hf h

/-- C72, the link: for every history of operations on the device's transmitter, whatever happens to their packet writes, the
non-empty messages the host's receiver returns are, in order, at most one per operation: a prefix of that operation's frame, and
the whole frame for an operation that returned `Ok`; the last one may still be under way. -/
theorem c72_host_receives (w : Nat) (hw : 0 < w) (logging : Key) (buf : Bytes) (hcap : buf.length < 2 ^ (8 * w))
    (ops : List (TxOp × (Nat → WriteOut))) (hs : TextsFit w ops) (hl : ∀ x ∈ ops, ShortOp buf.length x.1) (rs : List TxRes)
    (t : EUsbTx) (hrun : eusb_run w logging ops (EUsbTx.new buf) = .ok (rs, t)) (n : Nat) (hn : (arrivals t.ep.pkts).length < n) :
    ∃ s ms, nusb_receive_all n [] NusbRx.new (arrivals t.ep.pkts) = .ok (ms, none, s) ∧
    ∃ (cs : List (Option Bytes)) (tail : List Bytes), cs.length = ops.length ∧
      ms.filter (fun t => !t.isEmpty) ++ tail = cs.flatMap Option.toList ∧ tail.length ≤ 1 ∧
      ∀ (i : Nat) (op : TxOp) (o : Nat → WriteOut) (r : TxRes) (c : Option Bytes), ops[i]? = some (op, o) →
        rs[i]? = some r → cs[i]? = some c →
        (Refused w buf.length op → r = .Other ∧ c = none) ∧
        (¬ Refused w buf.length op → r ≠ .Other ∧
          ∃ f, FrameOf w buf.length logging ((ops.take i).countP fun x => isLog x.1) op f ∧
            (∀ p, c = some p → p <+: f ∧ p ≠ []) ∧ (r = .Ok → c = if f = [] then none else some f)) := by
  obtain ⟨s, hr⟩ := receive_arrivals _ n hn
  obtain ⟨hrl, cs, hcl, hv, hall⟩ := c53_usb_messages w hw logging buf hcap ops hs rs t hrun
  have hlt : ∀ x ∈ cs.flatMap Option.toList, x.length < 1024 := by
    intro x hx
    obtain ⟨c, hc, hxc⟩ := List.mem_flatMap.mp hx
    obtain ⟨i, hi, rfl⟩ := List.mem_iff_getElem.mp hc
    have hci : cs[i] = some x := by
      cases hc' : cs[i] with
      | none => rw [hc'] at hxc; cases hxc
      | some u => rw [hc'] at hxc; simp at hxc; rw [hxc]
    have hx0 : ops[i]? = some (ops[i].1, ops[i].2) := List.getElem?_eq_getElem (by omega)
    obtain ⟨a, b⟩ := hall i _ _ _ _ hx0 (List.getElem?_eq_getElem (by omega)) (List.getElem?_eq_getElem hi)
    by_cases href : Refused w buf.length ops[i].1
    · rw [hci] at a; cases (a href).2
    · obtain ⟨_, f, f1, f2, _⟩ := b href
      have := shortOp_length (hl _ (List.getElem_mem (show i < ops.length by omega))) f1
      have := (f2 x hci).1.length_le
      omega
  obtain ⟨tail, g1, g2⟩ := arrivals_view t.ep.pkts (eusb_run_small hrun (by simp [EUsbTx.new, UsbTx.new])) _ hv hlt
  exact ⟨s, _, hr, cs, tail, hcl, g1, g2, hall⟩

/-- The history of `exOps` (C53): the host gets the first message, the two bytes of the cut raw send and the two logs. -/
example : TextsFit 4 exOps ∧ (∀ x ∈ exOps, ShortOp 8 x.1) ∧
    (match eusb_run 4 ⟨1#8, 2#8, 0#8, 0#8, 0#8, 0#8, 0#8, 0#8⟩ exOps (EUsbTx.new (List.replicate 8 0xAA#8)) with
    | .ok (_, t) => nusb_receive_all 9 [] NusbRx.new (arrivals t.ep.pkts)
    | .panic => .panic) = .ok ([[0#8, 7#8, 1#8, 1#8, 2#8, 3#8], [5#8, 6#8], [], [0x10#8, 3#8, 1#8, 0#8, 1#8, 97#8],
      [0x50#8, 3#8, 0#8, 2#8, 0#8, 1#8, 98#8]], none, ⟨4, 0⟩) := by
  refine ⟨?_, ?_, by decide +kernel⟩
  · intro x hx kk s k e
    simp only [exOps, List.mem_cons, List.not_mem_nil, or_false] at hx
    rcases hx with rfl | rfl | rfl | rfl | rfl <;> simp at e <;> (obtain ⟨_, rfl, _⟩ := e; decide)
  · intro x hx
    simp only [exOps, List.mem_cons, List.not_mem_nil, or_false] at hx
    rcases hx with rfl | rfl | rfl | rfl | rfl <;> (unfold ShortOp; decide)

/-- C72, no misreading: if the decoder rejects every proper beginning of what was sent (as decoders of self-delimiting formats
like postcard do), every message the host receives and can decode is, byte for byte, a frame that was handed to the transmitter
whole — although sends may have been cut off anywhere. -/
theorem c72_never_misread {α : Type} (w : Nat) (hw : 0 < w) (logging : Key) (buf : Bytes) (hcap : buf.length < 2 ^ (8 * w))
    (ops : List (TxOp × (Nat → WriteOut))) (hs : TextsFit w ops) (hl : ∀ x ∈ ops, ShortOp buf.length x.1) (rs : List TxRes)
    (t : EUsbTx) (hrun : eusb_run w logging ops (EUsbTx.new buf) = .ok (rs, t)) (n : Nat) (ms : List Bytes) (s : NusbRx)
    (hrx : nusb_receive_all n [] NusbRx.new (arrivals t.ep.pkts) = .ok (ms, none, s)) (hn : (arrivals t.ep.pkts).length < n)
    (dec : VarHeader → Bytes → Option α)
    (hdec : ∀ (i : Nat) (op : TxOp) (o : Nat → WriteOut) (f : Bytes) (hdr : VarHeader) (body p : Bytes), ops[i]? = some (op, o) →
      FrameOf w buf.length logging ((ops.take i).countP fun x => isLog x.1) op f → IsFrame f hdr body → p <+: body → p ≠ body →
      dec hdr p = none)
    (m : Bytes) (hm : m ∈ ms) (hdr : VarHeader) (body : Bytes) (v : α) (hfr : IsFrame m hdr body) (hv : dec hdr body = some v) :
    ∃ (i : Nat) (op : TxOp) (o : Nat → WriteOut), ops[i]? = some (op, o) ∧
      FrameOf w buf.length logging ((ops.take i).countP fun x => isLog x.1) op m := by
  obtain ⟨s', ms', hrx', cs, tail, hcl, hms, _, hall⟩ := c72_host_receives w hw logging buf hcap ops hs hl rs t hrun n hn
  rw [hrx] at hrx'
  simp only [Exec.ok.injEq, Prod.mk.injEq] at hrx'
  obtain ⟨rfl, _, rfl⟩ := hrx'
  have hmne : m ≠ [] := by
    rintro rfl
    have := congrArg List.length hfr
    simp [layout] at this
  have hmem : m ∈ cs.flatMap Option.toList := by
    rw [← hms]
    refine List.mem_append_left _ (List.mem_filter.mpr ⟨hm, ?_⟩)
    cases m with
    | nil => exact absurd rfl hmne
    | cons _ _ => rfl
  obtain ⟨c, hc, hxc⟩ := List.mem_flatMap.mp hmem
  obtain ⟨i, hi, rfl⟩ := List.mem_iff_getElem.mp hc
  have hci : cs[i] = some m := by
    cases hc' : cs[i] with
    | none => rw [hc'] at hxc; cases hxc
    | some u => rw [hc'] at hxc; simp at hxc; rw [hxc]
  have hrl := eusb_run_length hrun
  have hx0 : ops[i]? = some (ops[i].1, ops[i].2) := List.getElem?_eq_getElem (by omega)
  obtain ⟨a, b⟩ := hall i _ _ _ _ hx0 (List.getElem?_eq_getElem (by omega)) (List.getElem?_eq_getElem hi)
  by_cases href : Refused w buf.length ops[i].1
  · rw [hci] at a; cases (a href).2
  · obtain ⟨_, f, f1, f2, _⟩ := b href
    obtain ⟨⟨rest, rfl⟩, _⟩ := f2 m hci
    refine ⟨i, _, _, hx0, ?_⟩
    by_cases hrest : rest = []
    · rw [hrest, List.append_nil] at f1; exact f1
    · have hbig : IsFrame (m ++ rest) hdr (body ++ rest) := by
        rw [IsFrame, List.map_append, hfr, List.map_append, List.append_assoc]
      have := hdec i _ _ _ hdr (body ++ rest) body hx0 f1 hbig (List.prefix_append _ _)
        (fun e => hrest (List.self_eq_append_right.mp e))
      rw [this] at hv; cases hv

/-- Fixed-size messages of 80 bytes: the first is cut after one packet, the second goes through. -/
def exCut : List (TxOp × (Nat → WriteOut)) :=
  [(.send ⟨.Key1 ⟨7#8⟩, .Seq1 1#8⟩ ⟨List.replicate 80 1#8, false, 0⟩, fun i => if i = 0 then .ok else .cut false),
   (.send ⟨.Key1 ⟨7#8⟩, .Seq1 2#8⟩ ⟨List.replicate 80 2#8, false, 0⟩, fun _ => .ok)]

/-- The decoder's condition is met by a type of fixed size, and the host gets a piece it cannot decode and a message it can. -/
example : (∀ (i : Nat) (op : TxOp) (o : Nat → WriteOut) (f : Bytes) (hdr : VarHeader) (body p : Bytes), exCut[i]? = some (op, o) →
      FrameOf 4 100 ⟨1#8, 2#8, 0#8, 0#8, 0#8, 0#8, 0#8, 0#8⟩ ((exCut.take i).countP fun x => isLog x.1) op f → IsFrame f hdr body →
      p <+: body → p ≠ body → (if p.length = 80 then some () else none) = none) ∧
    (match eusb_run 4 ⟨1#8, 2#8, 0#8, 0#8, 0#8, 0#8, 0#8, 0#8⟩ exCut (EUsbTx.new (List.replicate 100 0xAA#8)) with
    | .ok (_, t) => nusb_receive_all 9 [] NusbRx.new (arrivals t.ep.pkts)
    | .panic => .panic) = .ok ([[0#8, 7#8, 1#8] ++ List.replicate 61 1#8, [0#8, 7#8, 2#8] ++ List.replicate 80 2#8], none, ⟨4, 0⟩) := by
  refine ⟨?_, by decide +kernel⟩
  intro i op o f hdr body p hi hf hfr hp hne
  have hbody : ∀ (h : VarHeader) (m : Ser), op = .send h m → body = m.bytes := by
    rintro h m rfl
    obtain ⟨hb, h1, rfl, _⟩ := hf
    have e1 : IsFrame (hb ++ m.bytes) h m.bytes := by rw [IsFrame, List.map_append, h1]
    have e2 := (isFrame_iff _ _ _).mp e1
    have e3 := (isFrame_iff _ _ _).mp hfr
    rw [e2] at e3
    simp only [Exec.ok.injEq, Option.some.injEq, Prod.mk.injEq] at e3
    exact e3.2.symm
  have h80 : body.length = 80 := by
    match i, hi with
    | 0, hi => simp [exCut] at hi; rw [hbody _ _ hi.1.symm]; rfl
    | 1, hi => simp [exCut] at hi; rw [hbody _ _ hi.1.symm]; rfl
  have := hp.length_le
  rw [if_neg]
  intro e
  exact hne (hp.eq_of_length (by omega))

/-! ### The server -/

/-- C72, the server: whatever the host sends and whatever happens to the packet writes, what the server's log shows as sent, with
the outcomes it acted on, is what the transmitter did: the sends are, in order, among the transmitter's operations with these
results.  (With C72's link theorem this says what the host gets of every one.) -/
theorem c72_server_log (L : UsbLink V) (hw : 0 < L.w) (hcap : L.buf.length < 2 ^ (8 * L.w)) (hh : Harmless L)
    (spawn : List (Event V WireTxErrorKind SC) → Task V SC → Bool) (oc : Bool) (D : Dispatcher V WireTxErrorKind SC Ctx) (lost : Bool)
    (rxlen calls : Nat) (q : List UsbIn) (c : Ctx) (res : RunRes WireTxErrorKind WireRxErrorKind (St V WireTxErrorKind SC Ctx))
    (h : usb_server L spawn oc D lost rxlen calls q ⟨c, []⟩ = .ok res) :
    ∃ rs t, eusb_run L.w L.logging (usb_ops L 0 (frames res.state.log)) (EUsbTx.new L.buf) = .ok (rs, t) ∧
      List.Sublist ((sends res.state.log).map fun x => (TxOp.send x.1.hdr (L.enc x.1.body), x.2))
        (((usb_ops L 0 (frames res.state.log)).map Prod.fst).zip (rs.map outcome)) := by
  have hf : Faithful (usb_env L spawn oc) res.state.log :=
    run_keeps (fun s : St V WireTxErrorKind SC Ctx => Faithful (usb_env L spawn oc) s.log)
      (fun _ _ _ _ _ a b => handle_faithful a b) _ _ .nil h
  have := faithful_run L spawn oc hf (fun fs => usb_ops_no_panic hw hcap hh fs)
  have e : ∀ l : List (Event V WireTxErrorKind SC), handed l = frames l := by
    intro l
    induction l with
    | nil => rfl
    | cons x l ih => cases x <;> simp [handed, frames, ih]
  rwa [e] at this

/-- What the device's receiver returns when the host has sent these frames, with or without the endpoint being disabled
afterwards. -/
theorem device_receives_any (lost : Bool) (B : Nat) (hB : 64 ∣ B) (hpos : 0 < B) (frames : List Bytes) (hne : ∀ d ∈ frames, d ≠ [])
    (cs : List Completion) (n : Nat) (t : NusbTx) (hs : nusb_send_all frames ⟨some 64, [], 0⟩ cs = .ok (n, .Ok, t)) (unplugged : Bool)
    (calls : Nat) (hc : frames.length < calls) :
    (usb_receive_all lost B calls ((t.submitted.flatMap (bulk 64)).map .packet ++ if unplugged then [.disabled] else [])).1 =
      (frames.map fun d => if d.length < B then .Ok d else .ReceivedMessageTooLarge) ++
        if unplugged then [.ConnectionClosed] else [] := by
  obtain ⟨n', r', t', m, h1, h2, h3, h4, h5, h6⟩ := nusb_send_all_ok frames ⟨some 64, [], 0⟩ cs (by simp)
  rw [h1] at hs
  cases hs
  have hm : m = frames.length := by have := h5 rfl; omega
  rw [hm, List.take_length, List.nil_append] at h6
  have hfl : (frames.flatMap fun d => (txOf (zlpOf (some 64)) d).flatMap (bulk 64)) = t.submitted.flatMap (bulk 64) := by
    rw [h6, List.flatMap_assoc]
  rw [← hfl]
  clear h1 h2 h3 h4 h5 h6 hm hfl
  induction frames generalizing calls with
  | nil =>
    cases calls with
    | zero => exact absurd hc (Nat.not_lt_zero _)
    | succ k => cases unplugged <;> cases k <;> simp [usb_receive_all, usb_receive, rx_loop]
  | cons d fs ih =>
    cases calls with
    | zero => exact absurd hc (Nat.not_lt_zero _)
    | succ k =>
      have hp := packets_txOf d (hne d (List.mem_cons_self ..))
      have hstep : ∀ q, usb_receive lost B (((txOf (zlpOf (some 64)) d).flatMap (bulk 64)).map .packet ++ q) =
          (if d.length < B then .Ok d else .ReceivedMessageTooLarge, q) := by
        intro q
        by_cases hl : d.length < B
        · rw [if_pos hl]; exact rx_loop_fit lost B hp [] q (by simp; omega) (by simp; omega)
        · rw [if_neg hl]; exact rx_loop_big lost B hB hpos hp [] q (by simp) (by simp) (by simp; omega)
      have ih' := ih (fun x hx => hne x (List.mem_cons_of_mem _ hx)) k (by simp at hc; omega)
      rw [List.flatMap_cons, List.map_append, List.append_assoc, usb_receive_all, hstep]
      by_cases hl : d.length < B
      · simp only [if_pos hl, List.map_cons, List.cons_append]
        exact congrArg _ ih'
      · simp only [if_neg hl, List.map_cons, List.cons_append]
        exact congrArg _ ih'

/-- Receive errors that do not close the connection make no difference to what is consumed. -/
theorem consumed_skips (B : Nat) (reqs : List Bytes) {fs : List (VarHeader × Bytes)}
    (h : Consumed (RE := WireRxErrorKind) id ((reqs.filter fun d => d.length < B).map .frame) fs) :
    Consumed id (reqs.map fun d => if d.length < B then Rx.frame d else .error .ReceivedMessageTooLarge) fs := by
  induction reqs generalizing fs with
  | nil => exact h
  | cons d ds ih =>
    rw [List.map_cons]
    by_cases hl : d.length < B
    · rw [List.filter_cons_of_pos (by simpa using hl), List.map_cons] at h
      rw [if_pos hl]
      cases h with
      | malformed h1 h2 => exact .malformed h1 (ih h2)
      | frame h1 h2 => exact .frame h1 (ih h2)
    · rw [List.filter_cons_of_neg (by simpa using hl)] at h
      rw [if_neg hl]
      exact .error (by simp) (ih h)

/-- C72, there and back: the host sends any requests; if all transfers and packet writes succeed, the device's transmit buffer is
large enough for every answer, and nobody else uses the transmitter, then the host's receiver returns exactly the answers to the
requests shorter than the device's receive buffer, one message each, in order: for each such request its reply or its error, with
the request's sequence number, computed by the handlers one after the other.  The server goes on waiting, until the endpoint is
disabled: then it returns with a closed connection. -/
theorem c72_round_trip (L : UsbLink V) (hw : 0 < L.w) (hcap : L.buf.length < 2 ^ (8 * L.w)) (h0 : ∀ i, L.others i = [])
    (hok : ∀ i k, L.outs i k = .ok) (spawn : List (Event V WireTxErrorKind SC) → Task V SC → Bool) (oc : Bool)
    (D : Dispatcher V WireTxErrorKind SC Ctx) (lost : Bool) (B : Nat) (hB : 64 ∣ B) (hpos : 0 < B)
    (c c' : Ctx) (reqs : List Bytes) (hreq : ∀ d ∈ reqs, d ≠ []) (ans : List (Frame V))
    (ha : MustSend D c (reqs.filter fun d => d.length < B) ans c')
    (hans : ∀ fr ∈ ans, Sendable L.buf.length L.enc fr)
    (cs : List Completion) (n : Nat) (tx : NusbTx) (hsend : nusb_send_all reqs ⟨some 64, [], 0⟩ cs = .ok (n, .Ok, tx))
    (unplugged : Bool) (calls : Nat) (hc : reqs.length < calls) :
    ∃ log, usb_server L spawn oc D lost B calls ((tx.submitted.flatMap (bulk 64)).map .packet ++ if unplugged then [.disabled] else [])
        ⟨c, []⟩ = .ok (if unplugged then .rx_fatal .ConnectionClosed [] ⟨c', log⟩ else .waiting ⟨c', log⟩) ∧
      frames log = ans ∧
    ∃ rs t, eusb_run L.w L.logging (usb_ops L 0 ans) (EUsbTx.new L.buf) = .ok (rs, t) ∧ (∀ r ∈ rs, r = .Ok) ∧
    ∀ m, (arrivals t.ep.pkts).length < m → ∃ s ms, nusb_receive_all m [] NusbRx.new (arrivals t.ep.pkts) = .ok (ms, none, s) ∧
      ms.map (List.map BitVec.toNat) = ans.map (fun fr => layout fr.hdr ++ (L.enc fr.body).bytes.map BitVec.toNat) := by
  have hharm : Harmless L := fun i x hx => by rw [h0 i] at hx; cases hx
  have hsendok : ∀ log, ∀ fr ∈ ans, (usb_env L spawn oc).send log fr = none := fun log fr hfr =>
    usb_send_ok hw hcap hharm hok spawn oc log fr (hans fr hfr)
  have hin : usb_inputs ((usb_receive_all lost B calls
      ((tx.submitted.flatMap (bulk 64)).map .packet ++ if unplugged then [.disabled] else [])).1) =
      (reqs.map fun d => if d.length < B then Rx.frame d else .error .ReceivedMessageTooLarge) ++
        if unplugged then [.error .ConnectionClosed] else [] := by
    rw [device_receives_any lost B hB hpos reqs hreq cs n tx hsend unplugged calls hc]
    clear hreq ha hsend hc
    induction reqs with
    | nil => cases unplugged <;> rfl
    | cons b bs ih =>
      by_cases hl : b.length < B
      · simp only [List.map_cons, if_pos hl, List.cons_append, usb_inputs, ih]
      · simp only [List.map_cons, if_neg hl, List.cons_append, usb_inputs, ih]
  obtain ⟨log, e1, e2⟩ := answers_run (RE := WireRxErrorKind) (tx_kind := id) (rx_kind := id) ha hsendok []
  refine ⟨log, ?_, ?_, ?_⟩
  · rw [usb_server, hin]
    obtain ⟨fs, f1, f2⟩ := (c17_still_running id id _ _ _ _).mp e1
    rw [run_consumed (consumed_skips B reqs f1) f2]
    cases unplugged
    · rfl
    · exact run_error_fatal rfl _ _
  · have e : ∀ l : List (Event V WireTxErrorKind SC), handed l = frames l := by
      intro l
      induction l with
      | nil => rfl
      | cons x l ih => cases x <;> simp [handed, frames, ih]
    rw [← e, e2]; rfl
  · obtain ⟨h, t, g1, g2, g3, g4⟩ := usb_ops_history h0 0 ans hans (EUsbTx.new L.buf) rfl
    have g2' : t.ep = (send_history h UsbTx.new).2 := g2
    have hall : ∀ r ∈ (send_history h UsbTx.new).1, r = .Ok := by
      have : ∀ (h : List (Bytes × (Nat → WriteOut))) (t : UsbTx), (∀ x ∈ h, ∃ j, x.2 = L.outs j) → ∀ r ∈ (send_history h t).1, r = .Ok := by
        intro h
        induction h with
        | nil => intro t _ r hr; cases hr
        | cons x h ih =>
          intro t hx r hr
          simp only [send_history, List.mem_cons] at hr
          rcases hr with rfl | hr
          · obtain ⟨j, hj⟩ := hx x (List.mem_cons_self ..)
            exact (c68_usb_send_result _ _ _).1.mpr fun i _ => by rw [hj]; exact hok j i
          · exact ih _ (fun y hy => hx y (List.mem_cons_of_mem _ hy)) r hr
      exact this h UsbTx.new g4
    refine ⟨_, t, g1, hall, fun m hm => ?_⟩
    rw [g2'] at hm ⊢
    have hne : ∀ x ∈ h, x.1 ≠ [] ∧ x.1.length < 1024 := by
      intro x hx
      have hx1 : x.1 ∈ h.map Prod.fst := List.mem_map_of_mem hx
      rw [g3] at hx1
      obtain ⟨fr, hfr, hfe⟩ := List.mem_map.mp hx1
      have hs := (hans fr hfr).short
      rw [layout_length] at hs
      have hl : x.1.length = encLen fr.hdr + (L.enc fr.body).bytes.length := by
        rw [← hfe, List.length_append, encOf_length]
      refine ⟨fun e => ?_, by omega⟩
      rw [e] at hl
      simp only [List.length_nil, encLen] at hl
      omega
    obtain ⟨s, hs⟩ := c49_usb_link_partial h hall hne m hm
    refine ⟨s, _, hs, ?_⟩
    rw [g3, List.map_map]
    apply List.map_congr_left
    intro fr _
    show List.map _ (encOf fr.hdr ++ _) = _
    rw [List.map_append, layout_encOf]

/-- A link with a 64-byte buffer on which all goes well. -/
def exLink : UsbLink Nat where
  w := 4
  logging := exKey 0x91#8
  buf := List.replicate 64 0#8
  enc
    | .val v => ⟨[BitVec.ofNat 8 v], false, 0⟩
    | .err _ => ⟨[0xEE#8], false, 0⟩
    | _ => ⟨[], true, 0⟩
  outs := fun _ _ => .ok
  others := fun _ => []

/-- A request for `exBlocking` with context 5, one too long for a buffer of 64 bytes, a ping, a frame nobody handles. -/
def exReqs : List Bytes :=
  [[0x50#8, 3#8, 0#8, 77#8, 0#8, 9#8], List.replicate 70 0#8, [0#8, 1#8, 8#8, 42#8], [0#8, 0x77#8, 9#8]]

/-- Their answers: 9 + 5 with sequence number 77, 42 with 8, the error with 9. -/
def exAns : List (Frame Nat) :=
  [⟨⟨.Key1 ⟨0x83#8⟩, .Seq2 77#16⟩, .val 14⟩, ⟨⟨.Key1 ⟨1#8⟩, .Seq1 8#8⟩, .val 42⟩, ⟨⟨.Key1 ⟨0xE0#8⟩, .Seq1 9#8⟩, .err .UnknownKey⟩]

theorem exReqs_answers : MustSend exDisp 5 (exReqs.filter fun d => d.length < 64) exAns 6 ∧ (∀ fr ∈ exAns, Sendable exLink.buf.length exLink.enc fr) ∧
    (∀ d ∈ exReqs, d ≠ []) := by
  refine ⟨?_, ?_, by decide⟩
  · refine .endpoint (hdr := exHdr) (body := [9#8]) (h := exBlocking) (v := 9) (by unfold IsFrame; decide)
      ⟨by unfold LongEnough; decide, by unfold NotStd rxShort; decide, by unfold rxShort; decide, [], _, rfl, by simp⟩ (.inl rfl) rfl
      ⟨by decide, rfl, rfl⟩ ?_
    refine .ping (hdr := ⟨.Key1 ⟨1#8⟩, .Seq1 8#8⟩) (body := [42#8]) (v := 42) (by unfold IsFrame; decide) (by unfold LongEnough; decide)
      (by unfold rxShort; decide) rfl ⟨by decide, rfl, rfl⟩ ?_
    refine .unknown (hdr := ⟨.Key1 ⟨0x77#8⟩, .Seq1 9#8⟩) (body := []) (by unfold IsFrame; decide) (by unfold LongEnough; decide)
      (by unfold rxShort; decide) ⟨by decide, rfl, rfl⟩ ?_
    exact .nil
  · intro fr hfr
    simp only [exAns, List.mem_cons, List.not_mem_nil, or_false] at hfr
    rcases hfr with rfl | rfl | rfl <;> exact ⟨rfl, by decide, by decide⟩

/-- The whole way, for these requests: hypotheses of the round trip and of the theorem about the server's log. -/
example : Harmless exLink ∧ ∃ n tx, nusb_send_all exReqs ⟨some 64, [], 0⟩ (List.replicate 5 ⟨none, []⟩) = .ok (n, .Ok, tx) ∧
    ∃ log, usb_server exLink (fun _ _ => true) true exDisp false 64 5 ((tx.submitted.flatMap (bulk 64)).map .packet ++ [.disabled]) ⟨5, []⟩ =
      .ok (.rx_fatal .ConnectionClosed [] ⟨6, log⟩) ∧ frames log = exAns := by
  refine ⟨fun i x hx => (by cases hx), ?_⟩
  have h0 : (match nusb_send_all exReqs ⟨some 64, [], 0⟩ (List.replicate 5 ⟨none, []⟩) with
      | .ok (_, .Ok, _) => true | _ => false) = true := by decide +kernel
  cases e : nusb_send_all exReqs ⟨some 64, [], 0⟩ (List.replicate 5 ⟨none, []⟩) with
  | panic => rw [e] at h0; cases h0
  | ok y =>
    obtain ⟨n, r, tx⟩ := y
    rw [e] at h0
    cases r <;> first | (cases h0; done) | skip
    obtain ⟨log, h1, h2, _⟩ := c72_round_trip exLink (by decide) (by decide) (fun _ => rfl) (fun _ _ => rfl) (fun _ _ => true) true exDisp
      false 64 (by decide) (by decide) 5 6 exReqs exReqs_answers.2.2 exAns exReqs_answers.1 exReqs_answers.2.1 _ n tx e true 5 (by decide)
    exact ⟨n, tx, rfl, log, h1, h2⟩

end PRpc.Props
