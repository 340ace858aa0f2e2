import Verif.Lemmas.QUsb
import Verif.Props.QSys
import Verif.Props.Failed
/-! C91 over a USB cable: what `get_schema_report` returns to a client that is connected to a server by USB. -/

namespace PRpc.Props

open Spec

variable {V E SC Ctx : Type}

theorem qstands_used {a : App V E SC Ctx} {l : QULabel V} {l' : QSLabel V} (h : QStands l l') (hu : UsbReportUsed a l) : ReportUsed a l' := by
  cases h with
  | query l => exact hu
  | server l l' hne h =>
    cases h with
    | client l => exact absurd rfl (hne l)
    | _ => first | exact hu | trivial

/-- A query over the cable, seen as one over links that carry whole messages. -/
theorem report_over_links {a : App V E SC Ctx} {Q : QUsbCfg V E SC Ctx} (hU : UsbSound Q.U) {ls : List (QULabel V)} {c0 : Ctx}
    {y : QUsb V E SC Ctx} (hu : ∀ l ∈ ls, UsbReportUsed a l) (hrun : qu_run Q ls (QUsb.start c0) = some y) (hsm : Small Q.U.S y.u.sys) :
    ∃ ls', (∀ l ∈ ls', ReportUsed a l) ∧ qs_run Q.plain ls' (QSys.start (Sys.new c0)) = some ⟨y.q, y.u.abs⟩ ∧
      QThinned Q.plain.qc Query.new (usbQueryPart ls) (queryPart ls') := by
  obtain ⟨ls', h1, h2, h3⟩ := qu_sim_run hU (usbInv_new Q.U.S c0) rfl hsm hrun
  refine ⟨ls', fun l' hl' => ?_, h1, h3⟩
  obtain ⟨l, hl, h⟩ := h2 l' hl'
  exact qstands_used h (hu l hl)

/-- C91 over the cable (exactness): as `c91_report_exact`, for frames shorter than the host's transfers. -/
theorem c91_usb_report_exact (a : App V E SC Ctx) (Q : QUsbCfg V E SC Ctx) (hU : UsbSound Q.U) (hD : define_dispatch a = .ok Q.U.S.disp)
    (hdecl : Declared a Q.U.S.kkind) (hapart : KeysApart a Q.U.S)
    (hdist : ∀ r ∈ a.endpoint_list.endpoints, short (keyLen Q.U.S.kkind) r.resp ≠ short (keyLen Q.U.S.kkind) a.std.error)
    (hown : SchemasOwn a Q.U.S.kkind) (hreads : HostReads Q.plain) (hcount : Countable Q.U.S.disp.device_map)
    {ls : List (QULabel V)} {c0 : Ctx} {y : QUsb V E SC Ctx} (hu : ∀ l ∈ ls, UsbReportUsed a l)
    (hrun : qu_run Q ls (QUsb.start c0) = some y) (hsm : Small Q.U.S y.u.sys)
    (hlen : y.q.client.calls.length < 2 ^ 32) {W : Type} (decode_err : Bytes → Option W) (hash : Bytes → Nty → Key)
    (iter : List Nty → List Nty) (hi : Enumerates iter) (prims : List Nty) {r : SchemaReport}
    (hres : y.q.result Q.plain.qc decode_err hash iter prims = some (.ok (.ok r))) :
    r.endpoints.map (fun e => (⟨e.path, e.req_key, e.resp_key⟩ : EpRow)) = a.endpoint_list.endpoints ∧
    r.topics_in.map (fun t => (⟨t.path, t.key⟩ : TpRow)) = a.topic_in_list.topics ∧
    r.topics_out.map (fun t => (⟨t.path, t.key⟩ : TpRow)) = a.topic_out_list.topics ∧
    Resolved hash (prims ++ Q.U.S.disp.device_map.types) r := by
  obtain ⟨ls', hu', hr, _⟩ := report_over_links hU hu hrun hsm
  exact c91_report_exact a Q.plain hD hdecl hapart hdist hown hreads hcount (.first c0) hu' hr hlen decode_err hash iter hi prims hres

/-- C91 over the cable (types): as `c91_types`. -/
theorem c91_usb_types (a : App V E SC Ctx) (Q : QUsbCfg V E SC Ctx) (hU : UsbSound Q.U) (hD : define_dispatch a = .ok Q.U.S.disp)
    (hdecl : Declared a Q.U.S.kkind) (hapart : KeysApart a Q.U.S)
    (hdist : ∀ r ∈ a.endpoint_list.endpoints, short (keyLen Q.U.S.kkind) r.resp ≠ short (keyLen Q.U.S.kkind) a.std.error)
    (hown : SchemasOwn a Q.U.S.kkind) (hreads : HostReads Q.plain) (hcount : (schemaMsgs Q.U.S.disp.device_map).length < 2 ^ 32)
    {ls : List (QULabel V)} {c0 : Ctx} {y : QUsb V E SC Ctx} (hu : ∀ l ∈ ls, UsbReportUsed a l)
    (hrun : qu_run Q ls (QUsb.start c0) = some y) (hsm : Small Q.U.S y.u.sys)
    (hlen : y.q.client.calls.length < 2 ^ 32) (alone : NoSharedMulti y.q.client)
    {W : Type} (decode_err : Bytes → Option W) (hash : Bytes → Nty → Key)
    (iter : List Nty → List Nty) (hi : Enumerates iter) (prims : List Nty) {r : SchemaReport}
    (hres : y.q.result Q.plain.qc decode_err hash iter prims = some (.ok (.ok r))) :
    ∀ ty, ty ∈ r.types ↔ ty ∈ prims ++ Q.U.S.disp.device_map.types := by
  obtain ⟨ls', hu', hr, _⟩ := report_over_links hU hu hrun hsm
  exact c91_types a Q.plain hD hdecl hapart hdist hown hreads hcount (.first c0) hu' hr hlen alone decode_err hash iter hi prims hres

/-- C91 over the cable (completeness): as `c91_full_report`. -/
theorem c91_usb_full_report (a : App V E SC Ctx) (Q : QUsbCfg V E SC Ctx) (hU : UsbSound Q.U) (hD : define_dispatch a = .ok Q.U.S.disp)
    (hdecl : Declared a Q.U.S.kkind) (hapart : KeysApart a Q.U.S)
    (hdist : ∀ r ∈ a.endpoint_list.endpoints, short (keyLen Q.U.S.kkind) r.resp ≠ short (keyLen Q.U.S.kkind) a.std.error)
    (hown : SchemasOwn a Q.U.S.kkind) (hreads : HostReads Q.plain) (hcount : Countable Q.U.S.disp.device_map)
    {ls : List (QULabel V)} {c0 : Ctx} {y : QUsb V E SC Ctx} (hu : ∀ l ∈ ls, UsbReportUsed a l)
    (hrun : qu_run Q ls (QUsb.start c0) = some y) (hsm : Small Q.U.S y.u.sys)
    (hlen : y.q.client.calls.length < 2 ^ 32) (hw : SchemasWhole Q.U.S y.u.sys)
    (hk : Throughout Q.plain.qc (fun q _ => KeepsUp Q.plain.qc q) (usbQueryPart ls))
    (hp : Throughout Q.plain.qc (PromptTo Q.plain.qc (schemaMsgs Q.U.S.disp.device_map).length) (usbQueryPart ls))
    (hd : DeepEnough Q.plain.qc (usbQueryPart ls))
    {W : Type} (decode_err : Bytes → Option W) (hash : Bytes → Nty → Key) (iter : List Nty → List Nty) (hi : Enumerates iter)
    (prims : List Nty)
    (hep : ∀ e ∈ a.endpoint_list.endpoints, (∃ ty ∈ prims ++ Q.U.S.disp.device_map.types, hash e.path ty = e.req) ∧
      ∃ ty ∈ prims ++ Q.U.S.disp.device_map.types, hash e.path ty = e.resp)
    (htp : ∀ e ∈ a.topic_in_list.topics ++ a.topic_out_list.topics, ∃ ty ∈ prims ++ Q.U.S.disp.device_map.types, hash e.path ty = e.key)
    (he : y.q.ended = true) {c : Nat} {cl : Call} {f : RpcFrame} {i : Nat} (hc : y.q.call = some c)
    (hcl : y.q.client.calls[c]? = some cl) (hph : cl.phase = .done (.Resp f i)) :
    FullReport Q.plain.qc decode_err hash iter prims Q.U.S.disp.device_map y.q := by
  obtain ⟨ls', hu', hr, ht⟩ := report_over_links hU hu hrun hsm
  exact c91_full_report a Q.plain hD hdecl hapart hdist hown hreads hcount (.first c0) hu' hr hlen hw (ht.throughout hk) (ht.throughout hp)
    (fun n hn => hd n (ht.mem _ hn)) decode_err hash iter hi prims hep htp he hc hcl hph

/-! ### An example -/

def exUsbRep : QUsbCfg Nat WireTxErrorKind Nat Nat := ⟨⟨exRep.S, 128, false, 1⟩, exRep.decode, exRep.decode_totals⟩

/-- The query subscribes and asks; the request crosses the cable. -/
def exUsbRepAsk : List (QULabel Nat) :=
  [.query .subscribe, .query .trigger] ++ ([.call_kind 0, .call_reg_ok 0, .call_reg_err 0, .call_send 0, .out_poll, .out_recv,
    .in_poll] : List Label).map (fun l => .query (.client l)) ++ [.query .poll, .usb .host_packet] ++
  ([.out_done true, .out_yield] : List Label).map (fun l => .query (.client l)) ++ [.usb .dev_read]

/-- Item `i` is sent in a packet and arrives 10 ms later. -/
def exUsbRepItem (i : Nat) : List (QULabel Nat) :=
  .usb .flush :: .usb (.dev_write .ok) :: List.replicate 10 (.query .tick) ++ ([.in_recv (some ([0x10, 0x90, BitVec.ofNat 8 i, 0] ++
    (((schemaMsgs exRepDisp.device_map)[i]?).map fun d => exRep.S.enc (.schema d)).getD [])), .in_lookup] : List Label).map
    (fun l => .query (.client l)) ++ [.query .poll]

/-- All items and the totals arrive. -/
def exUsbRepRun : List (QULabel Nat) :=
  exUsbRepAsk ++ (List.range 13).flatMap exUsbRepItem ++ [.usb .flush, .usb (.dev_write .ok)] ++
  ([.in_recv (some ([0x20, 0x82, 0, 0, 0, 0] ++ enc_totals ⟨2, 5, 3, 3, 0⟩)), .in_lookup, .in_wake (some ⟨0, false⟩), .in_yield,
    .call_ok 0] : List Label).map (fun l => .query (.client l)) ++ List.replicate 100 (.query .tick) ++ [.query .poll]

/-- What the run ends with. -/
def exUsbRepEnd (y : QUsb Nat WireTxErrorKind Nat Nat) : (Bool × Option Nat × List Phase × List (Option Nat)) × Bool :=
  ((y.q.ended, y.q.call, y.q.client.calls.map Call.phase, (y.u.sys.outs ++ y.u.sys.pending).map Out.cut),
    y.u.sys.outs.all fun o => decide ((exRep.S.enc o.frame.body).length < 100))

set_option maxRecDepth 100000 in
set_option synthInstance.maxSize 1000 in
theorem exUsbRepRun_end : (qu_run exUsbRep exUsbRepRun (QUsb.start 0)).map exUsbRepEnd =
    some ((true, some 0, [.done (.Resp ⟨⟨.Key1 ⟨0x82⟩, .Seq4 0⟩, enc_totals ⟨2, 5, 3, 3, 0⟩⟩ 0)], List.replicate 14 none), true) := by
  decide +kernel

instance (l : QULabel Nat) : Decidable (UsbReportUsed exRepApp l) := by
  cases l with
  | query l => unfold UsbReportUsed; infer_instance
  | usb l => cases l <;> (unfold UsbReportUsed; infer_instance)

set_option maxRecDepth 100000 in
theorem exUsbRepRun_ok : (∀ l ∈ exUsbRepRun, UsbReportUsed exRepApp l) ∧
    Throughout exUsbRep.plain.qc (fun q _ => KeepsUp exUsbRep.plain.qc q) (usbQueryPart exUsbRepRun) ∧
    Throughout exUsbRep.plain.qc (PromptTo exUsbRep.plain.qc (schemaMsgs exUsbRep.U.S.disp.device_map).length) (usbQueryPart exUsbRepRun) ∧
    DeepEnough exUsbRep.plain.qc (usbQueryPart exUsbRepRun) :=
  ⟨by decide +kernel, throughout_of (by decide +kernel), throughout_of (by decide +kernel), deepEnough_of (by decide +kernel)⟩

/-- The theorems apply to the run, and the report is there. -/
example : UsbSound exUsbRep.U ∧ define_dispatch exRepApp = .ok exUsbRep.U.S.disp ∧ Declared exRepApp exUsbRep.U.S.kkind ∧
    KeysApart exRepApp exUsbRep.U.S ∧
    (∀ r ∈ exRepApp.endpoint_list.endpoints, short (keyLen exUsbRep.U.S.kkind) r.resp ≠ short (keyLen exUsbRep.U.S.kkind) exRepApp.std.error) ∧
    SchemasOwn exRepApp exUsbRep.U.S.kkind ∧ HostReads exUsbRep.plain ∧ Countable exUsbRep.U.S.disp.device_map ∧
    (schemaMsgs exUsbRep.U.S.disp.device_map).length < 2 ^ 32 ∧ (∀ l ∈ exUsbRepRun, UsbReportUsed exRepApp l) ∧
    ∃ y cl f i, qu_run exUsbRep exUsbRepRun (QUsb.start 0) = some y ∧ Small exUsbRep.U.S y.u.sys ∧
      y.q.client.calls.length < 2 ^ 32 ∧ SchemasWhole exUsbRep.U.S y.u.sys ∧ NoSharedMulti y.q.client ∧ y.q.ended = true ∧
      y.q.call = some 0 ∧ y.q.client.calls[0]? = some cl ∧ cl.phase = .done (.Resp f i) ∧
      FullReport (W := Unit) exUsbRep.plain.qc (fun _ => none) exRepHash id exRepPrims exUsbRep.U.S.disp.device_map y.q := by
  have hU : UsbSound exUsbRep.U := ⟨⟨2, rfl⟩, by decide, by decide⟩
  have hdist : ∀ r ∈ exRepApp.endpoint_list.endpoints,
      short (keyLen exRep.S.kkind) r.resp ≠ short (keyLen exRep.S.kkind) exRepApp.std.error := by decide
  have hcount : Countable exRep.S.disp.device_map := ⟨by decide, by decide, by decide⟩
  obtain ⟨u, k, p, d⟩ := exUsbRepRun_ok
  refine ⟨hU, exRepApp_ok, exRepApp_declared, exRepApp_apart, hdist, exRepApp_own, exRep_reads, hcount, (by decide), u, ?_⟩
  obtain ⟨y, e1, e2⟩ := Option.map_eq_some_iff.mp exUsbRepRun_end
  simp only [exUsbRepEnd, Prod.mk.injEq] at e2
  obtain ⟨⟨a, b, c, w⟩, sm⟩ := e2
  cases hc : y.q.client.calls with
  | nil => rw [hc] at c; cases c
  | cons cl cs =>
    rw [hc] at c
    simp only [List.map_cons, List.cons.injEq, List.map_eq_nil_iff] at c
    have hl : y.q.client.calls.length < 2 ^ 32 := by rw [hc, c.2]; exact Nat.le_of_ble_eq_true rfl
    have hw : SchemasWhole exUsbRep.U.S y.u.sys := fun o ho _ => by
      have : o.cut ∈ (y.u.sys.outs ++ y.u.sys.pending).map Out.cut := List.mem_map_of_mem ho
      rw [w] at this
      exact (List.mem_replicate.mp this).2
    have hsm : Small exUsbRep.U.S y.u.sys := small_of_enc _ fun o ho => by
      have := of_decide_eq_true (List.all_eq_true.mp sm o ho)
      have h4 : (exUsbRep.U.S.enc o.frame.body).length < 100 := this
      omega
    obtain ⟨ls', hu', hr, ht⟩ := report_over_links hU u e1 hsm
    have hq := query_run ⟨dispatches exRepApp_ok, exRepApp_declared, exRepApp_apart, exRepApp_own, hdist⟩
      (qsInv_start (a := exRepApp) (Q := exRep) (.first 0)).same hr hu'
    refine ⟨y, cl, _, _, e1, hsm, hl, hw, (ht.throughout k _ [] _ (List.append_nil _).symm hq).alone, a, b, (by rw [hc]; rfl), c.1, ?_⟩
    exact c91_usb_full_report exRepApp exUsbRep hU exRepApp_ok exRepApp_declared exRepApp_apart hdist exRepApp_own exRep_reads hcount u e1 hsm hl hw
      k p d _ _ _ (fun _ _ => Iff.rfl) _ exRep_keys.1 exRep_keys.2 a b (by rw [hc]; rfl) c.1

end PRpc.Props
