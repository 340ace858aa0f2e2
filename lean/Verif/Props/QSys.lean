import Verif.Lemmas.QSysTypes
import Verif.Props.Query
import Verif.Props.Postcard
import Verif.Props.Describe
/-!
C91: what `get_schema_report` returns to a client that is connected to a server.
-/

namespace PRpc.Props

open Spec

variable {V E SC Ctx : Type}

/-- C91 (exactness): a report that is returned lists exactly the endpoints and topics of the connected server's dispatcher, with their
paths and keys, in their order, and gives each of their keys the type it was computed from; whatever sends failed, whatever else went
on, and however late the messages came. -/
theorem c91_report_exact (a : App V E SC Ctx) (Q : QSysCfg V E SC Ctx) (hD : define_dispatch a = .ok Q.S.disp)
    (hdecl : Declared a Q.S.kkind) (hapart : KeysApart a Q.S)
    (hdist : ∀ r ∈ a.endpoint_list.endpoints, short (keyLen Q.S.kkind) r.resp ≠ short (keyLen Q.S.kkind) a.std.error)
    (hown : SchemasOwn a Q.S.kkind) (hreads : HostReads Q) (hcount : Countable Q.S.disp.device_map)
    {es : List (Sys V E SC Ctx)} {s0 : Sys V E SC Ctx} (hs : Sessions a Q.S es s0)
    {ls : List (QSLabel V)} {y : QSys V E SC Ctx} (hu : ∀ l ∈ ls, ReportUsed a l) (hrun : qs_run Q ls (QSys.start s0) = some y)
    (hlen : y.q.client.calls.length < 2 ^ 32) {W : Type} (decode_err : Bytes → Option W) (hash : Bytes → Nty → Key)
    (iter : List Nty → List Nty) (hi : Enumerates iter) (prims : List Nty) {r : SchemaReport}
    (hres : y.q.result Q.qc decode_err hash iter prims = some (.ok (.ok r))) :
    r.endpoints.map (fun e => (⟨e.path, e.req_key, e.resp_key⟩ : EpRow)) = a.endpoint_list.endpoints ∧
    r.topics_in.map (fun t => (⟨t.path, t.key⟩ : TpRow)) = a.topic_in_list.topics ∧
    r.topics_out.map (fun t => (⟨t.path, t.key⟩ : TpRow)) = a.topic_out_list.topics ∧
    Resolved hash (prims ++ Q.S.disp.device_map.types) r := by
  have x : SchemasCtx a Q.S := ⟨dispatches hD, hdecl, hapart, hown, hdist⟩
  have inv := qsInv_run x (qsInv_start hs) hrun hu
  obtain ⟨m1, m2, m3⟩ := define_dispatch_map hD
  have main : ListsAll Q.S.disp.device_map r ∧ Resolved hash (prims ++ Q.S.disp.device_map.types) r := by
    simp only [Query.result] at hres
    split at hres
    · simp [get_schema_report] at hres
    · split at hres
      · cases hres
      · rename_i c hc
        split at hres
        · cases hres
        · rename_i cl hcl
          split at hres
          · rename_i res hph
            split at hres
            · rename_i he
              refine c20_report_exact_partial .Closed hash iter hi prims true _ (some y.q.seen) Q.S.disp.device_map ?_ ?_ r (Option.some.inj hres)
              · intro t ht
                cases res with
                | Resp f i =>
                  simp only [finish_call] at ht
                  cases hd : Q.qc.decode_totals f.body with
                  | none => rw [hd] at ht; simp [trigger_res] at ht
                  | some t' =>
                    rw [hd] at ht
                    simp only [trigger_res, Except.ok.injEq] at ht
                    subst ht
                    obtain ⟨jt, hjt⟩ := inv.sch
                    obtain ⟨o, _, hcp, _, p, _, hb⟩ := response_totals x inv hjt hc hcl hph
                    have hp := hcp.begins.2
                    rw [hb] at hp
                    rw [understood_prefix (hreads.totals _) hp hd]
                    exact totals_for hcount.endpoints hcount.topics_in hcount.topics_out _
                | ErrResp f i =>
                  simp only [finish_call] at ht
                  split at ht <;> simp [trigger_res] at ht
                | Closed => simp [finish_call, trigger_res] at ht
                | BadResponse => simp [finish_call, trigger_res] at ht
              · intro es' he'
                cases he'
                exact collected_sub x hreads inv hlen he
            · cases hres
          · cases hres
  obtain ⟨⟨l1, l2, l3⟩, hr⟩ := main
  exact ⟨by rw [← m1]; exact l1, by rw [← m2]; exact l2, by rw [← m3]; exact l3, hr⟩

/-- C91 (types): a report that is returned also has every type of the server, if no frame that arrived belongs to two topics subscribed
to. -/
theorem c91_types (a : App V E SC Ctx) (Q : QSysCfg V E SC Ctx) (hD : define_dispatch a = .ok Q.S.disp)
    (hdecl : Declared a Q.S.kkind) (hapart : KeysApart a Q.S)
    (hdist : ∀ r ∈ a.endpoint_list.endpoints, short (keyLen Q.S.kkind) r.resp ≠ short (keyLen Q.S.kkind) a.std.error)
    (hown : SchemasOwn a Q.S.kkind) (hreads : HostReads Q) (hcount : (schemaMsgs Q.S.disp.device_map).length < 2 ^ 32)
    {es : List (Sys V E SC Ctx)} {s0 : Sys V E SC Ctx} (hs : Sessions a Q.S es s0)
    {ls : List (QSLabel V)} {y : QSys V E SC Ctx} (hu : ∀ l ∈ ls, ReportUsed a l) (hrun : qs_run Q ls (QSys.start s0) = some y)
    (hlen : y.q.client.calls.length < 2 ^ 32) (alone : NoSharedMulti y.q.client)
    {W : Type} (decode_err : Bytes → Option W) (hash : Bytes → Nty → Key)
    (iter : List Nty → List Nty) (hi : Enumerates iter) (prims : List Nty) {r : SchemaReport}
    (hres : y.q.result Q.qc decode_err hash iter prims = some (.ok (.ok r))) :
    ∀ ty, ty ∈ r.types ↔ ty ∈ prims ++ Q.S.disp.device_map.types := by
  have x : SchemasCtx a Q.S := ⟨dispatches hD, hdecl, hapart, hown, hdist⟩
  have inv := qsInv_run x (qsInv_start hs) hrun hu
  have pinv := pinv_run x (qsInv_start hs) (pinv_new _) hrun hu
  obtain ⟨m1, m2, m3⟩ := define_dispatch_map hD
  have hcount' : Countable Q.S.disp.device_map := by
    simp only [schemaMsgs, List.length_append, List.length_map] at hcount
    exact ⟨by omega, by omega, by omega⟩
  have hep := (c91_report_exact a Q hD hdecl hapart hdist hown hreads hcount' hs hu hrun hlen decode_err hash iter hi prims hres).1
  obtain ⟨c, cl, f, i, t, hc, hcl, hph, hd, he, hrep⟩ := result_parts hres
  obtain ⟨jt, hjt⟩ := inv.sch
  obtain ⟨o, _, hcp, _, p, hp, hb⟩ := response_totals x inv hjt hc hcl hph
  have hpre := hcp.begins.2
  rw [hb] at hpre
  have htot := understood_prefix (hreads.totals _) hpre hd
  have hjt1 : jt = [p] := by
    rcases asks_once x inv hlen hjt with rfl | ⟨p', rfl⟩
    · cases hp
    · rw [List.mem_singleton.mp hp]
  subst hjt1
  obtain ⟨resp, es', h1, h2, _, h3, h4, _, _, _, _, _, _, h5⟩ := report_ok hi hrep
  cases h1
  cases h2
  have h0 : p.2 = 0 := by
    have hle := hjt.few p hp
    rw [htot] at h5
    simp only [dumpTotals, BitVec.toNat_ofNat] at h5
    rw [Nat.mod_eq_of_lt (Nat.lt_of_le_of_lt hle hcount)] at h5
    exact h5
  have hcol := collected_prefix x hreads inv pinv hlen he alone hjt h0
  rw [hep] at h4
  have hne : epRows (arrived y.q.seen) ≠ [] := by
    rw [← h4]
    obtain ⟨e, he, _⟩ := hdecl.schemas
    exact List.ne_nil_of_mem he
  have hty : tyRows (arrived y.q.seen) = Q.S.disp.device_map.types := all_types hcol hne
  intro ty
  rw [h3, hty]

/-- C91 (completeness): if no send of the dump failed, the messages came promptly and the collecting task kept up, a query whose request was
answered returns the full report of the connected server. -/
theorem c91_full_report (a : App V E SC Ctx) (Q : QSysCfg V E SC Ctx) (hD : define_dispatch a = .ok Q.S.disp)
    (hdecl : Declared a Q.S.kkind) (hapart : KeysApart a Q.S)
    (hdist : ∀ r ∈ a.endpoint_list.endpoints, short (keyLen Q.S.kkind) r.resp ≠ short (keyLen Q.S.kkind) a.std.error)
    (hown : SchemasOwn a Q.S.kkind) (hreads : HostReads Q) (hcount : Countable Q.S.disp.device_map)
    {es : List (Sys V E SC Ctx)} {s0 : Sys V E SC Ctx} (hs : Sessions a Q.S es s0)
    {ls : List (QSLabel V)} {y : QSys V E SC Ctx} (hu : ∀ l ∈ ls, ReportUsed a l) (hrun : qs_run Q ls (QSys.start s0) = some y)
    (hlen : y.q.client.calls.length < 2 ^ 32) (hw : SchemasWhole Q.S y.s)
    (hk : Throughout Q.qc (fun q _ => KeepsUp Q.qc q) (queryPart ls))
    (hp : Throughout Q.qc (PromptTo Q.qc (schemaMsgs Q.S.disp.device_map).length) (queryPart ls)) (hd : DeepEnough Q.qc (queryPart ls))
    {W : Type} (decode_err : Bytes → Option W) (hash : Bytes → Nty → Key) (iter : List Nty → List Nty) (hi : Enumerates iter)
    (prims : List Nty)
    (hep : ∀ e ∈ a.endpoint_list.endpoints, (∃ ty ∈ prims ++ Q.S.disp.device_map.types, hash e.path ty = e.req) ∧
      ∃ ty ∈ prims ++ Q.S.disp.device_map.types, hash e.path ty = e.resp)
    (htp : ∀ e ∈ a.topic_in_list.topics ++ a.topic_out_list.topics, ∃ ty ∈ prims ++ Q.S.disp.device_map.types, hash e.path ty = e.key)
    (he : y.q.ended = true) {c : Nat} {cl : Call} {f : RpcFrame} {i : Nat} (hc : y.q.call = some c)
    (hcl : y.q.client.calls[c]? = some cl) (hph : cl.phase = .done (.Resp f i)) :
    FullReport Q.qc decode_err hash iter prims Q.S.disp.device_map y.q := by
  have x : SchemasCtx a Q.S := ⟨dispatches hD, hdecl, hapart, hown, hdist⟩
  have inv0 := qsInv_start (Q := Q) hs
  have inv := qsInv_run x inv0 hrun hu
  obtain ⟨m1, m2, m3⟩ := define_dispatch_map hD
  have hq := query_run x inv0.same hrun hu
  have hw1 : ∀ o ∈ y.s.outs, keyBytes o.frame.hdr.key = short (keyLen Q.S.kkind) Q.S.disp.std.schema_topic → o.cut = none :=
    fun o ho hk => hw o (List.mem_append_left _ ho) (.inl hk)
  have ho : Throughout Q.qc (fun q _ => Orderly Q.qc q) (queryPart ls) := by
    intro as bs t e hr
    obtain ⟨h1, h2⟩ := hk as bs t e hr
    refine ⟨h1, ?_, h2⟩
    obtain ⟨l1, l2, rfl, rfl⟩ := queryPart_split e
    rw [qs_run_append] at hrun
    obtain ⟨y1, hy1, hy2⟩ := Option.bind_eq_some_iff.mp hrun
    have hu1 : ∀ l ∈ l1, ReportUsed a l := fun l hl => hu l (List.mem_append_left _ hl)
    have inv1 := qsInv_run x inv0 hy1 hu1
    have := query_run x inv0.same hy1 hu1
    have ht : t = y1.q := Option.some.inj (hr.symm.trans this)
    subst ht
    exact whole_decodes x hreads inv1 fun o ho => hw1 o
      ((qs_run_outs x inv1.same hy2 fun l hl => hu l (List.mem_append_right _ hl)).subset ho)
  have hnr : y.q.refused = false := refused_call hq hc
  refine c82_report_partial hq ho hp hd hi hnr he ⟨all_arrived x hreads inv hlen hw1 hc hcl hph, ?_, by rw [m1]; exact hep, by rw [m2, m3]; exact htp⟩
  obtain ⟨jt, hjt⟩ := inv.sch
  obtain ⟨o, ho', hcp, hko, p, hpj, hb⟩ := response_totals x inv hjt hc hcl hph
  refine ⟨c, cl, f, i, dumpTotals Q.S.disp.device_map p.2, hc, hcl, hph, ?_, totals_for hcount.endpoints hcount.topics_in hcount.topics_out _, ?_⟩
  · rw [(hcp.whole (hw o (List.mem_append_left _ ho') (.inr hko))).2, hb]
    have := (hreads.totals (dumpTotals Q.S.disp.device_map p.2)).1 []
    rwa [List.append_nil] at this
  · simp [dumpTotals, hjt.whole (fun o ho h => hw o ho (by simpa [ofSchemas] using h)) p hpj]

/-- C91 (`postcard`): with the bytes of `postcard` the host reads what the device sends, whether or not the device has the standard
library and whatever the sizes of their `usize`. -/
theorem c91_postcard {Q : QSysCfg V E SC Ctx} {encV : V → Bytes} {encN : Nty → Bytes} {takeN : Dec Nty} {utf8 : Bytes → Bool} {wd wh : Nat}
    {std : Bool} (hwd : 0 < wd) (hwh : wh = 2 ∨ wh = 4 ∨ wh = 8) (henc : Q.S.enc = enc_body encV encN wd std)
    (hdec : Q.decode = from_bytes (take_owned_schema_data takeN utf8 wh)) (htot : Q.decode_totals = from_bytes take_totals)
    (hok : ∀ d ∈ schemaMsgs Q.S.disp.device_map, ItemOk utf8 wd wh (fun t => Understood (from_bytes takeN) (encN t) t) d) :
    HostReads Q := by
  refine ⟨fun d hd => ?_, fun t => ?_⟩
  · rw [hdec, henc]
    cases std
    · exact (c85_item hwd hwh (hok d hd)).1
    · exact (c85_item hwd hwh (hok d hd)).2
  · rw [htot, henc]
    exact c85_totals t

/-- C91 (interfaces of the macros): with keys made by `endpoints!` and `topics!`, and no message type that is itself `usize` or
`isize` (or a byte array whose key is not that of `Vec<u8>`), the full report is returned and knows every type a message was declared
with. -/
theorem c91_default_report (for_path : Nty → Bytes → Key) (d : StdDecls) (std : Bool) (ep : List EpDecl) (tin tout : List TpDecl)
    (a : App V E SC Ctx) (hdef : DefaultIcd for_path d std ep tin tout a) (Q : QSysCfg V E SC Ctx)
    (hD : define_dispatch a = .ok Q.S.disp) (hdecl : Declared a Q.S.kkind) (hapart : KeysApart a Q.S)
    (hdist : ∀ r ∈ a.endpoint_list.endpoints, short (keyLen Q.S.kkind) r.resp ≠ short (keyLen Q.S.kkind) a.std.error)
    (hown : SchemasOwn a Q.S.kkind) (hreads : HostReads Q) (hcount : Countable Q.S.disp.device_map)
    {es : List (Sys V E SC Ctx)} {s0 : Sys V E SC Ctx} (hs : Sessions a Q.S es s0)
    {ls : List (QSLabel V)} {y : QSys V E SC Ctx} (hu : ∀ l ∈ ls, ReportUsed a l) (hrun : qs_run Q ls (QSys.start s0) = some y)
    (hlen : y.q.client.calls.length < 2 ^ 32) (hw : SchemasWhole Q.S y.s)
    (hk : Throughout Q.qc (fun q _ => KeepsUp Q.qc q) (queryPart ls))
    (hp : Throughout Q.qc (PromptTo Q.qc (schemaMsgs Q.S.disp.device_map).length) (queryPart ls)) (hd : DeepEnough Q.qc (queryPart ls))
    {W : Type} (decode_err : Bytes → Option W) (hash : Bytes → Nty → Key) (iter : List Nty → List Nty) (hi : Enumerates iter)
    (sch : Prim → Nty) (vec_u8 : Nty) (hc : KeyContract for_path hash sch)
    (hun : ∀ ty ∈ messageTypes d std ep tin tout, ¬ Unknown hash vec_u8 ty)
    (he : y.q.ended = true) {c : Nat} {cl : Call} {f : RpcFrame} {i : Nat} (hcc : y.q.call = some c)
    (hcl : y.q.client.calls[c]? = some cl) (hph : cl.phase = .done (.Resp f i)) :
    ∃ r, y.q.result Q.qc decode_err hash iter (default_types sch vec_u8) = some (.ok (.ok r)) ∧
      r.endpoints.map (fun e => (⟨e.path, e.req_key, e.resp_key⟩ : EpRow)) = a.endpoint_list.endpoints ∧
      r.topics_in.map (fun t => (⟨t.path, t.key⟩ : TpRow)) = a.topic_in_list.topics ∧
      r.topics_out.map (fun t => (⟨t.path, t.key⟩ : TpRow)) = a.topic_out_list.topics ∧
      Resolved hash (default_types sch vec_u8 ++ Q.S.disp.device_map.types) r ∧
      ∀ ty ∈ messageTypes d std ep tin tout, ¬ IsPrim ty → ty ∈ r.types := by
  obtain ⟨m1, m2, m3, m4⟩ := hdef.device_map hD
  obtain ⟨k1, k2⟩ := hdef.known hD hc hun
  rw [m1] at k1
  rw [m2, m3] at k2
  obtain ⟨r, h1, ⟨l1, l2, l3⟩, h3, h4⟩ := c91_full_report a Q hD hdecl hapart hdist hown hreads hcount hs hu hrun hlen hw hk hp hd decode_err hash iter hi
    (default_types sch vec_u8) k1 k2 he hcc hcl hph
  exact ⟨r, h1, by rw [← m1]; exact l1, by rw [← m2]; exact l2, by rw [← m3]; exact l3, h3,
    fun ty hty hp => (h4 ty).mpr (List.mem_append_right _ (m4 ty hty hp))⟩

/-! ### An example -/

def exRepTy (b : Byte) : Nty := .mk [b] (.Struct [])

/-- The application of the examples with two types of its own. -/
def exRepApp : App Nat WireTxErrorKind Nat Nat :=
  { exPcApp with endpoint_list := { exPcApp.endpoint_list with types := [exRepTy 5, exRepTy 0x85] } }

def exRepDisp : Dispatcher Nat WireTxErrorKind Nat Nat :=
  { exPcDisp with device_map := { exPcDisp.device_map with types := [exRepTy 5, exRepTy 0x85] } }

theorem exRepApp_ok : define_dispatch exRepApp = .ok exRepDisp := by
  have h : needed_sz exRepApp.sizer = .ok 1 := by decide +kernel
  have h2 : addAll [] [exRepApp.endpoint_list.types, exRepApp.topic_in_list.types, exRepApp.topic_out_list.types].flatten =
      [exRepTy 5, exRepTy 0x85] := by
    show addAll [] [exRepTy 5, exRepTy 0x85] = _
    simp [addAll, addU, exRepTy, is_prim, Nty.ty]
  unfold define_dispatch
  rw [h]
  simp only [Exec.ok_bind, kind_of_sz, if_true, merge_types_eq, h2]
  rfl

/-- A type is written as its name, one byte. -/
def exRepEncN : Nty → Bytes
  | .mk n _ => n.take 1

def exRepTakeN : Dec Nty
  | [] => none
  | b :: rest => some (exRepTy b, rest)

def exRep : QSysCfg Nat WireTxErrorKind Nat Nat where
  S := { exPcSys with disp := exRepDisp, enc := enc_body (fun v => enc_u32 (BitVec.ofNat 32 v)) exRepEncN 4 false }
  decode := from_bytes (take_owned_schema_data exRepTakeN (fun _ => true) 8)
  decode_totals := from_bytes take_totals

theorem exRepApp_declared : Declared exRepApp .Key1 where
  ping := by decide
  schemas := by decide
  schema_topic := by decide
  names := by decide
  sends := exSysApp_declared.sends

theorem exRepApp_apart : KeysApart exRepApp exRep.S :=
  apart_of_distinct (c10_dispatcher_key_length _ _ (define_dispatch_ok exRepApp_ok).1).2.2.1

theorem exRepApp_own : SchemasOwn exRepApp .Key1 where
  sends := by
    intro t ht g hg c hdr v fr hm
    obtain ⟨r, hr, seq, b, hmsg⟩ := exSysApp_declared.sends t ht g hg c hdr v fr hm
    simp only [exRepApp, exPcApp, exSysApp, exApp, List.mem_cons, List.not_mem_nil, or_false] at ht
    rcases ht with rfl | rfl
    · cases hg
    · cases hg
      cases hm with
      | now =>
        show keyBytes (.Key1 ⟨149#8⟩) ≠ _
        decide
      | later _ _ _ _ h => cases h
  replies := by decide
  ping := by decide
  error := by decide

theorem exRep_reads : HostReads exRep :=
  c91_postcard (wd := 4) (wh := 8) (std := false) (by decide) (by decide) rfl rfl rfl fun d hd => by
    have ht : ∀ b : Byte, Understood (from_bytes exRepTakeN) (exRepEncN (exRepTy b)) (exRepTy b) := fun b =>
      ⟨fun _ => rfl, fun n hn => by
        have : n = 0 := by simp [exRepEncN, exRepTy] at hn; omega
        subst this; rfl⟩
    simp only [schemaMsgs, List.mem_append, List.mem_map] at hd
    rcases hd with ((⟨t, h, rfl⟩ | ⟨e, h, rfl⟩) | ⟨e, h, rfl⟩) | ⟨e, h, rfl⟩
    · have h : t ∈ [exRepTy 5, exRepTy 0x85] := h
      simp only [List.mem_cons, List.not_mem_nil, or_false] at h
      rcases h with rfl | rfl <;> exact ht _
    · have : e.path = [] := by revert e; decide
      simp [ItemOk, this]
    · have : e.path = [] := by revert e; decide
      simp [ItemOk, this]
    · have : e.path = [] := by revert e; decide
      simp [ItemOk, this]

/-- The query subscribes and asks; the server works on the request. -/
def exRepAsk : List (QSLabel Nat) :=
  [.query .subscribe, .query .trigger] ++ ([.call_kind 0, .call_reg_ok 0, .call_reg_err 0, .call_send 0, .out_poll, .out_recv,
    .out_done true, .out_yield, .in_poll] : List Label).map (fun l => .query (.client l)) ++ [.query .poll, .server .serve]

/-- Item `i` is sent and arrives 10 ms later. -/
def exRepItem (i : Nat) : List (QSLabel Nat) :=
  .server .flush :: List.replicate 10 (.query .tick) ++ ([.in_recv (some ([0x10, 0x90, BitVec.ofNat 8 i, 0] ++
    (((schemaMsgs exRepDisp.device_map)[i]?).map fun d => exRep.S.enc (.schema d)).getD [])), .in_lookup] : List Label).map
    (fun l => .query (.client l)) ++ [.query .poll]

/-- All items and the totals arrive. -/
def exRepRun : List (QSLabel Nat) :=
  exRepAsk ++ (List.range 13).flatMap exRepItem ++ [.server .flush] ++
  ([.in_recv (some ([0x20, 0x82, 0, 0, 0, 0] ++ enc_totals ⟨2, 5, 3, 3, 0⟩)), .in_lookup, .in_wake (some ⟨0, false⟩), .in_yield,
    .call_ok 0] : List Label).map (fun l => .query (.client l)) ++ List.replicate 100 (.query .tick) ++ [.query .poll]

/-- A type's key is its name. -/
def exRepHash (_ : Bytes) : Nty → Key
  | .mk n _ => exKey (n.headD 0#8)

/-- The types the host knows without the device. -/
def exRepPrims : List Nty := ([1, 2, 0x82, 3, 0x83, 4, 0x84, 0x90, 0x91, 0x95, 6, 7, 8] : List Byte).map exRepTy

/-- What the run ends with. -/
def exRepEnd (y : QSys Nat WireTxErrorKind Nat Nat) : Bool × Option Nat × List Phase × List (Option Nat) :=
  (y.q.ended, y.q.call, y.q.client.calls.map Call.phase, (y.s.outs ++ y.s.pending).map Out.cut)

set_option maxRecDepth 100000 in
set_option synthInstance.maxSize 1000 in
theorem exRepRun_end : (qs_run exRep exRepRun (QSys.start (Sys.new 0))).map exRepEnd =
    some (true, some 0, [.done (.Resp ⟨⟨.Key1 ⟨0x82⟩, .Seq4 0⟩, enc_totals ⟨2, 5, 3, 3, 0⟩⟩ 0)], List.replicate 14 none) := by decide +kernel

instance (l : QSLabel Nat) : Decidable (ReportUsed exRepApp l) := by
  have : ∀ l : SLabel Nat, Decidable (Used exRepApp l) := fun l => by
    cases l with
    | client l => cases l <;> simp only [Used] <;> infer_instance
    | _ => simp only [Used] <;> infer_instance
  cases l with
  | query l =>
    cases l with
    | client l => cases l <;> simp only [ReportUsed] <;> infer_instance
    | _ => simp only [ReportUsed] <;> infer_instance
  | server l => cases l <;> simp only [ReportUsed] <;> infer_instance

instance (qc : QCfg) (q : Query) : Decidable (KeepsUp qc q) :=
  decidable_of_iff ((q.ended = false → (schemaArrivals qc q).length ≤ (arrived q.seen).length + 64) ∧
      ∀ f ∈ q.client.subs.arrived, ∀ r1 ∈ q.client.subs.brxs, ∀ r2 ∈ q.client.subs.brxs,
        OfTopic r1.key f → OfTopic r2.key f → r1.key = r2.key)
    ⟨fun ⟨a, b⟩ => ⟨a, b⟩, fun ⟨a, b⟩ => ⟨a, b⟩⟩

set_option maxRecDepth 100000 in
theorem exRepRun_ok : (∀ l ∈ exRepRun, ReportUsed exRepApp l) ∧ Throughout exRep.qc (fun q _ => KeepsUp exRep.qc q) (queryPart exRepRun) ∧
    Throughout exRep.qc (PromptTo exRep.qc (schemaMsgs exRep.S.disp.device_map).length) (queryPart exRepRun) ∧
    DeepEnough exRep.qc (queryPart exRepRun) :=
  ⟨by decide +kernel, throughout_of (by decide +kernel), throughout_of (by decide +kernel), deepEnough_of (by decide +kernel)⟩

theorem exRep_keys : (∀ e ∈ exRepApp.endpoint_list.endpoints, (∃ ty ∈ exRepPrims ++ exRep.S.disp.device_map.types, exRepHash e.path ty = e.req) ∧
      ∃ ty ∈ exRepPrims ++ exRep.S.disp.device_map.types, exRepHash e.path ty = e.resp) ∧
    ∀ e ∈ exRepApp.topic_in_list.topics ++ exRepApp.topic_out_list.topics,
      ∃ ty ∈ exRepPrims ++ exRep.S.disp.device_map.types, exRepHash e.path ty = e.key := by decide +kernel

/-- The theorems apply to the run, and the report is there. -/
example : define_dispatch exRepApp = .ok exRep.S.disp ∧ Declared exRepApp exRep.S.kkind ∧ KeysApart exRepApp exRep.S ∧
    (∀ r ∈ exRepApp.endpoint_list.endpoints, short (keyLen exRep.S.kkind) r.resp ≠ short (keyLen exRep.S.kkind) exRepApp.std.error) ∧
    SchemasOwn exRepApp exRep.S.kkind ∧ HostReads exRep ∧ Countable exRep.S.disp.device_map ∧
    (schemaMsgs exRep.S.disp.device_map).length < 2 ^ 32 ∧ (∀ l ∈ exRepRun, ReportUsed exRepApp l) ∧
    Throughout exRep.qc (fun q _ => KeepsUp exRep.qc q) (queryPart exRepRun) ∧
    Throughout exRep.qc (PromptTo exRep.qc (schemaMsgs exRep.S.disp.device_map).length) (queryPart exRepRun) ∧
    DeepEnough exRep.qc (queryPart exRepRun) ∧ ∃ y cl f i, qs_run exRep exRepRun (QSys.start (Sys.new 0)) = some y ∧
      y.q.client.calls.length < 2 ^ 32 ∧ SchemasWhole exRep.S y.s ∧ NoSharedMulti y.q.client ∧ y.q.ended = true ∧ y.q.call = some 0 ∧
      y.q.client.calls[0]? = some cl ∧ cl.phase = .done (.Resp f i) ∧
      FullReport (W := Unit) exRep.qc (fun _ => none) exRepHash id exRepPrims exRep.S.disp.device_map y.q := by
  have hdist : ∀ r ∈ exRepApp.endpoint_list.endpoints,
      short (keyLen exRep.S.kkind) r.resp ≠ short (keyLen exRep.S.kkind) exRepApp.std.error := by decide
  have hcount : Countable exRep.S.disp.device_map := ⟨by decide, by decide, by decide⟩
  obtain ⟨u, k, p, d⟩ := exRepRun_ok
  refine ⟨exRepApp_ok, exRepApp_declared, exRepApp_apart, hdist, exRepApp_own, exRep_reads, hcount,
    (by decide), u, k, p, d, ?_⟩
  obtain ⟨y, e1, e2⟩ := Option.map_eq_some_iff.mp exRepRun_end
  simp only [exRepEnd, Prod.mk.injEq] at e2
  obtain ⟨a, b, c, w⟩ := e2
  cases hc : y.q.client.calls with
  | nil => rw [hc] at c; cases c
  | cons cl cs =>
    rw [hc] at c
    simp only [List.map_cons, List.cons.injEq, List.map_eq_nil_iff] at c
    have hl : y.q.client.calls.length < 2 ^ 32 := by rw [hc, c.2]; exact Nat.le_of_ble_eq_true rfl
    have hw : SchemasWhole exRep.S y.s := fun o ho _ => by
      have : o.cut ∈ (y.s.outs ++ y.s.pending).map Out.cut := List.mem_map_of_mem ho
      rw [w] at this
      exact (List.mem_replicate.mp this).2
    have hq := query_run ⟨dispatches exRepApp_ok, exRepApp_declared, exRepApp_apart, exRepApp_own, hdist⟩
      (qsInv_start (a := exRepApp) (Q := exRep) (.first 0)).same e1 u
    refine ⟨y, cl, _, _, e1, hl, hw, (k _ [] _ (List.append_nil _).symm hq).alone, a, b, (by rw [hc]; rfl), c.1, ?_⟩
    exact c91_full_report exRepApp exRep exRepApp_ok exRepApp_declared exRepApp_apart hdist exRepApp_own exRep_reads hcount (.first 0) u e1 hl hw
      k p d _ _ _ (fun _ _ => Iff.rfl) _ exRep_keys.1 exRep_keys.2 a b (by rw [hc]; rfl) c.1

end PRpc.Props
