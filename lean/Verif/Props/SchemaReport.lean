import Verif.Lemmas.SchemaReport
import Verif.Props.Server
/-!
Property theorems C20: the schema report obtained by the host.
-/

namespace PRpc.Props
open PRpc PRpc.Spec

variable {CE : Type}

/-- C20 as stated: whatever part of the schema data published by the device (for this request or another one) is
collected, a report is exact. -/
def C20Full : Prop :=
  ∀ (hash : Bytes → Nty → Key) (iter : List Nty → List Nty) (prims : List Nty) (m : DeviceMap) (t : SchemaTotals)
    (dumps : Nat) (es : List Collected) (r : SchemaReport), Enumerates iter → TotalsFor m t →
    (arrived es).Sublist (List.replicate dumps (schemaMsgs m)).flatten →
    get_schema_report () hash iter prims true (.ok t) (some es) = .ok (.ok r) → ListsAll m r

/-- C20, what holds: when the data collected were published for this request alone (data in any pattern of loss), a
report lists exactly the device's endpoints and topics, and every type in it belongs to its key.  Missing: data of a
second request arriving at the same time. -/
theorem c20_report_exact_partial (closed : CE) (hash : Bytes → Nty → Key) (iter : List Nty → List Nty)
    (hi : Enumerates iter) (prims : List Nty) (sub : Bool) (trigger : Except CE SchemaTotals)
    (task : Option (List Collected)) (m : DeviceMap) (ht : ∀ t, trigger = .ok t → TotalsFor m t)
    (hd : ∀ es, task = some es → (arrived es).Sublist (schemaMsgs m)) (r : SchemaReport)
    (h : get_schema_report closed hash iter prims sub trigger task = .ok (.ok r)) :
    ListsAll m r ∧ Resolved hash (prims ++ m.types) r := by
  obtain ⟨resp, es, h1, h2, _, _, h4, h5, h6, h7, h8, h9, h10, _⟩ := report_ok hi h
  obtain ⟨t1, t2, t3⟩ := ht resp h1
  obtain ⟨s1, s2, s3, s4⟩ := rows_sublist (hd es h2)
  obtain ⟨m1, m2, m3, m4⟩ := rows_schemaMsgs m
  rw [m1] at s1; rw [m2] at s2; rw [m3] at s3; rw [m4] at s4
  refine ⟨⟨?_, ?_, ?_⟩, ⟨?_, ?_⟩⟩
  · rw [h4]; exact s1.eq_of_length (by omega)
  · rw [h5]; exact s2.eq_of_length (by omega)
  · rw [h6]; exact s3.eq_of_length (by omega)
  · intro e he
    obtain ⟨a, b, c, d⟩ := h7.1 e he
    have sub : ∀ x, x ∈ prims ++ tyRows (arrived es) → x ∈ prims ++ m.types := fun x hx =>
      (List.mem_append.mp hx).elim (fun h => List.mem_append_left _ h)
        (fun h => List.mem_append_right _ (s4.subset h))
    exact ⟨sub _ a, b, sub _ c, d⟩
  · intro e he
    obtain ⟨a, b⟩ := h7.2 e he
    exact ⟨(List.mem_append.mp a).elim (fun h => List.mem_append_left _ h)
      (fun h => List.mem_append_right _ (s4.subset h)), b⟩

/-- A small device: one type, one endpoint, hashing by path. -/
def exTy : Nty := .mk [84#8] .UnitStruct
/-- Another type. -/
def exTy2 : Nty := .mk [85#8] .UnitStruct
/-- A toy hash: first bytes of path and of type name. -/
def exHash (p : Bytes) (t : Nty) : Key := ⟨p.headD 0, t.name.headD 0, 0, 0, 0, 0, 0, 0⟩
/-- Its map. -/
def exMap : DeviceMap := ⟨[exTy, exTy2], [⟨[1#8], exHash [1#8] exTy, exHash [1#8] exTy⟩, ⟨[2#8], exHash [2#8] exTy,
  exHash [2#8] exTy⟩], [], [⟨[3#8], exHash [3#8] exTy⟩], .Key1⟩

/-- Its totals. -/
def exTotals : SchemaTotals := ⟨2, 2, 0, 1, 0⟩

theorem exTotals_for : TotalsFor exMap exTotals := ⟨rfl, rfl, rfl⟩

example : ∃ r, get_schema_report () exHash List.reverse [exTy2] true (.ok exTotals)
    (some ((schemaMsgs exMap).map .msg ++ [.rx_err])) = .ok (.ok r) ∧ r.topics_out.length = 1 := ⟨_, rfl, rfl⟩

theorem arrived_msgs (ds : List SchemaData) : arrived (ds.map .msg) = ds := by
  induction ds with
  | nil => rfl
  | cons d ds ih => rw [← collect_arrived] at *; simp [collect, ih]

/-- C20 (nothing lost): with all messages collected, no errors counted by the device, and all keys belonging to types in
its list (or primitive ones), the report is given. -/
theorem c20_lossless_report (closed : CE) (hash : Bytes → Nty → Key) (iter : List Nty → List Nty) (hi : Enumerates iter)
    (prims : List Nty) (m : DeviceMap) (t : SchemaTotals) (ht : TotalsFor m t) (he : t.errors = 0)
    (es : List Collected) (hd : arrived es = schemaMsgs m)
    (hep : ∀ e ∈ m.endpoints, (∃ ty ∈ prims ++ m.types, hash e.path ty = e.req) ∧
      ∃ ty ∈ prims ++ m.types, hash e.path ty = e.resp)
    (htp : ∀ e ∈ m.topics_in ++ m.topics_out, ∃ ty ∈ prims ++ m.types, hash e.path ty = e.key) :
    ∃ r, get_schema_report closed hash iter prims true (.ok t) (some es) = .ok (.ok r) ∧ ListsAll m r ∧
      Resolved hash (prims ++ m.types) r ∧ ∀ ty, ty ∈ r.types ↔ ty ∈ prims ++ m.types := by
  obtain ⟨m1, m2, m3, m4⟩ := rows_schemaMsgs m
  obtain ⟨r, hr⟩ := add_all_resolves hi ((schemaMsgs m).filter notTy) ⟨prims ++ m.types, [], [], []⟩
    (fun d hd => (List.mem_filter.mp hd).2) (by
      intro d hd
      have hd := (List.mem_filter.mp hd).1
      simp only [schemaMsgs, List.mem_append, List.mem_map] at hd
      rcases hd with ((⟨x, hx, rfl⟩ | ⟨x, hx, rfl⟩) | ⟨x, hx, rfl⟩) | ⟨x, hx, rfl⟩
      · trivial
      · exact hep x hx
      · exact htp x (List.mem_append_right _ hx)
      · exact htp x (List.mem_append_left _ hx))
  obtain ⟨a, b, c, d, e⟩ := add_all_spec hi _ _ _ hr
  obtain ⟨f1, f2, f3⟩ := rows_filter (schemaMsgs m)
  simp only [List.map_nil, List.nil_append, f1, f2, f3, m1, m2, m3] at b c d
  have l1 := congrArg List.length b
  have l2 := congrArg List.length c
  have l3 := congrArg List.length d
  rw [List.length_map] at l1 l2 l3
  refine ⟨r, ?_, ⟨b, c, d⟩, e ⟨by simp, by simp⟩, fun ty => by rw [a]⟩
  have hm : data_matches t r = true := by
    simp [data_matches, ht.endpoints, ht.topics_in, ht.topics_out, he, l1, l2, l3]
  simp only [get_schema_report, Bool.not_true, Bool.false_eq_true, if_false, hd, sort_data_eq, collect_arrived, SchemaReport.default, m4,
    List.nil_append, hr, Exec.ok_bind, hm, if_true]

example : ∃ r, get_schema_report () exHash id [] true (.ok exTotals) (some ((schemaMsgs exMap).map .msg ++ [.timeout])) =
    .ok (.ok r) ∧ r.endpoints.length = 2 := ⟨_, rfl, rfl⟩

/-- C20 (loss): an endpoint or topic entry that was not collected, for whatever reason, or a failure counted by the
device, makes the call fail; and it never panics. -/
theorem c20_loss_refused (closed : CE) (hash : Bytes → Nty → Key) (iter : List Nty → List Nty) (hi : Enumerates iter)
    (prims : List Nty) (sub : Bool) (m : DeviceMap) (t : SchemaTotals) (ht : TotalsFor m t) (es : List Collected)
    (hd : (arrived es).Sublist (schemaMsgs m)) (d : SchemaData) (hm : d ∈ schemaMsgs m)
    (hlost : (∀ ty, d ≠ .Type ty) ∧ d ∉ arrived es ∨ t.errors ≠ 0) :
    ∃ e, get_schema_report closed hash iter prims sub (.ok t) (some es) = .ok (.error e) ∧
      (sub = true → e = .LostData ∨ e = .InvalidReportData) := by
  cases sub with
  | false => exact ⟨_, rfl, by simp⟩
  | true =>
    obtain ⟨o, ho⟩ := add_all_total (hash := hash) (iter := iter) ((arrived es).filter notTy)
      (fun d hd => (List.mem_filter.mp hd).2) ⟨prims ++ tyRows (arrived es), [], [], []⟩
    cases hres : get_schema_report closed hash iter prims true (.ok t) (some es) with
    | panic =>
      exfalso
      revert hres
      simp only [get_schema_report, Bool.not_true, Bool.false_eq_true, if_false, sort_data_eq, collect_arrived, SchemaReport.default,
        List.nil_append, ho, Exec.ok_bind]
      cases o with
      | none => simp
      | some r => simp only; split <;> simp
    | ok x =>
      cases x with
      | ok r =>
        exfalso
        obtain ⟨l1, _⟩ := c20_report_exact_partial closed hash iter hi prims true (.ok t) (some es) m
          (fun t' h => by cases h; exact ht) (fun es' h => by cases h; exact hd) r hres
        obtain ⟨_, _, h1, h2, _, _, h4, h5, h6, _, _, _, _, h11⟩ := report_ok hi hres
        cases h1; cases h2
        rcases hlost with ⟨hnt, hlost⟩ | hlost
        · apply hlost
          rw [l1.endpoints] at h4
          rw [l1.topics_in] at h5
          rw [l1.topics_out] at h6
          simp only [schemaMsgs, List.mem_append, List.mem_map] at hm
          rcases hm with ((⟨x, hx, rfl⟩ | ⟨x, hx, rfl⟩) | ⟨x, hx, rfl⟩) | ⟨x, hx, rfl⟩
          · exact absurd rfl (hnt x)
          · rw [h4] at hx
            simp only [epRows, List.mem_filterMap] at hx
            obtain ⟨d, hd, he⟩ := hx
            split at he
            · cases he; exact hd
            · cases he
          · rw [h6] at hx
            simp only [outRows, List.mem_filterMap] at hx
            obtain ⟨d, hd, he⟩ := hx
            split at he
            · cases he; exact hd
            · cases he
          · rw [h5] at hx
            simp only [inRows, List.mem_filterMap] at hx
            obtain ⟨d, hd, he⟩ := hx
            split at he
            · cases he; exact hd
            · cases he
        · exact hlost (BitVec.eq_of_toNat_eq h11)
      | error e =>
        refine ⟨e, rfl, fun _ => ?_⟩
        revert hres
        simp only [get_schema_report, Bool.not_true, Bool.false_eq_true, if_false, sort_data_eq, collect_arrived, SchemaReport.default,
          List.nil_append, ho, Exec.ok_bind]
        cases o with
        | none => intro h; cases h; exact .inr rfl
        | some r => simp only; split <;> intro h <;> cases h; exact .inl rfl

example : get_schema_report () exHash id [] true (.ok exTotals) (some ((schemaMsgs exMap).dropLast.map .msg)) =
    .ok (.error .LostData) := rfl

/-- C20 (types): if no two known types share the key of an entry, the report gives each entry the type the device used. -/
theorem c20_types_right (closed : CE) (hash : Bytes → Nty → Key) (iter : List Nty → List Nty)
    (hi : Enumerates iter) (prims : List Nty) (sub : Bool) (trigger : Except CE SchemaTotals)
    (task : Option (List Collected)) (m : DeviceMap) (ht : ∀ t, trigger = .ok t → TotalsFor m t)
    (hd : ∀ es, task = some es → (arrived es).Sublist (schemaMsgs m)) (r : SchemaReport)
    (h : get_schema_report closed hash iter prims sub trigger task = .ok (.ok r))
    (used : List Nty) (hinj : ∀ p, ∀ a ∈ used, ∀ b ∈ prims ++ m.types, hash p a = hash p b → a = b) :
    (∀ (i : Nat) (e : EpRow) (x : EndpointReport), m.endpoints[i]? = some e → r.endpoints[i]? = some x →
      ∀ a ∈ used, (hash e.path a = e.req → x.req_ty = a) ∧ (hash e.path a = e.resp → x.resp_ty = a)) ∧
    (∀ (i : Nat) (e : TpRow) (x : TopicReport), (m.topics_in[i]? = some e ∧ r.topics_in[i]? = some x ∨
      m.topics_out[i]? = some e ∧ r.topics_out[i]? = some x) → ∀ a ∈ used, hash e.path a = e.key → x.ty = a) := by
  obtain ⟨l1, l2⟩ := c20_report_exact_partial closed hash iter hi prims sub trigger task m ht hd r h
  refine ⟨?_, ?_⟩
  · intro i e x h1 h2 a ha
    rw [← l1.endpoints, List.getElem?_map, h2] at h1
    cases h1
    obtain ⟨u1, u2, u3, u4⟩ := l2.endpoints x (List.mem_of_getElem? h2)
    exact ⟨fun hq => (hinj _ a ha _ u1 (hq.trans u2.symm)).symm, fun hq => (hinj _ a ha _ u3 (hq.trans u4.symm)).symm⟩
  · intro i e x h12 a ha hq
    rcases h12 with ⟨h1, h2⟩ | ⟨h1, h2⟩
    · rw [← l1.topics_in, List.getElem?_map, h2] at h1
      cases h1
      obtain ⟨u1, u2⟩ := l2.topics x (List.mem_append_left _ (List.mem_of_getElem? h2))
      exact (hinj _ a ha _ u1 (hq.trans u2.symm)).symm
    · rw [← l1.topics_out, List.getElem?_map, h2] at h1
      cases h1
      obtain ⟨u1, u2⟩ := l2.topics x (List.mem_append_right _ (List.mem_of_getElem? h2))
      exact (hinj _ a ha _ u1 (hq.trans u2.symm)).symm

example : ∀ p, ∀ a ∈ [exTy], ∀ b ∈ [] ++ exMap.types, exHash p a = exHash p b → a = b := by
  intro p a ha b hb h
  simp only [List.mem_singleton] at ha
  subst ha
  simp only [exMap, List.nil_append, List.mem_cons, List.not_mem_nil, or_false] at hb
  rcases hb with rfl | rfl
  · rfl
  · simp [exHash, exTy, exTy2, Nty.name] at h

/-- C20 is false as stated: when the data of an earlier request are still coming in, an entry lost from this request can
be made up in number by a repeated one, and the report lists one endpoint twice and another not at all. -/
theorem c20_report_exact_false : ¬ C20Full := by
  intro h
  let es : List Collected := [.msg (.Type exTy), .msg (.Endpoint [2#8] (exHash [2#8] exTy) (exHash [2#8] exTy)),
    .msg (.Endpoint [2#8] (exHash [2#8] exTy) (exHash [2#8] exTy)), .msg (.Topic [3#8] (exHash [3#8] exTy) .ToClient)]
  have hsub : (arrived es).Sublist (List.replicate 2 (schemaMsgs exMap)).flatten := by
    simp only [es, ← collect_arrived, collect, schemaMsgs, exMap, List.map_cons, List.map_nil, List.cons_append, List.nil_append,
      List.append_nil, List.replicate, List.flatten_cons, List.flatten_nil]
    refine .cons₂ _ (.cons _ (.cons _ (.cons₂ _ (.cons _ (.cons _ (.cons _ (.cons _ (.cons₂ _ (.cons₂ _ .slnil)))))))))
  obtain ⟨r, hr, hr2⟩ : ∃ r, get_schema_report () exHash id [] true (.ok exTotals) (some es) = .ok (.ok r) ∧
      r.endpoints.map (fun e => e.path) = [[2#8], [2#8]] := ⟨_, rfl, rfl⟩
  have := (h exHash id [] exMap exTotals 2 es r (fun _ _ => Iff.rfl) exTotals_for hsub hr).endpoints
  have e2 := congrArg (List.map EpRow.path) this
  rw [List.map_map] at e2
  have : r.endpoints.map (fun e => e.path) = [[1#8], [2#8]] := e2
  rw [hr2] at this
  revert this
  decide

/-- A companion observation: a type message that no entry needs directly can be lost without notice (the number of types
is sent by the device but not compared). -/
theorem c20_type_loss_unnoticed : ∃ (es : List Collected) (r : SchemaReport),
    (arrived es).Sublist (schemaMsgs exMap) ∧ TotalsFor exMap exTotals ∧
    get_schema_report () exHash id [] true (.ok exTotals) (some es) = .ok (.ok r) ∧ exTy2 ∈ exMap.types ∧
      r.types = [exTy] := by
  refine ⟨[.msg (.Type exTy), .msg (.Endpoint [1#8] (exHash [1#8] exTy) (exHash [1#8] exTy)),
    .msg (.Endpoint [2#8] (exHash [2#8] exTy) (exHash [2#8] exTy)), .msg (.Topic [3#8] (exHash [3#8] exTy) .ToClient)],
    _, ?_, exTotals_for, rfl, by simp [exMap], rfl⟩
  simp only [← collect_arrived, collect, schemaMsgs, exMap, List.map_cons, List.map_nil, List.cons_append, List.nil_append, List.append_nil]
  exact .cons₂ _ (.cons _ (.cons₂ _ (.cons₂ _ (.cons₂ _ .slnil))))

section
variable {V E SC Ctx : Type}

/-- The schema messages among frames. -/
def schemaBodies (fs : List (Frame V)) : List SchemaData :=
  fs.filterMap fun f => match f.body with | .schema d => some d | _ => none

/-- C20 with C19 (device and host together): a device with at most 65535 entries serves the schema query; whatever part
of what it published the host collects, a report made with the totals it replied lists exactly the device's endpoints and
topics, and one is given only if no publication failed. -/
theorem c20_with_device (env : Env V E SC) (D : Dispatcher V E SC Ctx) (kkind : VarKeyKind) (hdr : VarHeader)
    (body : Bytes) (s : St V E SC Ctx) (hl : Spec.LongEnough D hdr)
    (hp : Spec.rxShort D hdr ≠ Spec.short (Spec.keyLen D.n) D.std.ping_req)
    (hq : Spec.rxShort D hdr = Spec.short (Spec.keyLen D.n) D.std.schemas_req)
    (hlen : (Spec.schemaMsgs D.device_map).length ≤ 65535) (hash : Bytes → Nty → Key) (iter : List Nty → List Nty)
    (hi : Enumerates iter) (prims : List Nty) :
    ∃ ev last t res, handle env D kkind hdr body s =
        .ok (res, ⟨s.ctx, s.log ++ ev ++ [.sent .dispatcher last res]⟩) ∧ last.body = .totals t ∧
      ∀ (closed : CE) (es : List Collected) (r : SchemaReport),
        (arrived es).Sublist (schemaBodies (Spec.frames ev)) →
        get_schema_report closed hash iter prims true (.ok t) (some es) = .ok (.ok r) →
        ListsAll D.device_map r ∧ Resolved hash (prims ++ D.device_map.types) r ∧ Spec.failures ev = 0 := by
  obtain ⟨ev, last, t, h1, h2, _, h4, h5, _, h7, h8, h9, h10⟩ := c19_schema_dump env D kkind hdr body s hl hp hq hlen
  refine ⟨ev, last, t, _, h2, h1.body, ?_⟩
  intro closed es r hsub hr
  have hb : schemaBodies (Spec.frames ev) = schemaMsgs D.device_map := by
    have : (Spec.frames ev).map Frame.body = (schemaMsgs D.device_map).map .schema := by
      apply List.ext_getElem?
      intro i
      rw [List.getElem?_map, List.getElem?_map]
      by_cases hi : i < (schemaMsgs D.device_map).length
      · obtain ⟨f, hf, _, _, hm⟩ := h5 i hi
        rw [hf, List.getElem?_eq_getElem hi, Option.map_some, Option.map_some, hm.body]
      · rw [List.getElem?_eq_none (by omega), List.getElem?_eq_none (by omega)]
        rfl
    have h' : schemaBodies (Spec.frames ev) =
        ((Spec.frames ev).map Frame.body).filterMap fun b => match b with | .schema d => some d | _ => none := by
      rw [List.filterMap_map]; rfl
    rw [h', this, List.filterMap_map]
    simp [Function.comp_def]
  rw [hb] at hsub
  obtain ⟨a, b⟩ := c20_report_exact_partial closed hash iter hi prims true (.ok t) (some es) D.device_map
    (fun t' h => by cases h; exact ⟨h7, h8, h9⟩) (fun es' h => by cases h; exact hsub) r hr
  obtain ⟨_, _, h1, _, _, _, _, _, _, _, _, _, _, h11⟩ := report_ok hi hr
  cases h1
  exact ⟨a, b, by omega⟩

example : Spec.LongEnough exDisp ⟨.Key1 ⟨2#8⟩, .Seq1 5#8⟩ ∧ Enumerates List.reverse := by
  refine ⟨by unfold Spec.LongEnough; decide, fun l t => by simp⟩

end

end PRpc.Props
