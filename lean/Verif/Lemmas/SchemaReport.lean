import Verif.Spec.SchemaReport
/-! Helper lemmas for the schema report. -/

namespace PRpc
open Spec

/-- The entry is not a type. -/
def notTy : SchemaData → Bool
  | .Type _ => false
  | .Endpoint .. => true
  | .Topic .. => true

theorem sort_data_eq (ds : List SchemaData) : ∀ (r : SchemaReport) (et : List SchemaData),
    sort_data ds r et = ({ r with types := r.types ++ tyRows ds }, et ++ ds.filter notTy) := by
  induction ds with
  | nil => intro r et; simp [sort_data, tyRows]
  | cons d ds ih =>
    intro r et
    cases d with
    | «Type» t => simp [sort_data, ih, tyRows, notTy, SchemaReport.add_type]
    | Endpoint p q s => simp [sort_data, ih, tyRows, notTy, List.filter_cons]
    | Topic p k d => simp [sort_data, ih, tyRows, notTy, List.filter_cons]

theorem find_ty_some {hash : Bytes → Nty → Key} {iter : List Nty → List Nty} (hi : Enumerates iter) {types : List Nty}
    {p : Bytes} {k : Key} {t : Nty} (h : find_ty hash iter types p k = some t) : t ∈ types ∧ hash p t = k := by
  refine ⟨(hi _ _).mp (List.mem_of_find?_eq_some h), ?_⟩
  have := List.find?_some h
  simpa using this

theorem find_ty_ex {hash : Bytes → Nty → Key} {iter : List Nty → List Nty} (hi : Enumerates iter) {types : List Nty}
    {p : Bytes} {k : Key} {t : Nty} (ht : t ∈ types) (h : hash p t = k) : ∃ t', find_ty hash iter types p k = some t' := by
  have : (find_ty hash iter types p k).isSome := by
    rw [find_ty, List.find?_isSome]
    exact ⟨t, (hi _ _).mpr ht, by simp [h]⟩
  exact Option.isSome_iff_exists.mp this

/-- Everything known about a report in the making. -/
structure AddSpec (hash : Bytes → Nty → Key) (ds : List SchemaData) (r r' : SchemaReport) : Prop where
  types : r'.types = r.types
  eps : r'.endpoints.map (fun e => (⟨e.path, e.req_key, e.resp_key⟩ : EpRow)) =
    r.endpoints.map (fun e => (⟨e.path, e.req_key, e.resp_key⟩ : EpRow)) ++ epRows ds
  tin : r'.topics_in.map (fun t => (⟨t.path, t.key⟩ : TpRow)) =
    r.topics_in.map (fun t => (⟨t.path, t.key⟩ : TpRow)) ++ inRows ds
  tout : r'.topics_out.map (fun t => (⟨t.path, t.key⟩ : TpRow)) =
    r.topics_out.map (fun t => (⟨t.path, t.key⟩ : TpRow)) ++ outRows ds
  res : Resolved hash r.types r → Resolved hash r.types r'

theorem add_all_spec {hash : Bytes → Nty → Key} {iter : List Nty → List Nty} (hi : Enumerates iter)
    (ds : List SchemaData) : ∀ (r r' : SchemaReport), add_all hash iter ds r = .ok (some r') →
    AddSpec hash ds r r' := by
  induction ds with
  | nil =>
    intro r r' h
    simp only [add_all, Exec.ok.injEq, Option.some.injEq] at h
    subst h
    exact ⟨rfl, by simp [epRows], by simp [inRows], by simp [outRows], id⟩
  | cons d ds ih =>
    intro r r' h
    cases d with
    | «Type» t => simp [add_all] at h
    | Endpoint p q s =>
      simp only [add_all, SchemaReport.add_endpoint] at h
      cases h1 : find_ty hash iter r.types p q with
      | none => simp [h1] at h
      | some tq =>
        cases h2 : find_ty hash iter r.types p s with
        | none => simp [h1, h2] at h
        | some ts =>
          simp only [h1, h2] at h
          obtain ⟨a, b, c, d, e⟩ := ih _ _ h
          refine ⟨a, ?_, ?_, ?_, ?_⟩
          · rw [b]; simp [epRows]
          · rw [c]; simp [inRows]
          · rw [d]; simp [outRows]
          · intro hr
            refine e ⟨?_, hr.2⟩
            intro x hx
            simp only [List.mem_append, List.mem_singleton] at hx
            rcases hx with hx | rfl
            · exact hr.1 x hx
            · obtain ⟨u1, u2⟩ := find_ty_some hi h1
              obtain ⟨u3, u4⟩ := find_ty_some hi h2
              exact ⟨u1, u2, u3, u4⟩
    | Topic p k dir =>
      cases dir with
      | ToServer =>
        simp only [add_all, SchemaReport.add_topic_in] at h
        cases h1 : find_ty hash iter r.types p k with
        | none => simp [h1] at h
        | some tq =>
          simp only [h1] at h
          obtain ⟨a, b, c, d, e⟩ := ih _ _ h
          refine ⟨a, ?_, ?_, ?_, ?_⟩
          · rw [b]; simp [epRows]
          · rw [c]; simp [inRows]
          · rw [d]; simp [outRows]
          · intro hr
            refine e ⟨hr.1, ?_⟩
            intro x hx
            simp only [List.mem_append, List.mem_singleton] at hx
            rcases hx with (hx | rfl) | hx
            · exact hr.2 x (by simp [hx])
            · exact find_ty_some hi h1
            · exact hr.2 x (by simp [hx])
      | ToClient =>
        simp only [add_all, SchemaReport.add_topic_out] at h
        cases h1 : find_ty hash iter r.types p k with
        | none => simp [h1] at h
        | some tq =>
          simp only [h1] at h
          obtain ⟨a, b, c, d, e⟩ := ih _ _ h
          refine ⟨a, ?_, ?_, ?_, ?_⟩
          · rw [b]; simp [epRows]
          · rw [c]; simp [inRows]
          · rw [d]; simp [outRows]
          · intro hr
            refine e ⟨hr.1, ?_⟩
            intro x hx
            simp only [List.mem_append, List.mem_singleton] at hx
            rcases hx with hx | hx | rfl
            · exact hr.2 x (by simp [hx])
            · exact hr.2 x (by simp [hx])
            · exact find_ty_some hi h1

theorem add_all_total {hash : Bytes → Nty → Key} {iter : List Nty → List Nty} (ds : List SchemaData)
    (hn : ∀ d ∈ ds, notTy d = true) : ∀ r, ∃ o, add_all hash iter ds r = .ok o := by
  induction ds with
  | nil => intro r; exact ⟨_, rfl⟩
  | cons d ds ih =>
    intro r
    have ih := ih fun x hx => hn x (List.mem_cons_of_mem _ hx)
    cases d with
    | «Type» t => simpa [notTy] using hn (.Type t) (by simp)
    | Endpoint p q s =>
      simp only [add_all]
      split
      · exact ⟨_, rfl⟩
      · exact ih _
    | Topic p k dir =>
      cases dir <;> simp only [add_all] <;> split
      · exact ⟨_, rfl⟩
      · exact ih _
      · exact ⟨_, rfl⟩
      · exact ih _

/-- Every key among the messages has its type. -/
def Resolvable (hash : Bytes → Nty → Key) (types : List Nty) : SchemaData → Prop
  | .Type _ => True
  | .Endpoint p q s => (∃ t ∈ types, hash p t = q) ∧ ∃ t ∈ types, hash p t = s
  | .Topic p k _ => ∃ t ∈ types, hash p t = k

theorem add_all_resolves {hash : Bytes → Nty → Key} {iter : List Nty → List Nty} (hi : Enumerates iter)
    (ds : List SchemaData) : ∀ (r : SchemaReport), (∀ d ∈ ds, notTy d = true) → (∀ d ∈ ds, Resolvable hash r.types d) →
    ∃ r', add_all hash iter ds r = .ok (some r') := by
  induction ds with
  | nil => intro r _ _; exact ⟨_, rfl⟩
  | cons d ds ih =>
    intro r hn hr
    have hn' : ∀ x ∈ ds, notTy x = true := fun x hx => hn x (List.mem_cons_of_mem _ hx)
    have hr' : ∀ x ∈ ds, Resolvable hash r.types x := fun x hx => hr x (List.mem_cons_of_mem _ hx)
    have hd := hr d (by simp)
    cases d with
    | «Type» t => simpa [notTy] using hn (.Type t) (by simp)
    | Endpoint p q s =>
      obtain ⟨⟨t, h1, h2⟩, t', h3, h4⟩ := hd
      obtain ⟨u, hu⟩ := find_ty_ex hi h1 h2
      obtain ⟨u', hu'⟩ := find_ty_ex hi h3 h4
      simp only [add_all, SchemaReport.add_endpoint, hu, hu']
      exact ih _ hn' hr'
    | Topic p k dir =>
      obtain ⟨t, h1, h2⟩ := hd
      obtain ⟨u, hu⟩ := find_ty_ex hi h1 h2
      cases dir <;> simp only [add_all, SchemaReport.add_topic_in, SchemaReport.add_topic_out, hu] <;> exact ih _ hn' hr'

theorem rows_filter (ds : List SchemaData) : epRows (ds.filter notTy) = epRows ds ∧ inRows (ds.filter notTy) = inRows ds ∧
    outRows (ds.filter notTy) = outRows ds := by
  induction ds with
  | nil => simp
  | cons d ds ih =>
    obtain ⟨a, b, c⟩ := ih
    simp only [epRows, inRows, outRows] at a b c ⊢
    cases d with
    | «Type» t => simp [notTy, List.filter_cons, a, b, c]
    | Endpoint p q s => simp [notTy, List.filter_cons, a, b, c]
    | Topic p k dir => cases dir <;> simp [notTy, List.filter_cons, a, b, c]

theorem filterMap_none {α β : Type} (l : List α) : List.filterMap (fun _ => (none : Option β)) l = [] := by
  induction l <;> simp_all

theorem rows_schemaMsgs (m : DeviceMap) : epRows (schemaMsgs m) = m.endpoints ∧ inRows (schemaMsgs m) = m.topics_in ∧
    outRows (schemaMsgs m) = m.topics_out ∧ tyRows (schemaMsgs m) = m.types := by
  refine ⟨?_, ?_, ?_, ?_⟩ <;>
    simp [epRows, inRows, outRows, tyRows, schemaMsgs, List.filterMap_map, Function.comp_def, filterMap_none]

theorem rows_sublist {a b : List SchemaData} (h : a.Sublist b) : (epRows a).Sublist (epRows b) ∧
    (inRows a).Sublist (inRows b) ∧ (outRows a).Sublist (outRows b) ∧ (tyRows a).Sublist (tyRows b) :=
  ⟨h.filterMap _, h.filterMap _, h.filterMap _, h.filterMap _⟩

theorem collect_arrived (es : List Collected) : collect es = arrived es := by
  induction es with
  | nil => rfl
  | cons e es ih => cases e <;> simp_all [collect, arrived]

/-- What a successful report says, for any data. -/
theorem report_ok {CE : Type} {closed : CE} {hash : Bytes → Nty → Key} {iter : List Nty → List Nty}
    (hi : Enumerates iter) {prims : List Nty} {sub : Bool} {trigger : Except CE SchemaTotals}
    {task : Option (List Collected)} {r : SchemaReport}
    (h : get_schema_report closed hash iter prims sub trigger task = .ok (.ok r)) :
    ∃ resp es, trigger = .ok resp ∧ task = some es ∧ sub = true ∧
      r.types = prims ++ tyRows (arrived es) ∧
      r.endpoints.map (fun e => (⟨e.path, e.req_key, e.resp_key⟩ : EpRow)) = epRows (arrived es) ∧
      r.topics_in.map (fun t => (⟨t.path, t.key⟩ : TpRow)) = inRows (arrived es) ∧
      r.topics_out.map (fun t => (⟨t.path, t.key⟩ : TpRow)) = outRows (arrived es) ∧
      Resolved hash (prims ++ tyRows (arrived es)) r ∧
      resp.endpoints_sent.toNat = (epRows (arrived es)).length ∧ resp.topics_in_sent.toNat = (inRows (arrived es)).length ∧
      resp.topics_out_sent.toNat = (outRows (arrived es)).length ∧ resp.errors.toNat = 0 := by
  unfold get_schema_report at h
  cases sub with
  | false => simp at h
  | true =>
    simp only [Bool.not_true, Bool.false_eq_true, if_false] at h
    cases trigger with
    | error e => cases task <;> simp at h
    | ok resp =>
      cases task with
      | none => simp at h
      | some es =>
        simp only [sort_data_eq, List.nil_append, SchemaReport.default, collect_arrived] at h
        cases ha : add_all hash iter ((arrived es).filter notTy) ⟨prims ++ tyRows (arrived es), [], [], []⟩ with
        | panic => simp [ha] at h
        | ok o =>
          cases o with
          | none => simp [ha] at h
          | some r' =>
            simp only [ha, Exec.ok_bind] at h
            split at h
            · next hm =>
              simp only [Exec.ok.injEq, Except.ok.injEq] at h
              subst h
              obtain ⟨a, b, c, d, e⟩ := add_all_spec hi _ _ _ ha
              obtain ⟨f1, f2, f3⟩ := rows_filter (arrived es)
              simp only [List.map_nil, List.nil_append, f1, f2, f3] at b c d
              simp only [data_matches, Bool.and_eq_true, beq_iff_eq] at hm
              refine ⟨resp, es, rfl, rfl, rfl, a, b, c, d, e ⟨by simp, by simp⟩, ?_, ?_, ?_, hm.2⟩
              · rw [← b, List.length_map]; exact hm.1.1.1
              · rw [← c, List.length_map]; exact hm.1.1.2
              · rw [← d, List.length_map]; exact hm.1.2
            · simp at h

end PRpc
