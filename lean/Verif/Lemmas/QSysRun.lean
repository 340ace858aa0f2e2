import Verif.Lemmas.QSys
import Verif.Lemmas.Session
import Verif.Props.Lossy
/-! Helper lemmas for C91: runs of a query on a connected server. -/

namespace PRpc

open Spec Props

variable {V E SC Ctx : Type}

/-! ### The steps of the query as steps of the system -/

/-- A step of the client that takes nothing off the link. -/
theorem client_step_own {S : SysCfg V E SC Ctx} {s : Sys V E SC Ctx} {l : Label} {c : Client} (h : step S.cfg s.client l = some c)
    (hl : ∀ b, l ≠ .in_recv (some b)) : sys_step S s (.client l) = some { s with client := c } := by
  show client_step S s l = _
  unfold client_step
  split
  · rename_i b; exact absurd rfl (hl b)
  · split
    · rename_i c' e; rw [h] at e; cases e; rfl
    · rename_i e; rw [h] at e; cases e

theorem server_client {S : SysCfg V E SC Ctx} {s s' : Sys V E SC Ctx} {l : SLabel V} (hl : ∀ l', l ≠ .client l')
    (h : sys_step S s l = some s') : s'.client = s.client := by
  have put : ∀ {t : Sys V E SC Ctx} {o : Out V}, Sys.put S t o = some s' → t.client = s.client → s'.client = s.client := by
    intro t o h e
    simp only [Sys.put] at h
    split at h
    · cases h; exact e
    · cases h
  have send : ∀ {src r f}, Sys.send S s src r f = some s' → s'.client = s.client := by
    intro src r f h
    simp only [Sys.send] at h
    split at h
    · exact put h rfl
    · exact put h rfl
  cases l with
  | client l => exact absurd rfl (hl l)
  | serve =>
    obtain ⟨b, up, srv, hb, rfl, hp, _⟩ := serve_cases h
    rfl
  | reject =>
    simp only [sys_step, reject] at h
    split at h
    · cases h; rfl
    · cases h
  | flush =>
    simp only [sys_step] at h
    split at h
    · cases h
    · exact put h rfl
  | task_reply i v =>
    simp only [sys_step, task_reply] at h
    repeat' split at h
    all_goals first
      | (cases h; done)
      | exact send h
  | app_publish key seq v => exact send h

theorem client_step_step {S : SysCfg V E SC Ctx} {s s' : Sys V E SC Ctx} {l : Label} (h : client_step S s l = some s') :
    step S.cfg s.client l = some s'.client := by
  simp only [client_step] at h
  split at h
  · split at h
    · cases h
    · split at h
      · rename_i eb
        subst eb
        split at h
        · rename_i c hc
          cases h
          exact hc
        · cases h
      · cases h
  · split at h
    · rename_i c hc
      cases h
      exact hc
    · cases h

/-- A poll of the collecting task uses the client's subscription only. -/
theorem poll_steps (qc : QCfg) (q : Query) (id : Nat) :
    ∃ ls : List Label, (∀ l ∈ ls, l = .recv_multi id ∨ l = .drop_multi id) ∧ run qc.cfg ls q.client = some (collect_poll qc q id).client := by
  have h1 : step qc.cfg q.client (.recv_multi id) = some { q.client with subs := (multi_recv q.client.subs id).2 } := rfl
  revert h1
  rw [collect_poll]
  generalize multi_recv q.client.subs id = x
  obtain ⟨x1, x2⟩ := x
  intro h1
  simp only at h1
  have h2 : step qc.cfg { q.client with subs := x2 } (.drop_multi id) = some { q.client with subs := multi_drop x2 id } := rfl
  have one : ∃ ls : List Label, (∀ l ∈ ls, l = .recv_multi id ∨ l = .drop_multi id) ∧ run qc.cfg ls q.client = some { q.client with subs := x2 } :=
    ⟨[.recv_multi id], fun l hl => .inl (List.mem_singleton.mp hl), by simp only [run, h1]⟩
  have two : ∃ ls : List Label, (∀ l ∈ ls, l = .recv_multi id ∨ l = .drop_multi id) ∧
      run qc.cfg ls q.client = some { q.client with subs := multi_drop x2 id } :=
    ⟨[.recv_multi id, .drop_multi id], fun l hl => by simpa using hl, by simp only [run, h1, h2]⟩
  cases x1 with
  | none =>
    simp only
    split
    · exact two
    · exact ⟨[], (fun l hl => nomatch hl), rfl⟩
  | some y =>
    cases y with
    | Ok f =>
      simp only
      cases qc.decode f.body with
      | none => exact one
      | some d => exact one
    | IoClosed => exact two
    | Lagged n => exact two

theorem sys_run_client {S : SysCfg V E SC Ctx} {ls : List Label} {s : Sys V E SC Ctx} {c : Client} (h : run S.cfg ls s.client = some c)
    (hl : ∀ l ∈ ls, ∀ b, l ≠ .in_recv (some b)) : sys_run S (ls.map .client) s = some { s with client := c } := by
  induction ls generalizing s with
  | nil => simp only [run, Option.some.injEq] at h; subst h; rfl
  | cons l ls ih =>
    simp only [run] at h
    split at h
    · rename_i c1 hc
      simp only [List.map_cons, sys_run, client_step_own hc (hl l (List.mem_cons_self ..))]
      exact ih (s := { s with client := c1 }) h fun l hm => hl l (List.mem_cons_of_mem _ hm)
    · cases h

/-- Labels as used by a query. -/
def Plain (a : App V E SC Ctx) (l : SLabel V) : Prop := Used a l ∧ NoSchemaPub a l

/-- A step of the whole: some steps of the system and at most one of the query. -/
theorem qs_split {a : App V E SC Ctx} {Q : QSysCfg V E SC Ctx} (x : SchemasCtx a Q.S) {y y' : QSys V E SC Ctx} {l : QSLabel V}
    (same : y.s.client = y.q.client) (h : qs_step Q y l = some y') (hu : ReportUsed a l) :
    (∃ sls, sys_run Q.S sls y.s = some y'.s ∧ ∀ l ∈ sls, Plain a l) ∧ y'.s.client = y'.q.client ∧
      (y'.q = y.q ∨ ∃ ql, l = .query ql ∧ q_step Q.qc y.q ql = some y'.q ∧ OnlyAsks Q.qc ql) := by
  have hstd := x.disp.std
  have one : ∀ {s s' : Sys V E SC Ctx} {l : SLabel V}, sys_step Q.S s l = some s' → Plain a l →
      ∃ sls, sys_run Q.S sls s = some s' ∧ ∀ l ∈ sls, Plain a l := by
    intro s s' l h1 h2
    exact ⟨[l], by simp only [sys_run, h1], fun l' hl' => by rw [List.mem_singleton.mp hl']; exact h2⟩
  cases l with
  | query ql =>
    cases ql with
    | client l =>
      simp only [qs_step] at h
      split at h
      · cases h
      · rename_i hown
        obtain ⟨s, hs, rfl⟩ := Option.map_eq_some_iff.mp h
        have hst := client_step_step hs
        rw [same] at hst
        have hpl : Plain a (.client (V := V) l) := by
          refine ⟨?_, trivial⟩
          cases l with
          | call_begin req resp body => exact hu.1
          | _ => exact hu
        refine ⟨one (l := .client l) hs hpl, rfl, .inr ⟨_, rfl, ?_, ?_⟩⟩
        · simp only [q_step, hown, Bool.false_eq_true, if_false, QSysCfg.qc]
          rw [hst]; rfl
        · cases l with
          | call_begin req resp body =>
            have := hu.2
            simpa only [OnlyAsks, QSysCfg.qc, hstd] using this
          | call_begin_raw rqst resp => exact hu
          | _ => trivial
    | tick =>
      simp only [qs_step, q_step, Option.map_some, Option.some.injEq] at h
      subst h
      refine ⟨⟨[], ?_, (fun l hl => nomatch hl)⟩, rfl, .inr ⟨_, rfl, rfl, trivial⟩⟩
      simp only [sys_run, ← same]
    | subscribe =>
      simp only [qs_step] at h
      obtain ⟨q, hq, rfl⟩ := Option.map_eq_some_iff.mp h
      refine ⟨?_, rfl, .inr ⟨_, rfl, hq, trivial⟩⟩
      simp only [q_step] at hq
      split at hq
      · cases hq
      · obtain ⟨c, hc, e⟩ := Option.map_eq_some_iff.mp hq
        have hcl : q.client = c := by rw [← e]; split <;> rfl
        rw [hcl]
        rw [← same] at hc
        exact one (client_step_own hc nofun) ⟨trivial, trivial⟩
    | trigger =>
      simp only [qs_step] at h
      obtain ⟨q, hq, rfl⟩ := Option.map_eq_some_iff.mp h
      refine ⟨?_, rfl, .inr ⟨_, rfl, hq, trivial⟩⟩
      simp only [q_step] at hq
      split at hq
      · obtain ⟨c, hc, rfl⟩ := Option.map_eq_some_iff.mp hq
        rw [← same] at hc
        refine one (client_step_own hc nofun) ⟨?_, trivial⟩
        obtain ⟨r, hr, e1, e2⟩ := x.decl.schemas
        exact ⟨r, hr, by rw [e1]; simp only [QSysCfg.qc, hstd], by rw [e2]; simp only [QSysCfg.qc, hstd]⟩
      · cases hq
    | poll =>
      simp only [qs_step] at h
      obtain ⟨q, hq, rfl⟩ := Option.map_eq_some_iff.mp h
      refine ⟨?_, rfl, .inr ⟨_, rfl, hq, trivial⟩⟩
      simp only [q_step] at hq
      split at hq
      · rename_i id hid
        split at hq
        · cases hq
        · cases hq
          obtain ⟨ls, h1, h2⟩ := poll_steps Q.qc y.q id
          rw [← same] at h2
          refine ⟨ls.map .client, sys_run_client h2 fun l hl b e => ?_, fun l hl => ?_⟩
          · rcases h1 l hl with h | h <;> rw [h] at e <;> cases e
          · obtain ⟨l', hl', rfl⟩ := List.mem_map.mp hl
            rcases h1 l' hl' with h | h <;> rw [h] <;> exact ⟨trivial, trivial⟩
      · cases hq
  | server l =>
    have fin : ∀ {l : SLabel V}, (∀ l', l ≠ .client l') → (sys_step Q.S y.s l).map (fun s => (⟨y.q, s⟩ : QSys V E SC Ctx)) = some y' → Plain a l →
        (∃ sls, sys_run Q.S sls y.s = some y'.s ∧ ∀ l ∈ sls, Plain a l) ∧ y'.s.client = y'.q.client ∧ y'.q = y.q := by
      intro l hl h hp
      obtain ⟨s, hs, rfl⟩ := Option.map_eq_some_iff.mp h
      refine ⟨one hs hp, ?_, rfl⟩
      rw [← same]
      exact server_client hl hs
    cases l with
    | client l => cases h
    | app_publish key seq v =>
      obtain ⟨h1, h2, h3⟩ := fin (fun l' e => by cases e) h ⟨hu.1, hu.2⟩
      exact ⟨h1, h2, .inl h3⟩
    | _ =>
      obtain ⟨h1, h2, h3⟩ := fin (fun l' e => by cases e) h ⟨hu, trivial⟩
      exact ⟨h1, h2, .inl h3⟩

/-! ### Everything together -/

theorem plain_run {a : App V E SC Ctx} {S : SysCfg V E SC Ctx} (x : SchemasCtx a S) {ls : List (SLabel V)} {s s' : Sys V E SC Ctx}
    (h : sys_run S ls s = some s') (hu : ∀ l ∈ ls, Plain a l) (inv : SysInv a S s) (hs : ∃ jt, SchInv S s jt) (ho : ∃ z, OrdInv S s z) :
    SysInv a S s' ∧ (∃ jt, SchInv S s' jt) ∧ ∃ z, OrdInv S s' z := by
  induction ls generalizing s with
  | nil => cases h; exact ⟨inv, hs, ho⟩
  | cons l ls ih =>
    simp only [sys_run] at h
    split at h
    · rename_i s1 h1
      have hl := hu l (List.mem_cons_self ..)
      obtain ⟨jt, hs⟩ := hs
      obtain ⟨z, ho⟩ := ho
      obtain ⟨new, hs'⟩ := schInv_step x inv hs h1 hl.1 hl.2
      exact ih h (fun l hm => hu l (List.mem_cons_of_mem _ hm)) (sys_step_inv h1 hl.1 inv) ⟨_, hs'⟩ (ordInv_step ho h1)
    · cases h

/-- What holds of a query on a connected server. -/
structure QSInv (a : App V E SC Ctx) (Q : QSysCfg V E SC Ctx) (y : QSys V E SC Ctx) : Prop where
  same : y.s.client = y.q.client
  sys : SysInv a Q.S y.s
  sch : ∃ jt, SchInv Q.S y.s jt
  ord : ∃ z, OrdInv Q.S y.s z
  col : GInv Q.qc y.q
  fresh : y.q.begun ≤ y.q.client.subs.arrived.length ∧ ∀ f ∈ y.q.client.subs.arrived.take y.q.begun, ¬ OfTopic Q.qc.topic f

/-- All requests for the schemas are the query's. -/
theorem asks_mine {a : App V E SC Ctx} {Q : QSysCfg V E SC Ctx} (x : SchemasCtx a Q.S) {y : QSys V E SC Ctx} (inv : QSInv a Q y)
    {j : Nat} {hdr : VarHeader} {body : Bytes} (ht : Taken y.s j hdr body) (ha : AsksSchemas Q.S.disp hdr) :
    ∃ c, y.q.call = some c ∧ AskedAt Q.S.disp y.s c j := by
  have hstd := x.disp.std
  obtain ⟨hl, _, hk⟩ := ha
  obtain ⟨r', hr', e1, _⟩ := x.decl.schemas
  have hmem : a.std.schemas_req ∈ a.endpoint_list.endpoints.map (·.req) := List.mem_map.mpr ⟨r', hr', e1⟩
  rw [hstd] at hk
  rcases taken_origin x.disp x.decl inv.sys ht with ⟨c, cl, r, k, hc, hr, ek, er, eh, eb, erx⟩ | ⟨p, pb, _, tp, htp, _, erx⟩
  · have e : a.std.schemas_req = r.req := apart_eq x.disp.apart (List.mem_append.mpr (.inl hmem))
      (List.mem_append.mpr (.inl (List.mem_map.mpr ⟨r, hr, rfl⟩))) (hk.symm.trans (erx hl))
    have hq : y.q.call = some c := by
      refine inv.col.calls c cl (by rw [← inv.same]; exact hc) ?_
      rw [ek, ← e, ← hstd]; rfl
    obtain ⟨b, t1, t2⟩ := ht
    exact ⟨c, hq, cl, b, hdr, r.req, hc, t1, (isFrame_iff ..).mpr (by rw [← eb]; exact t2), by rw [eh]; rfl, ek, hl, erx hl⟩
  · exact absurd (hk.symm.trans (erx hl)) (apart_parts x.disp.apart hmem (List.mem_map.mpr ⟨tp, htp, rfl⟩))

/-- There is at most one. -/
theorem asks_once {a : App V E SC Ctx} {Q : QSysCfg V E SC Ctx} (x : SchemasCtx a Q.S) {y : QSys V E SC Ctx} (inv : QSInv a Q y)
    (hlen : y.q.client.calls.length < 2 ^ 32) {jt : List (Nat × Nat)} (h : SchInv Q.S y.s jt) : jt = [] ∨ ∃ p, jt = [p] := by
  match jt, h with
  | [], _ => exact .inl rfl
  | [p], _ => exact .inr ⟨p, rfl⟩
  | p :: q :: rest, h =>
    exfalso
    obtain ⟨_, hdr, body, t1, a1⟩ := h.asked p (List.mem_cons_self ..)
    obtain ⟨_, hdr', body', t2, a2⟩ := h.asked q (List.mem_cons_of_mem _ (List.mem_cons_self ..))
    obtain ⟨c, c1, k1⟩ := asks_mine x inv t1 a1
    obtain ⟨c', c2, k2⟩ := asks_mine x inv t2 a2
    rw [c1] at c2
    cases c2
    have := asked_once x.disp inv.sys (by rw [inv.same]; exact hlen) k1 k2
    have lt := (List.pairwise_cons.mp h.order).1 q (List.mem_cons_self ..)
    omega

/-! ### What arrives -/

/-- The item a frame carries. -/
def itemOf (o : Out V) : Option SchemaData :=
  match o.frame.body with
  | .schema d => some d
  | _ => none

theorem understood_prefix {R : Type} {decode : Bytes → Option R} {bs b : Bytes} {v w : R} (h : Understood decode bs v) (hp : b <+: bs)
    (hd : decode b = some w) : w = v := by
  have e := prefix_accepted h.2 hp hd
  have := h.1 []
  rw [List.append_nil, ← e, hd] at this
  exact Option.some.inj this

theorem item_sublist {Q : QSysCfg V E SC Ctx} {ofS : Out V → Bool} {T : RpcFrame → Bool} {z : List (Out V × Option RpcFrame)}
    (hz : ∀ p ∈ z, ∀ f, p.2 = some f → T f = true → ∀ d, Q.decode f.body = some d → ofS p.1 = true ∧ itemOf p.1 = some d) :
    (((z.filterMap (·.2)).filter T).filterMap fun f => Q.decode f.body).Sublist (((z.map (·.1)).filter ofS).filterMap itemOf) := by
  induction z with
  | nil => exact .slnil
  | cons p z ih =>
    have ih := ih fun p hp => hz p (List.mem_cons_of_mem _ hp)
    have skip : (((z.map (·.1)).filter ofS).filterMap itemOf).Sublist (((p :: z).map (·.1)).filter ofS |>.filterMap itemOf) := by
      refine List.Sublist.filterMap _ (List.Sublist.filter _ ?_)
      exact List.sublist_cons_self ..
    cases hp : p.2 with
    | none =>
      rw [List.filterMap_cons_none hp]
      exact ih.trans skip
    | some f =>
      rw [List.filterMap_cons_some hp]
      by_cases ht : T f = true
      · rw [List.filter_cons_of_pos ht]
        cases hd : Q.decode f.body with
        | none =>
          rw [List.filterMap_cons_none (f := fun f : RpcFrame => Q.decode f.body) hd]
          exact ih.trans skip
        | some d =>
          obtain ⟨h1, h2⟩ := hz p (List.mem_cons_self ..) f hp ht d hd
          rw [List.filterMap_cons_some (f := fun f : RpcFrame => Q.decode f.body) hd, List.map_cons, List.filter_cons_of_pos h1, List.filterMap_cons_some h2]
          exact ih.cons_cons d
      · rw [List.filter_cons_of_neg ht]
        exact ih.trans skip

theorem bodies_items (os : List (Out V)) :
    os.filterMap itemOf = (os.map (·.frame.body)).filterMap fun | .schema d => some d | _ => none := by
  rw [List.filterMap_map]; rfl

theorem dump_items (ds : List SchemaData) (t : SchemaTotals) :
    ((ds.map Body.schema ++ [.totals t] : List (Body V)).filterMap fun | .schema d => some d | _ => none) = ds := by
  rw [List.filterMap_append, List.filterMap_map]
  simp [Function.comp_def]

/-- What has been sent on the schema topic. -/
theorem sent_items {a : App V E SC Ctx} {Q : QSysCfg V E SC Ctx} (x : SchemasCtx a Q.S) {y : QSys V E SC Ctx} (inv : QSInv a Q y)
    (hlen : y.q.client.calls.length < 2 ^ 32) {jt : List (Nat × Nat)} (h : SchInv Q.S y.s jt) :
    (((y.s.outs ++ y.s.pending).filter (ofSchemas Q.S.disp.std Q.S.kkind)).filterMap itemOf).Sublist (schemaMsgs Q.S.disp.device_map) := by
  rw [bodies_items, h.sent]
  rcases asks_once x inv hlen h with rfl | ⟨p, rfl⟩
  · exact List.nil_sublist _
  · rw [List.flatMap_cons, List.flatMap_nil, List.append_nil, dump_items]
    exact List.Sublist.refl _

theorem topic_resp {a : App V E SC Ctx} {S : SysCfg V E SC Ctx} (x : SchemasCtx a S) :
    short (keyLen S.kkind) S.disp.std.schema_topic ≠ short (keyLen S.kkind) S.disp.std.schemas_resp := by
  rw [x.disp.std]
  exact fun e => apart_parts x.apart x.resp_mem x.topic_mem e.symm

/-- The topic of a frame received is that of the frame sent. -/
theorem of_topic {a : App V E SC Ctx} {Q : QSysCfg V E SC Ctx} (x : SchemasCtx a Q.S) {s : Sys V E SC Ctx} (inv : SysInv a Q.S s)
    {o : Out V} (ho : o ∈ s.outs) {f : RpcFrame} (hc : CarriesPart Q.S.enc o f) (key : Key) :
    OfTopic key f ↔ keyBytes o.frame.hdr.key = short (keyLen Q.S.kkind) key := by
  have hk := outKind_kind (out_kind x.disp x.decl inv (inv.outs o ho))
  have hl : (keyBytes o.frame.hdr.key).length = keyLen Q.S.kkind := by rw [← kind_len, hk]
  rw [OfTopic, hc.header, hl]

theorem part_item {a : App V E SC Ctx} {Q : QSysCfg V E SC Ctx} (x : SchemasCtx a Q.S) (hr : HostReads Q) {s : Sys V E SC Ctx}
    (inv : SysInv a Q.S s) {jt : List (Nat × Nat)} (h : SchInv Q.S s jt) {o : Out V} (ho : o ∈ s.outs) {f : RpcFrame} (hc : CarriesPart Q.S.enc o f)
    (ht : OfTopic Q.qc.topic f) {d : SchemaData} (hd : Q.decode f.body = some d) :
    ofSchemas Q.S.disp.std Q.S.kkind o = true ∧ itemOf o = some d := by
  have hk := (of_topic x inv ho hc _).mp ht
  have hk : keyBytes o.frame.hdr.key = short (keyLen Q.S.kkind) Q.S.disp.std.schema_topic := hk
  have h1 : ofSchemas Q.S.disp.std Q.S.kkind o = true := by simp [ofSchemas, hk]
  refine ⟨h1, ?_⟩
  rcases h.kinds o (List.mem_append_left _ ho) h1 with ⟨_, d', hd', hb⟩ | ⟨hk', _⟩
  · have hp := hc.begins.2
    rw [hb] at hp
    rw [itemOf, hb, understood_prefix (hr.items d' hd') hp hd]
  · exact absurd (hk.symm.trans hk') (topic_resp x)

/-- What the query has collected is what the server sent, in order, with possible omissions. -/
theorem collected_sub {a : App V E SC Ctx} {Q : QSysCfg V E SC Ctx} (x : SchemasCtx a Q.S) (hr : HostReads Q) {y : QSys V E SC Ctx}
    (inv : QSInv a Q y) (hlen : y.q.client.calls.length < 2 ^ 32) (he : y.q.ended = true) :
    (arrived y.q.seen).Sublist (schemaMsgs Q.S.disp.device_map) := by
  obtain ⟨jt, hjt⟩ := inv.sch
  obtain ⟨z, hz⟩ := inv.ord
  obtain ⟨os, hos, _⟩ := hz.fed
  refine (inv.col.over he).trans ?_
  refine List.Sublist.trans (l₂ := ((z.filterMap (·.2)).filter fun f => decide (OfTopic Q.qc.topic f)).filterMap fun f => Q.decode f.body) ?_ ?_
  · refine List.Sublist.filterMap _ ?_
    rw [schemaArrivals, topicPart]
    refine List.Sublist.filter _ ?_
    rw [← hz.got, inv.same, Client.arrNow]
    exact (List.drop_sublist ..).trans (List.sublist_append_left ..)
  · refine (item_sublist (ofS := ofSchemas Q.S.disp.std Q.S.kkind) fun p hp f hf ht d hd => ?_).trans ?_
    · have hfa := hz.fate p hp
      rw [Fate, hf] at hfa
      refine part_item x hr inv.sys hjt ?_ hfa (by simpa using ht) hd
      rw [hos]
      exact List.mem_append_left _ (List.mem_map.mpr ⟨p, hp, rfl⟩)
    · refine List.Sublist.trans ?_ (sent_items x inv hlen hjt)
      refine List.Sublist.filterMap _ (List.Sublist.filter _ ?_)
      rw [hos, List.append_assoc]
      exact List.sublist_append_left ..

/-- The call's response is the totals of the server's map. -/
theorem response_totals {a : App V E SC Ctx} {Q : QSysCfg V E SC Ctx} (x : SchemasCtx a Q.S) {y : QSys V E SC Ctx}
    (inv : QSInv a Q y) {c : Nat} {cl : Call} {f : RpcFrame} {i : Nat} {jt : List (Nat × Nat)} (hjt : SchInv Q.S y.s jt)
    (hc : y.q.call = some c) (hcl : y.q.client.calls[c]? = some cl) (hph : cl.phase = .done (.Resp f i)) :
    ∃ o ∈ y.s.outs, CarriesPart Q.S.enc o f ∧ keyBytes o.frame.hdr.key = short (keyLen Q.S.kkind) Q.S.disp.std.schemas_resp ∧
      ∃ p ∈ jt, o.frame.body = .totals (dumpTotals Q.S.disp.device_map p.2) := by
  obtain ⟨cl', h1, _, h3⟩ := inv.col.mine c hc
  rw [hcl] at h1; cases h1
  have hres : result cl = some (false, f, i) := by rw [result, hph]
  obtain ⟨o, ho, hcp, _, hk, _⟩ := completed x.disp x.decl inv.sys (by rw [inv.same]; exact hcl) hres
  have hk : keyBytes o.frame.hdr.key = short (keyLen Q.S.kkind) Q.S.disp.std.schemas_resp := by
    rw [hk, wantKey, h3]; rfl
  have hof : ofSchemas Q.S.disp.std Q.S.kkind o = true := by simp [ofSchemas, hk]
  refine ⟨o, ho, hcp, hk, ?_⟩
  rcases hjt.kinds o (List.mem_append_left _ ho) hof with ⟨hk', _⟩ | ⟨_, t, hb⟩
  · exact absurd (hk'.symm.trans hk) (topic_resp x)
  · have hmem : o.frame.body ∈ ((y.s.outs ++ y.s.pending).filter (ofSchemas Q.S.disp.std Q.S.kkind)).map (·.frame.body) :=
      List.mem_map.mpr ⟨o, List.mem_filter.mpr ⟨List.mem_append_left _ ho, hof⟩, rfl⟩
    rw [hjt.sent] at hmem
    obtain ⟨p, hp, hm⟩ := List.mem_flatMap.mp hmem
    refine ⟨p, hp, ?_⟩
    rcases List.mem_append.mp hm with hm | hm
    · obtain ⟨d, _, e⟩ := List.mem_map.mp hm
      rw [hb] at e; cases e
    · exact List.mem_singleton.mp hm

theorem totals_for {m : DeviceMap} (h1 : m.endpoints.length < 2 ^ 32) (h2 : m.topics_in.length < 2 ^ 32) (h3 : m.topics_out.length < 2 ^ 32) (n : Nat) :
    TotalsFor m (dumpTotals m n) := by
  refine ⟨?_, ?_, ?_⟩ <;> simp only [dumpTotals, BitVec.toNat_ofNat] <;> exact Nat.mod_eq_of_lt (by assumption)

/-! ### All of it -/

/-- Nothing has come on the schema topic before the query asked. -/
theorem none_before {a : App V E SC Ctx} {Q : QSysCfg V E SC Ctx} (x : SchemasCtx a Q.S) {y : QSys V E SC Ctx}
    (inv : QSInv a Q y) (hc : y.q.call = none) : ∀ f ∈ y.q.client.subs.arrived, ¬ OfTopic Q.qc.topic f := by
  obtain ⟨jt, hjt⟩ := inv.sch
  obtain ⟨z, hz⟩ := inv.ord
  obtain ⟨os, hos, _⟩ := hz.fed
  have hnil : jt = [] := by
    cases jt with
    | nil => rfl
    | cons p jt =>
      obtain ⟨_, hdr, body, t1, a1⟩ := hjt.asked p (List.mem_cons_self ..)
      obtain ⟨c, c1, _⟩ := asks_mine x inv t1 a1
      rw [hc] at c1; cases c1
  subst hnil
  intro f hf ht
  have hf : f ∈ z.filterMap (·.2) := by
    rw [← hz.got, inv.same, Client.arrNow]
    exact List.mem_append_left _ hf
  obtain ⟨p, hp, hpf⟩ := List.mem_filterMap.mp hf
  have hfa := hz.fate p hp
  rw [Fate, hpf] at hfa
  have ho : p.1 ∈ y.s.outs := by
    rw [hos]
    exact List.mem_append_left _ (List.mem_map.mpr ⟨p, hp, rfl⟩)
  have hk : keyBytes p.1.frame.hdr.key = short (keyLen Q.S.kkind) Q.S.disp.std.schema_topic := (of_topic x inv.sys ho hfa _).mp ht
  have hmem : p.1.frame.body ∈ ((y.s.outs ++ y.s.pending).filter (ofSchemas Q.S.disp.std Q.S.kkind)).map (·.frame.body) :=
    List.mem_map.mpr ⟨p.1, List.mem_filter.mpr ⟨List.mem_append_left _ ho, by simp [ofSchemas, hk]⟩, rfl⟩
  rw [hjt.sent] at hmem
  cases hmem

theorem sys_run_arr {S : SysCfg V E SC Ctx} {ls : List (SLabel V)} {s s' : Sys V E SC Ctx} (h : sys_run S ls s = some s') :
    s.client.subs.arrived <+: s'.client.subs.arrived := by
  induction ls generalizing s with
  | nil => cases h; exact List.prefix_rfl
  | cons l ls ih =>
    simp only [sys_run] at h
    split at h
    · rename_i s1 h1
      refine List.IsPrefix.trans ?_ (ih h)
      cases l with
      | client l => exact step_arr_pre (client_step_step h1)
      | _ => rw [server_client (fun l' e => by cases e) h1]; exact List.prefix_rfl
    · cases h

theorem q_begun {qc : QCfg} {q q' : Query} {l : QLabel} (h : q_step qc q l = some q') :
    q'.begun = q.begun ∨ q.sub = none ∧ q'.begun = q.client.subs.arrived.length := by
  cases l with
  | client l =>
    simp only [q_step] at h
    split at h
    · cases h
    · obtain ⟨c, hc, rfl⟩ := Option.map_eq_some_iff.mp h
      exact .inl rfl
  | tick => cases h; exact .inl rfl
  | subscribe =>
    simp only [q_step] at h
    split at h
    · cases h
    · rename_i hno
      have hnone : q.sub = none := by
        cases hq : q.sub with
        | none => rfl
        | some x => exact absurd (Or.inl (by rw [hq]; rfl)) hno
      obtain ⟨c, hc, rfl⟩ := Option.map_eq_some_iff.mp h
      split
      · exact .inr ⟨hnone, rfl⟩
      · exact .inl rfl
  | trigger =>
    simp only [q_step] at h
    split at h
    · obtain ⟨c, hc, rfl⟩ := Option.map_eq_some_iff.mp h
      exact .inl rfl
    · cases h
  | poll =>
    simp only [q_step] at h
    split at h
    · split at h
      · cases h
      · rename_i id _ _
        rw [← Option.some.inj h]
        refine .inl ?_
        rw [collect_poll]
        simp only
        repeat' split
        all_goals rfl
    · cases h

theorem qsInv_step {a : App V E SC Ctx} {Q : QSysCfg V E SC Ctx} (x : SchemasCtx a Q.S) {y y' : QSys V E SC Ctx} {l : QSLabel V}
    (inv : QSInv a Q y) (h : qs_step Q y l = some y') (hu : ReportUsed a l) : QSInv a Q y' := by
  obtain ⟨⟨sls, h1, h2⟩, h3, h4⟩ := qs_split x inv.same h hu
  obtain ⟨g1, g2, g3⟩ := plain_run x h1 h2 inv.sys inv.sch inv.ord
  refine ⟨h3, g1, g2, g3, ?_, ?_⟩
  rotate_left
  · obtain ⟨t, ht⟩ := sys_run_arr h1
    rw [inv.same, h3] at ht
    obtain ⟨f1, f2⟩ := inv.fresh
    have keep : y'.q.begun = y.q.begun → y'.q.begun ≤ y'.q.client.subs.arrived.length ∧
        ∀ f ∈ y'.q.client.subs.arrived.take y'.q.begun, ¬ OfTopic Q.qc.topic f := by
      intro e
      rw [e, ← ht, List.take_append_of_le_length f1, List.length_append]
      exact ⟨by omega, f2⟩
    rcases h4 with e | ⟨ql, _, hq, _⟩
    · exact keep (by rw [e])
    · rcases q_begun hq with e | ⟨hs, e⟩
      · exact keep e
      · rw [e, ← ht, List.take_left, List.length_append]
        exact ⟨by omega, none_before x inv (inv.col.before hs).2.2⟩
  rcases h4 with e | ⟨ql, _, hq, ho⟩
  · rw [e]; exact inv.col
  · exact ginv_step inv.col hq ho

theorem qsInv_start {a : App V E SC Ctx} {Q : QSysCfg V E SC Ctx} {es : List (Sys V E SC Ctx)} {s : Sys V E SC Ctx}
    (h : Sessions a Q.S es s) : QSInv a Q (QSys.start s) := by
  have hst := sessions_start h
  have hc : s.client = Client.new ∧ s.air = [] := by cases h <;> exact ⟨rfl, rfl⟩
  exact ⟨hc.1, hst.inv, ⟨[], schInv_start _ hst.quiet.2 hst.quiet.1⟩, ⟨[], ordInv_start _ hc.1 hst.quiet.2 hc.2⟩, ginv_new _, Nat.zero_le _, (fun f hf => by cases hf)⟩

theorem qsInv_run {a : App V E SC Ctx} {Q : QSysCfg V E SC Ctx} (x : SchemasCtx a Q.S) {ls : List (QSLabel V)} {y y' : QSys V E SC Ctx}
    (inv : QSInv a Q y) (h : qs_run Q ls y = some y') (hu : ∀ l ∈ ls, ReportUsed a l) : QSInv a Q y' := by
  induction ls generalizing y with
  | nil => cases h; exact inv
  | cons l ls ih =>
    simp only [qs_run] at h
    split at h
    · rename_i y1 h1
      exact ih (qsInv_step x inv h1 (hu l (List.mem_cons_self ..))) h fun l hm => hu l (List.mem_cons_of_mem _ hm)
    · cases h


/-- A frame that has been handed to the waiters has been shown to the subscriptions before. -/
def SeenArr (s : Client) : Prop := (∀ f ∈ s.seen, f ∈ s.subs.arrived) ∧ ∀ f, s.in_pc = .wake f → f ∈ s.subs.arrived

theorem seenArr_step {cfg : Cfg} {s s' : Client} {l : Label} (h : step cfg s l = some s') (inv : SeenArr s) : SeenArr s' := by
  have hp := step_arr_pre h
  have pc : ∀ {p : InPc}, s'.seen = s.seen → s'.in_pc = p → (∀ f, p = .wake f → f ∈ s'.subs.arrived) → SeenArr s' := by
    intro p e1 e2 e3
    exact ⟨fun f hf => hp.subset (inv.1 f (by rw [← e1]; exact hf)), fun f hf => e3 f (by rw [← e2]; exact hf)⟩
  have same : s'.seen = s.seen → s'.in_pc = s.in_pc → SeenArr s' := fun e1 e2 => pc e1 e2 fun f hf => hp.subset (inv.2 f hf)
  cases l with
  | in_recv r =>
    simp only [step, in_recv] at h
    split at h
    · split at h
      · cases h; exact pc rfl rfl (fun f hf => by cases hf)
      · split at h
        · cases h
        · cases h; exact same rfl rfl
        · cases h
          exact pc rfl rfl (fun f hf => by cases hf)
    · cases h
  | in_lookup =>
    simp only [step, in_lookup] at h
    split at h
    · rename_i f e1 e2
      have ha := lookup_arrived cfg.zero s.subs f
      split at h
      · rename_i hd sb e
        rw [e] at ha
        cases h
        have ha : sb.arrived = s.subs.arrived ++ [f] := ha
        cases hd
        · refine pc (p := .wake f) rfl (by simp [after_lookup]) (fun g hg => ?_)
          cases hg
          show f ∈ sb.arrived
          rw [ha]; simp
        · exact pc (p := .recv) rfl (by simp [after_lookup]) (fun g hg => by cases hg)
      · cases h
        exact pc rfl rfl (fun g hg => by cases hg)
    · cases h
  | in_full_send =>
    simp only [step, in_full_send, after_lookup] at h
    repeat' split at h
    all_goals first
      | (cases h; done)
      | (cases h; exact pc (p := .recv) rfl rfl (fun f hf => by cases hf))
      | (exact absurd trivial (by assumption))
  | in_full_timeout =>
    simp only [step, in_full_timeout, after_lookup] at h
    repeat' split at h
    all_goals first
      | (cases h; done)
      | (cases h; exact pc (p := .recv) rfl rfl (fun f hf => by cases hf))
      | (exact absurd trivial (by assumption))
  | in_wake w =>
    have wake : ∀ f, s.in_pc = .wake f → s'.seen = s.seen ++ [f] → s'.in_pc = .recv → SeenArr s' := by
      intro f e1 e2 e3
      refine ⟨fun g hg => ?_, fun g hg => (by rw [e3] at hg; cases hg)⟩
      rw [e2] at hg
      rcases List.mem_append.mp hg with hg | hg
      · exact hp.subset (inv.1 g hg)
      · rw [List.mem_singleton.mp hg]
        exact hp.subset (inv.2 f e1)
    simp only [step, in_wake] at h
    split at h
    · rename_i f e1 e2
      split at h
      · split at h
        · cases h; exact wake f e1 rfl rfl
        · cases h
      · split at h
        · cases h
        · cases h; exact wake f e1 rfl rfl
    · cases h
  | _ =>
    simp only [step, send_resp_begin, call_reg_ok, call_reg_err, call_send, call_take, publish_raw_begin, pub_send,
      out_poll, out_recv, out_done, in_poll, Client.set_phase, Client.drop_waits] at h
    repeat' split at h
    all_goals first
      | (cases h; done)
      | (cases h; exact same rfl rfl)
      | (cases h; split <;> exact same rfl rfl)
      | (cases h; exact pc rfl rfl (fun f hf => by cases hf))

theorem reachable_seenArr {cfg : Cfg} {s : Client} (h : Reachable cfg s) : SeenArr s := by
  obtain ⟨ls, h⟩ := h
  have : ∀ (ls : List Label) {s0 : Client}, SeenArr s0 → run cfg ls s0 = some s → SeenArr s := by
    intro ls
    induction ls with
    | nil => intro s0 inv h; cases h; exact inv
    | cons l ls ih =>
      intro s0 inv h
      simp only [run] at h
      split at h
      · rename_i s1 h1
        exact ih (seenArr_step h1 inv) h
      · cases h
  exact this ls ⟨(fun f hf => by cases hf), (fun f hf => by cases hf)⟩ h

theorem prefix_last {α : Type} {p xs : List α} {x y : α} (h : p <+: xs ++ [x]) (hy : y ∈ p) (hn : y ∉ xs) : p = xs ++ [x] := by
  rcases Nat.lt_or_ge xs.length p.length with hl | hl
  · exact h.eq_of_length (by have := h.length_le; simp at this ⊢; omega)
  · have := List.prefix_of_prefix_length_le h (List.prefix_append xs [x]) hl
    exact absurd (this.subset hy) hn

theorem item_exact {Q : QSysCfg V E SC Ctx} {ofS : Out V → Bool} {T : RpcFrame → Bool} {z : List (Out V × Option RpcFrame)}
    (hz : ∀ p ∈ z, (∃ f, p.2 = some f ∧ ((T f = true ∧ ofS p.1 = true ∧ ∃ d, itemOf p.1 = some d ∧ Q.decode f.body = some d) ∨
      (T f = false ∧ (ofS p.1 = true → itemOf p.1 = none)))) ∨ (p.2 = none ∧ (ofS p.1 = true → itemOf p.1 = none))) :
    ((z.filterMap (·.2)).filter T).map (fun f => Q.decode f.body) = (((z.map (·.1)).filter ofS).filterMap itemOf).map some := by
  induction z with
  | nil => rfl
  | cons p z ih =>
    have ih := ih fun p hp => hz p (List.mem_cons_of_mem _ hp)
    have skip : (ofS p.1 = true → itemOf p.1 = none) → ((p.1 :: z.map (·.1)).filter ofS).filterMap itemOf =
        ((z.map (·.1)).filter ofS).filterMap itemOf := by
      intro h2
      cases ho : ofS p.1 with
      | false => rw [List.filter_cons_of_neg (by rw [ho]; exact nofun)]
      | true => rw [List.filter_cons_of_pos ho, List.filterMap_cons_none (h2 ho)]
    rcases hz p (List.mem_cons_self ..) with ⟨f, hf, hcase⟩ | ⟨hf, h2⟩
    rotate_left
    · rw [List.filterMap_cons_none hf, List.map_cons, ih, skip h2]
    rw [List.filterMap_cons_some hf, List.map_cons]
    rcases hcase with ⟨h1, h2, d, h3, h4⟩ | ⟨h1, h2⟩
    · rw [List.filter_cons_of_pos h1, List.filter_cons_of_pos h2, List.filterMap_cons_some h3, List.map_cons, List.map_cons, ih, h4]
    · rw [List.filter_cons_of_neg (by rw [h1]; exact nofun), ih, skip h2]

/-- A frame of the schema topic that arrives whole is an item. -/
theorem whole_item {a : App V E SC Ctx} {Q : QSysCfg V E SC Ctx} (x : SchemasCtx a Q.S) (hr : HostReads Q) {s : Sys V E SC Ctx}
    (inv : SysInv a Q.S s) {jt : List (Nat × Nat)} (h : SchInv Q.S s jt) {o : Out V} (ho : o ∈ s.outs) {f : RpcFrame} (hc : CarriesPart Q.S.enc o f)
    (hw : keyBytes o.frame.hdr.key = short (keyLen Q.S.kkind) Q.S.disp.std.schema_topic → o.cut = none) :
    (decide (OfTopic Q.qc.topic f) = true ∧ ofSchemas Q.S.disp.std Q.S.kkind o = true ∧ ∃ d, itemOf o = some d ∧ Q.decode f.body = some d) ∨
      (decide (OfTopic Q.qc.topic f) = false ∧ (ofSchemas Q.S.disp.std Q.S.kkind o = true → itemOf o = none)) := by
  have hk : OfTopic Q.qc.topic f ↔ keyBytes o.frame.hdr.key = short (keyLen Q.S.kkind) Q.S.disp.std.schema_topic := of_topic x inv ho hc _
  by_cases ht : OfTopic Q.qc.topic f
  · have hk := hk.mp ht
    have h1 : ofSchemas Q.S.disp.std Q.S.kkind o = true := by simp [ofSchemas, hk]
    refine .inl ⟨by simpa using ht, h1, ?_⟩
    rcases h.kinds o (List.mem_append_left _ ho) h1 with ⟨_, d', hd', hb⟩ | ⟨hk', _⟩
    · refine ⟨d', by rw [itemOf, hb], ?_⟩
      rw [(hc.whole (hw hk)).2, hb]
      have := (hr.items d' hd').1 []
      rwa [List.append_nil] at this
    · exact absurd (hk.symm.trans hk') (topic_resp x)
  · refine .inr ⟨by simpa using ht, fun h1 => ?_⟩
    rcases h.kinds o (List.mem_append_left _ ho) h1 with ⟨hk', _⟩ | ⟨_, t, hb⟩
    · exact absurd (hk.mpr hk') ht
    · rw [itemOf, hb]

/-- What became of a frame, if the items arrive whole. -/
theorem item_fate {a : App V E SC Ctx} {Q : QSysCfg V E SC Ctx} (x : SchemasCtx a Q.S) (hr : HostReads Q) {s : Sys V E SC Ctx}
    (inv : SysInv a Q.S s) {jt : List (Nat × Nat)} (h : SchInv Q.S s jt) {p : Out V × Option RpcFrame} (ho : p.1 ∈ s.outs)
    (hfa : Fate Q.S.enc p) (hw : keyBytes p.1.frame.hdr.key = short (keyLen Q.S.kkind) Q.S.disp.std.schema_topic → p.1.cut = none) :
    (∃ f, p.2 = some f ∧ ((decide (OfTopic Q.qc.topic f) = true ∧ ofSchemas Q.S.disp.std Q.S.kkind p.1 = true ∧
      ∃ d, itemOf p.1 = some d ∧ Q.decode f.body = some d) ∨
      (decide (OfTopic Q.qc.topic f) = false ∧ (ofSchemas Q.S.disp.std Q.S.kkind p.1 = true → itemOf p.1 = none)))) ∨
    (p.2 = none ∧ (ofSchemas Q.S.disp.std Q.S.kkind p.1 = true → itemOf p.1 = none)) := by
  cases hpf : p.2 with
  | none =>
    rw [Fate, hpf] at hfa
    refine .inr ⟨rfl, fun h1 => ?_⟩
    rcases h.kinds p.1 (List.mem_append_left _ ho) h1 with ⟨hk', _⟩ | ⟨_, t, hb⟩
    · exact absurd (hw hk') hfa
    · rw [itemOf, hb]
  | some g =>
    rw [Fate, hpf] at hfa
    exact .inl ⟨g, rfl, whole_item x hr inv h ho hfa hw⟩

/-- Every frame on the schema topic that has arrived is an item, if no send fails. -/
theorem whole_decodes {a : App V E SC Ctx} {Q : QSysCfg V E SC Ctx} (x : SchemasCtx a Q.S) (hr : HostReads Q) {y : QSys V E SC Ctx}
    (inv : QSInv a Q y) (hw : ∀ o ∈ y.s.outs, keyBytes o.frame.hdr.key = short (keyLen Q.S.kkind) Q.S.disp.std.schema_topic → o.cut = none) :
    ∀ f ∈ schemaArrivals Q.qc y.q, (Q.qc.decode f.body).isSome := by
  obtain ⟨jt, hjt⟩ := inv.sch
  obtain ⟨z, hz⟩ := inv.ord
  obtain ⟨os, hos, _⟩ := hz.fed
  intro f hf
  rw [schemaArrivals, topicPart] at hf
  obtain ⟨hf, ht⟩ := List.mem_filter.mp hf
  have hf : f ∈ z.filterMap (·.2) := by
    rw [← hz.got, inv.same, Client.arrNow]
    exact List.mem_append_left _ (List.mem_of_mem_drop hf)
  obtain ⟨p, hp, hpf⟩ := List.mem_filterMap.mp hf
  have hfa := hz.fate p hp
  rw [Fate, hpf] at hfa
  have ho : p.1 ∈ y.s.outs := by
    rw [hos]
    exact List.mem_append_left _ (List.mem_map.mpr ⟨p, hp, rfl⟩)
  rcases whole_item x hr inv.sys hjt ho hfa (hw _ ho) with ⟨_, _, d, _, hd⟩ | ⟨h, _⟩
  · show (Q.decode f.body).isSome = true
    rw [hd]; rfl
  · rw [ht] at h; cases h

/-- When the call has its response, all the items have arrived, if no send fails. -/
theorem all_arrived {a : App V E SC Ctx} {Q : QSysCfg V E SC Ctx} (x : SchemasCtx a Q.S) (hr : HostReads Q) {y : QSys V E SC Ctx}
    (inv : QSInv a Q y) (hlen : y.q.client.calls.length < 2 ^ 32) (hw : ∀ o ∈ y.s.outs, keyBytes o.frame.hdr.key = short (keyLen Q.S.kkind) Q.S.disp.std.schema_topic → o.cut = none)
    {c : Nat} {cl : Call} {f : RpcFrame} {i : Nat}
    (hc : y.q.call = some c) (hcl : y.q.client.calls[c]? = some cl) (hph : cl.phase = .done (.Resp f i)) :
    (schemaArrivals Q.qc y.q).map (fun f => Q.qc.decode f.body) = (schemaMsgs Q.S.disp.device_map).map some := by
  obtain ⟨jt, hjt⟩ := inv.sch
  obtain ⟨z, hz⟩ := inv.ord
  obtain ⟨os, hos, _⟩ := hz.fed
  obtain ⟨o, ho, hcp, hk, p, hp, hb⟩ := response_totals x inv hjt hc hcl hph
  have hjt1 : jt = [p] := by
    rcases asks_once x inv hlen hjt with rfl | ⟨p', rfl⟩
    · cases hp
    · rw [List.mem_singleton.mp hp]
  subst hjt1
  -- the part of `z` that has been shown to the subscriptions
  have got := hz.got
  rw [inv.same, Client.arrNow] at got
  obtain ⟨z1, z2, e1, e2, _⟩ := List.filterMap_eq_append_iff.mp got.symm
  have hmem : ∀ p ∈ z1, p.1 ∈ y.s.outs := by
    intro p hp
    rw [hos, e1]
    exact List.mem_append_left _ (List.mem_map.mpr ⟨p, List.mem_append_left _ hp, rfl⟩)
  -- the response is among it
  have hf : f ∈ y.q.client.subs.arrived := by
    have h3 := ((reachable_coreInv inv.col.reach).doneOk c cl false f i hcl (by rw [← result_eq, result, hph])).1
    have h3 : y.q.client.seen[i]? = some f := h3
    exact (reachable_seenArr inv.col.reach).1 f (List.mem_iff_getElem?.mpr ⟨i, h3⟩)
  rw [← e2] at hf
  obtain ⟨pf, hpf, hpff⟩ := List.mem_filterMap.mp hf
  have hfate := hz.fate pf (by rw [e1]; exact List.mem_append_left _ hpf)
  rw [Fate, hpff] at hfate
  have hkf : keyBytes pf.1.frame.hdr.key = short (keyLen Q.S.kkind) Q.S.disp.std.schemas_resp := by
    rw [← hfate.header, hcp.header]; exact hk
  have hof : ofSchemas Q.S.disp.std Q.S.kkind pf.1 = true := by simp [ofSchemas, hkf]
  obtain ⟨t, hbt⟩ : ∃ t, pf.1.frame.body = .totals t := by
    rcases hjt.kinds pf.1 (List.mem_append_left _ (hmem pf hpf)) hof with ⟨hk', _⟩ | ⟨_, h⟩
    · exact absurd (hk'.symm.trans hkf) (topic_resp x)
    · exact h
  -- so everything sent before it is
  have hsent := hjt.sent
  rw [List.flatMap_cons, List.flatMap_nil, List.append_nil] at hsent
  have hpre : ((z1.map (·.1)).filter (ofSchemas Q.S.disp.std Q.S.kkind)).map (·.frame.body) <+:
      (schemaMsgs Q.S.disp.device_map).map Body.schema ++ [.totals (dumpTotals Q.S.disp.device_map p.2)] := by
    rw [← hsent, hos, e1]
    simp only [List.map_append, List.filter_append, List.append_assoc]
    exact List.prefix_append _ _
  have hall := prefix_last hpre (List.mem_map.mpr ⟨pf.1, List.mem_filter.mpr ⟨List.mem_map.mpr ⟨pf, hpf, rfl⟩, hof⟩, hbt⟩) (by simp)
  have hitems : ((z1.map (·.1)).filter (ofSchemas Q.S.disp.std Q.S.kkind)).filterMap itemOf = schemaMsgs Q.S.disp.device_map := by
    rw [bodies_items, hall, dump_items]
  have hdrop : schemaArrivals Q.qc y.q = (z1.filterMap (·.2)).filter fun f => decide (OfTopic Q.qc.topic f) := by
    rw [schemaArrivals, topicPart, e2]
    have hsplit := List.take_append_drop y.q.begun y.q.client.subs.arrived
    have hn : (y.q.client.subs.arrived.take y.q.begun).filter (fun f => decide (OfTopic Q.qc.topic f)) = [] :=
      List.filter_eq_nil_iff.mpr fun f hf => by simpa using inv.fresh.2 f hf
    rw [← hsplit, List.filter_append, hsplit, hn, List.nil_append]
  rw [hdrop]
  refine (item_exact (Q := Q) (ofS := ofSchemas Q.S.disp.std Q.S.kkind) fun p hp => ?_).trans (by rw [hitems])
  exact item_fate x hr inv.sys hjt (hmem p hp) (hz.fate p (by rw [e1]; exact List.mem_append_left _ hp)) (hw _ (hmem p hp))

/-! ### The query's part of a run -/

theorem query_step {a : App V E SC Ctx} {Q : QSysCfg V E SC Ctx} (x : SchemasCtx a Q.S) {y y' : QSys V E SC Ctx} {l : QSLabel V}
    (same : y.s.client = y.q.client) (h : qs_step Q y l = some y') (hu : ReportUsed a l) :
    q_run Q.qc (queryPart [l]) y.q = some y'.q ∧ y'.s.client = y'.q.client := by
  obtain ⟨_, h3, h4⟩ := qs_split x same h hu
  refine ⟨?_, h3⟩
  cases l with
  | query ql =>
    rcases h4 with e | ⟨ql', e, hq, _⟩
    · cases ql with
      | client l =>
        simp only [qs_step] at h
        split at h
        · cases h
        · rename_i hown
          obtain ⟨s, hs, rfl⟩ := Option.map_eq_some_iff.mp h
          have hst := client_step_step hs
          rw [same] at hst
          simp only [queryPart, q_run, q_step, hown, Bool.false_eq_true, if_false, QSysCfg.qc]
          rw [hst]; rfl
      | _ =>
        simp only [qs_step] at h
        obtain ⟨q, hq, rfl⟩ := Option.map_eq_some_iff.mp h
        simp only [queryPart, q_run, hq]
    · cases e
      simp only [queryPart, q_run, hq]
  | server l =>
    cases l with
    | client l => cases h
    | _ =>
      simp only [qs_step] at h
      obtain ⟨s, hs, rfl⟩ := Option.map_eq_some_iff.mp h
      rfl

theorem queryPart_cons (l : QSLabel V) (ls : List (QSLabel V)) : queryPart (l :: ls) = queryPart [l] ++ queryPart ls := by
  cases l <;> rfl

theorem query_run {a : App V E SC Ctx} {Q : QSysCfg V E SC Ctx} (x : SchemasCtx a Q.S) {ls : List (QSLabel V)} {y y' : QSys V E SC Ctx}
    (same : y.s.client = y.q.client) (h : qs_run Q ls y = some y') (hu : ∀ l ∈ ls, ReportUsed a l) :
    q_run Q.qc (queryPart ls) y.q = some y'.q := by
  induction ls generalizing y with
  | nil => cases h; rfl
  | cons l ls ih =>
    simp only [qs_run] at h
    split at h
    · rename_i y1 h1
      obtain ⟨g1, g2⟩ := query_step x same h1 (hu l (List.mem_cons_self ..))
      rw [queryPart_cons, q_run_append, g1]
      exact ih g2 h fun l hm => hu l (List.mem_cons_of_mem _ hm)
    · cases h

/-- A beginning of the query's part is the query's part of a beginning. -/
theorem queryPart_split {ls : List (QSLabel V)} {as bs : List QLabel} (h : queryPart ls = as ++ bs) :
    ∃ l1 l2, ls = l1 ++ l2 ∧ queryPart l1 = as := by
  induction ls generalizing as with
  | nil =>
    have : as = [] := by
      cases as with
      | nil => rfl
      | cons _ _ => cases h
    exact ⟨[], [], rfl, this.symm⟩
  | cons l ls ih =>
    cases as with
    | nil => exact ⟨[], l :: ls, rfl, rfl⟩
    | cons b as =>
      cases l with
      | query ql =>
        simp only [queryPart, List.cons_append, List.cons.injEq] at h
        obtain ⟨rfl, h⟩ := h
        obtain ⟨l1, l2, rfl, h2⟩ := ih h
        exact ⟨.query ql :: l1, l2, rfl, by simp only [queryPart, h2]⟩
      | server l =>
        simp only [queryPart] at h
        obtain ⟨l1, l2, rfl, h2⟩ := ih h
        exact ⟨.server l :: l1, l2, rfl, by simp only [queryPart, h2]⟩

theorem qs_run_append (Q : QSysCfg V E SC Ctx) (as bs : List (QSLabel V)) (y : QSys V E SC Ctx) :
    qs_run Q (as ++ bs) y = (qs_run Q as y).bind (qs_run Q bs) := by
  induction as generalizing y with
  | nil => rfl
  | cons l as ih =>
    simp only [List.cons_append, qs_run]
    split
    · exact ih _
    · rfl

theorem sys_step_outs {S : SysCfg V E SC Ctx} {s s' : Sys V E SC Ctx} {l : SLabel V} (h : sys_step S s l = some s') : s.outs <+: s'.outs := by
  have put : ∀ {t : Sys V E SC Ctx} {o : Out V}, Sys.put S t o = some s' → t.outs = s.outs → s.outs <+: s'.outs := by
    intro t o h e
    simp only [Sys.put] at h
    split at h
    · cases h; rw [← e]; exact List.prefix_append _ _
    · cases h
  have send : ∀ {src r f}, Sys.send S s src r f = some s' → s.outs <+: s'.outs := by
    intro src r f h
    simp only [Sys.send] at h
    split at h
    · exact put h rfl
    · exact put h rfl
  cases l with
  | client l =>
    simp only [sys_step, client_step] at h
    repeat' split at h
    all_goals first
      | (cases h; done)
      | (cases h; exact List.prefix_rfl)
  | serve =>
    obtain ⟨b, up, srv, hb, rfl, hp, _⟩ := serve_cases h
    exact List.prefix_rfl
  | reject =>
    simp only [sys_step, reject] at h
    split at h
    · cases h; exact List.prefix_rfl
    · cases h
  | flush =>
    simp only [sys_step] at h
    split at h
    · cases h
    · exact put h rfl
  | task_reply i v =>
    simp only [sys_step, task_reply] at h
    repeat' split at h
    all_goals first
      | (cases h; done)
      | exact send h
  | app_publish key seq v => exact send h

theorem sys_run_outs {S : SysCfg V E SC Ctx} {ls : List (SLabel V)} {s s' : Sys V E SC Ctx} (h : sys_run S ls s = some s') :
    s.outs <+: s'.outs := by
  induction ls generalizing s with
  | nil => cases h; exact List.prefix_rfl
  | cons l ls ih =>
    simp only [sys_run] at h
    split at h
    · rename_i s1 h1
      exact (sys_step_outs h1).trans (ih h)
    · cases h

theorem qs_run_outs {a : App V E SC Ctx} {Q : QSysCfg V E SC Ctx} (x : SchemasCtx a Q.S) {ls : List (QSLabel V)} {y y' : QSys V E SC Ctx}
    (same : y.s.client = y.q.client) (h : qs_run Q ls y = some y') (hu : ∀ l ∈ ls, ReportUsed a l) : y.s.outs <+: y'.s.outs := by
  induction ls generalizing y with
  | nil => cases h; exact List.prefix_rfl
  | cons l ls ih =>
    simp only [qs_run] at h
    split at h
    · rename_i y1 h1
      obtain ⟨⟨sls, g1, _⟩, g2, _⟩ := qs_split x same h1 (hu l (List.mem_cons_self ..))
      exact (sys_run_outs g1).trans (ih g2 h fun l hm => hu l (List.mem_cons_of_mem _ hm))
    · cases h

theorem define_dispatch_map {a : App V E SC Ctx} {D : Dispatcher V E SC Ctx} (h : define_dispatch a = .ok D) :
    D.device_map.endpoints = a.endpoint_list.endpoints ∧ D.device_map.topics_in = a.topic_in_list.topics ∧
    D.device_map.topics_out = a.topic_out_list.topics := by
  unfold define_dispatch at h
  cases hs : needed_sz a.sizer with
  | panic => rw [hs] at h; simp at h
  | ok sz =>
    rw [hs] at h
    simp only [Exec.ok_bind] at h
    cases hk : kind_of_sz sz with
    | panic => rw [hk] at h; simp at h
    | ok n =>
      rw [hk] at h
      simp only [Exec.ok_bind] at h
      cases ht : merge_types [a.endpoint_list.types, a.topic_in_list.types, a.topic_out_list.types] with
      | panic => rw [ht] at h; simp at h
      | ok ts =>
        rw [ht] at h
        simp only [Exec.ok_bind, Exec.ok.injEq] at h
        subst h
        exact ⟨rfl, rfl, rfl⟩

theorem collect_poll_parts (qc : QCfg) (q : Query) (id : Nat) :
    (collect_poll qc q id).sub = q.sub ∧ (collect_poll qc q id).call = q.call ∧ (collect_poll qc q id).refused = q.refused := by
  have he : ∀ (subs : Subs) c, (collect_end q id subs c).sub = q.sub ∧ (collect_end q id subs c).call = q.call ∧
      (collect_end q id subs c).refused = q.refused := fun _ _ => ⟨rfl, rfl, rfl⟩
  unfold collect_poll
  dsimp only
  repeat' split
  all_goals first
    | exact ⟨rfl, rfl, rfl⟩
    | exact he _ _

/-- A query that was refused makes no call. -/
theorem refused_call {qc : QCfg} {ls : List QLabel} {q : Query} (h : q_run qc ls Query.new = some q) {c : Nat} (hc : q.call = some c) :
    q.refused = false := by
  have key : ∀ (ls : List QLabel) (q0 : Query), (q0.refused = true → q0.sub = none) ∧ (q0.sub = none → q0.call = none) →
      q_run qc ls q0 = some q → (q.refused = true → q.sub = none) ∧ (q.sub = none → q.call = none) := by
    intro ls
    induction ls with
    | nil => intro q0 h0 h; cases h; exact h0
    | cons l ls ih =>
      intro q0 h0 h
      simp only [q_run] at h
      split at h
      · rename_i q1 h1
        refine ih q1 ?_ h
        cases l with
        | client l =>
          simp only [q_step] at h1
          split at h1
          · cases h1
          · obtain ⟨c, _, rfl⟩ := Option.map_eq_some_iff.mp h1
            exact h0
        | tick => cases h1; exact h0
        | subscribe =>
          simp only [q_step] at h1
          split at h1
          · cases h1
          · rename_i hno
            obtain ⟨c, _, rfl⟩ := Option.map_eq_some_iff.mp h1
            split
            · exact ⟨fun hr => absurd (Or.inr hr) hno, fun hr => by cases hr⟩
            · refine ⟨fun _ => ?_, h0.2⟩
              cases hs : q0.sub with
              | none => rfl
              | some i => exact absurd (Or.inl (by rw [hs]; rfl)) hno
        | trigger =>
          simp only [q_step] at h1
          split at h1
          · rename_i hs
            obtain ⟨c, _, rfl⟩ := Option.map_eq_some_iff.mp h1
            refine ⟨h0.1, fun hn => ?_⟩
            have hn : q0.sub = none := hn
            rw [hn] at hs
            simp at hs
          · cases h1
        | poll =>
          simp only [q_step] at h1
          split at h1
          · rename_i id hid
            split at h1
            · cases h1
            · cases h1
              obtain ⟨e1, e2, e3⟩ := collect_poll_parts qc q0 id
              rw [e1, e2, e3]
              exact h0
          · cases h1
      · cases h
  obtain ⟨k1, k2⟩ := key ls Query.new ⟨(fun h => nomatch h), fun _ => rfl⟩ h
  cases hr : q.refused with
  | false => rfl
  | true =>
    have := k2 (k1 hr)
    rw [hc] at this
    cases this

end PRpc
