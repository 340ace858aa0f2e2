import Verif.Lemmas.System
import Verif.Spec.QSys
/-! Helper lemmas for C91: the frames under the keys of the schema topic and of the schemas endpoint's response. -/

namespace PRpc

open Spec

variable {V E SC Ctx : Type}

theorem serve_handle {S : SysCfg V E SC Ctx} {s s' : Sys V E SC Ctx} (h : serve S s = some s') :
    ∃ b up srv, s.client.tx[s.taken]? = some b ∧ s' = s.served S up srv ∧ s.pending = [] ∧
      (srv = s.srv ∨ ∃ hdr body r, VarHeader.take_from_slice b = .ok (some (hdr, body)) ∧
        handle S.env S.disp S.kkind hdr body s.srv = .ok (r, srv)) := by
  simp only [serve] at h
  split at h
  · rename_i hc
    have hp : s.pending = [] := List.length_eq_zero_iff.mp hc.2
    split at h
    · cases h
    · rename_i b hb
      rcases take_cases b with e | ⟨hdr, body, e⟩
      · simp only [server_run, e, Exec.ok_bind] at h
        cases h
        exact ⟨b, true, s.srv, hb, rfl, hp, .inl rfl⟩
      · simp only [server_run, e, Exec.ok_bind] at h
        cases hh : handle S.env S.disp S.kkind hdr body s.srv with
        | panic => rw [hh] at h; simp at h
        | ok q =>
          obtain ⟨r, srv⟩ := q
          rw [hh] at h
          simp only [Exec.ok_bind] at h
          have fin : ∀ up, some (s.served S up srv) = some s' → ∃ b up srv, s.client.tx[s.taken]? = some b ∧ s' = s.served S up srv ∧
              s.pending = [] ∧ (srv = s.srv ∨ ∃ hdr body r, VarHeader.take_from_slice b = .ok (some (hdr, body)) ∧
                handle S.env S.disp S.kkind hdr body s.srv = .ok (r, srv)) := fun up h =>
            ⟨b, up, srv, hb, (Option.some.inj h).symm, hp, .inr ⟨hdr, body, r, e, hh⟩⟩
          cases r with
          | none => exact fin _ h
          | some x =>
            simp only at h
            cases hk : S.tx_kind x with
            | ConnectionClosed => rw [hk] at h; exact fin _ h
            | Other => rw [hk] at h; exact fin _ h
            | Timeout => rw [hk] at h; exact fin _ h
  · cases h

/-- The totals the dispatcher sends for map `m`, with `n` failed sends. -/
def dumpTotals (m : DeviceMap) (n : Nat) : SchemaTotals :=
  ⟨BitVec.ofNat 32 m.types.length, BitVec.ofNat 32 m.endpoints.length, BitVec.ofNat 32 m.topics_in.length,
    BitVec.ofNat 32 m.topics_out.length, BitVec.ofNat 32 n⟩

/-- A frame under one of the two keys. -/
def ofSchemas (std : StdKeys) (n : VarKeyKind) (o : Out V) : Bool :=
  decide (keyBytes o.frame.hdr.key = short (keyLen n) std.schema_topic) || decide (keyBytes o.frame.hdr.key = short (keyLen n) std.schemas_resp)

/-- Is the frame asking for the schemas? -/
def AsksSchemas (D : Dispatcher V E SC Ctx) (hdr : VarHeader) : Prop :=
  LongEnough D hdr ∧ rxShort D hdr ≠ short (keyLen D.n) D.std.ping_req ∧ rxShort D hdr = short (keyLen D.n) D.std.schemas_req

theorem sent_ok_frames (cut : List (Event V E SC) → Frame V → Nat) (src : Src) (log ev : List (Event V E SC)) :
    (sent_ok cut src log ev).map (·.frame) = Spec.frames ev := by
  induction ev generalizing log with
  | nil => rfl
  | cons x ev ih =>
    cases x with
    | sent b f r => cases r <;> simp [sent_ok, Spec.frames, ih]
    | ran => simp [sent_ok, Spec.frames, ih]
    | spawned => simp [sent_ok, Spec.frames, ih]

theorem failures_whole {cut : List (Event V E SC) → Frame V → Nat} {src : Src} {log ev : List (Event V E SC)}
    (h : ∀ o ∈ sent_ok cut src log ev, o.cut = none) : failures ev = 0 := by
  induction ev generalizing log with
  | nil => rfl
  | cons x ev ih =>
    cases x with
    | sent b f r =>
      cases r with
      | none => exact ih (log := log ++ [.sent b f none]) fun o ho => h o (List.mem_cons_of_mem _ ho)
      | some e =>
        have := h _ (List.mem_cons_self ..)
        cases this
    | ran a b c d => exact ih (log := log ++ [.ran a b c d]) h
    | spawned t ok => exact ih (log := log ++ [.spawned t ok]) h

theorem whole_failures {cut : List (Event V E SC) → Frame V → Nat} {src : Src} {log ev : List (Event V E SC)} (h : failures ev = 0) :
    ∀ o ∈ sent_ok cut src log ev, o.cut = none := by
  induction ev generalizing log with
  | nil => intro o ho; cases ho
  | cons x ev ih =>
    cases x with
    | sent b f r =>
      cases r with
      | none =>
        intro o ho
        rcases List.mem_cons.mp ho with rfl | ho
        · rfl
        · exact ih (log := log ++ [.sent b f none]) h o ho
      | some e => simp [failures] at h
    | ran a b c d => exact ih (log := log ++ [.ran a b c d]) h
    | spawned t ok => exact ih (log := log ++ [.spawned t ok]) h

theorem sent_ok_append (cut : List (Event V E SC) → Frame V → Nat) (src : Src) (log a b : List (Event V E SC)) :
    sent_ok cut src log (a ++ b) = sent_ok cut src log a ++ sent_ok cut src (log ++ a) b := by
  induction a generalizing log with
  | nil => simp [sent_ok]
  | cons x a ih =>
    cases x with
    | sent b f r => cases r <;> simp [sent_ok, ih]
    | ran => simp [sent_ok, ih]
    | spawned => simp [sent_ok, ih]

theorem failures_le (ev : List (Event V E SC)) : failures ev ≤ (Spec.frames ev).length := by
  induction ev with
  | nil => exact Nat.le_refl _
  | cons x ev ih =>
    cases x with
    | sent b f r => cases r <;> simp [failures, Spec.frames] <;> omega
    | ran => exact ih
    | spawned => exact ih

/-- The answer to a request for the schemas. -/
theorem handle_dump {env : Env V E SC} {D : Dispatcher V E SC Ctx} {kk : VarKeyKind} {hdr : VarHeader} {body : Bytes} {s s' : St V E SC Ctx}
    {r : Option E} (hh : handle env D kk hdr body s = .ok (r, s')) (ha : AsksSchemas D hdr) :
    ∃ ev n last, s'.log = s.log ++ ev ∧ Spec.frames ev = schemaFrames D.std kk 0 (schemaMsgs D.device_map) ++ [last] ∧
      IsMsg kk D.std.schemas_resp hdr.seq_no (.totals (dumpTotals D.device_map n)) last ∧ (failures ev = 0 → n = 0) ∧
      n ≤ (schemaMsgs D.device_map).length ∧ ∀ cut src log, n = 0 → ∀ o ∈ sent_ok cut src log ev, o.cut = none ∨ o.frame = last := by
  obtain ⟨h, c, c'⟩ := ha
  rw [handle_schemas _ _ _ _ _ _ h c c', send_all_schemas_eq] at hh
  cases hp : publish_loop env D.std kk (schemaMsgs D.device_map) 0#16 0#32 s with
  | panic => rw [hp] at hh; simp at hh
  | ok q =>
    rw [hp] at hh
    simp only [Exec.ok_bind] at hh
    obtain ⟨ev, a1, a2, a3⟩ := publish_loop_spec env D.std kk _ 0 0 s q hp
    have hlog : q.2.2.log = s.log ++ ev := by rw [a3]
    have hn : q.2.1 = BitVec.ofNat 32 (failures ev) := by rw [a3]; simp
    rw [hn] at hh
    simp only [sendOne, Exec.ok.injEq, Prod.mk.injEq] at hh
    obtain ⟨_, rfl⟩ := hh
    refine ⟨ev ++ [_], failures ev, _, by rw [hlog, List.append_assoc], ?_, replyFrame_isMsg .., fun h => ?_, ?_, fun cut src log h o ho => ?_⟩
    · rw [frames_append, a1.frames, a2]; rfl
    · rw [failures_append] at h; omega
    · have := failures_le ev
      rw [a1.frames, a2, schemaFrames_length] at this
      exact this
    · rw [sent_ok_append] at ho
      rcases List.mem_append.mp ho with ho | ho
      · exact .inl (whole_failures h o ho)
      · refine .inr ?_
        have : o.frame ∈ (sent_ok cut src (log ++ ev) [_]).map (·.frame) := List.mem_map_of_mem ho
        rw [sent_ok_frames] at this
        exact List.mem_singleton.mp this

theorem schemaFrames_bodies (std : StdKeys) (kk : VarKeyKind) (i : Nat) (ds : List SchemaData) :
    (schemaFrames std kk i ds : List (Frame V)).map (·.body) = ds.map Body.schema := by
  induction ds generalizing i with
  | nil => rfl
  | cons d ds ih => simp only [schemaFrames, List.map_cons, ih]; rfl

/-- Two declared keys that agree at the length given to `Server::new` are the same. -/
theorem resp_eq {a : App V E SC Ctx} {S : SysCfg V E SC Ctx} (hk : KeysApart a S) {x y : Key}
    (hx : x ∈ a.endpoint_list.endpoints.map (·.resp)) (hy : y ∈ a.endpoint_list.endpoints.map (·.resp))
    (h : short (keyLen S.kkind) x = short (keyLen S.kkind) y) : x = y := by
  exact apart_eq hk (List.mem_append_left _ hx) (List.mem_append_left _ hy) h

theorem out_eq {a : App V E SC Ctx} {S : SysCfg V E SC Ctx} (hk : KeysApart a S) {x y : Key}
    (hx : x ∈ a.topic_out_list.topics.map (·.key)) (hy : y ∈ a.topic_out_list.topics.map (·.key))
    (h : short (keyLen S.kkind) x = short (keyLen S.kkind) y) : x = y := by
  exact apart_eq hk (List.mem_append_right _ hx) (List.mem_append_right _ hy) h

/-- What is known of the application. -/
structure SchemasCtx (a : App V E SC Ctx) (S : SysCfg V E SC Ctx) : Prop where
  disp : Dispatches a S.disp
  decl : Declared a S.kkind
  apart : KeysApart a S
  own : SchemasOwn a S.kkind
  err : ∀ r ∈ a.endpoint_list.endpoints, short (keyLen S.kkind) r.resp ≠ short (keyLen S.kkind) a.std.error

theorem SchemasCtx.resp_mem {a : App V E SC Ctx} {S : SysCfg V E SC Ctx} (x : SchemasCtx a S) :
    a.std.schemas_resp ∈ a.endpoint_list.endpoints.map (·.resp) := by
  obtain ⟨r, hr, _, e⟩ := x.decl.schemas
  exact List.mem_map.mpr ⟨r, hr, e⟩

theorem SchemasCtx.topic_mem {a : App V E SC Ctx} {S : SysCfg V E SC Ctx} (x : SchemasCtx a S) :
    a.std.schema_topic ∈ a.topic_out_list.topics.map (·.key) := by
  obtain ⟨r, hr, e⟩ := x.decl.schema_topic
  exact List.mem_map.mpr ⟨r, hr, e⟩

/-- A reply of another endpoint has neither key. -/
theorem SchemasCtx.not_resp {a : App V E SC Ctx} {S : SysCfg V E SC Ctx} (x : SchemasCtx a S) {k : Key} {seq : VarSeq} {b : Body V} {o : Out V}
    (hk : k ∈ a.endpoint_list.endpoints.map (·.resp)) (hne : k ≠ a.std.schemas_resp) (hm : IsMsg S.kkind k seq b o.frame) :
    ofSchemas S.disp.std S.kkind o = false := by
  have hs := x.disp.std
  simp only [ofSchemas, hs, hm.key, Bool.or_eq_false_iff, decide_eq_false_iff_not]
  exact ⟨apart_parts x.apart hk x.topic_mem, fun h => hne (resp_eq x.apart hk x.resp_mem h)⟩

/-- A publication of another topic has neither key. -/
theorem SchemasCtx.not_out {a : App V E SC Ctx} {S : SysCfg V E SC Ctx} (x : SchemasCtx a S) {k : Key} {seq : VarSeq} {b : Body V} {o : Out V}
    (hk : k ∈ a.topic_out_list.topics.map (·.key)) (hne : k ≠ a.std.schema_topic) (hm : IsMsg S.kkind k seq b o.frame) :
    ofSchemas S.disp.std S.kkind o = false := by
  have hs := x.disp.std
  simp only [ofSchemas, hs, hm.key, Bool.or_eq_false_iff, decide_eq_false_iff_not]
  exact ⟨fun h => hne (out_eq x.apart hk x.topic_mem h), fun h => apart_parts x.apart x.resp_mem hk h.symm⟩

/-- What the dispatcher sends when it is not asked for the schemas. -/
theorem SchemasCtx.not_asked {a : App V E SC Ctx} {S : SysCfg V E SC Ctx} (x : SchemasCtx a S) {hdr : VarHeader} {body : Bytes} {ctx : Ctx}
    {o : Out V} (hf : DispFrame S.disp S.kkind hdr body ctx o.frame) (hn : ¬ AsksSchemas S.disp hdr) :
    ofSchemas S.disp.std S.kkind o = false := by
  have hs := x.disp.std
  have notBoth : ∀ {h : rxShort S.disp hdr = short (keyLen S.disp.n) S.disp.std.schemas_req}, rxShort S.disp hdr ≠ short (keyLen S.disp.n) S.disp.std.ping_req := by
    intro h h'
    obtain ⟨r, hr, e1, e2⟩ := x.decl.ping
    obtain ⟨r', hr', e1', e2'⟩ := x.decl.schemas
    rw [h, hs, ← e1, ← e1'] at h'
    have := apart_eq x.disp.apart (List.mem_append_left _ (List.mem_map.mpr ⟨r', hr', rfl⟩))
      (List.mem_append_left _ (List.mem_map.mpr ⟨r, hr, rfl⟩)) h'
    exact x.own.ping (e2.symm.trans ((x.disp.answers r hr r' hr' this.symm).trans e2'))
  cases hf with
  | err e _ hm =>
    rw [hs] at hm
    simp only [ofSchemas, hs, hm.key, Bool.or_eq_false_iff, decide_eq_false_iff_not]
    obtain ⟨r, hr, _, e⟩ := x.decl.schemas
    exact ⟨x.own.error, fun h => x.err r hr (by rw [e]; exact h.symm)⟩
  | ran h g v hm _ _ _ hmsg =>
    rw [x.disp.eps] at hm
    exact x.not_resp (x.disp.eps_listed (h.req, h.resp) (List.mem_map.mpr ⟨h, hm, rfl⟩)).2 (x.own.replies h hm) hmsg
  | ping v _ _ _ hmsg =>
    rw [hs] at hmsg
    obtain ⟨r, hr, _, e⟩ := x.decl.ping
    exact x.not_resp (List.mem_map.mpr ⟨r, hr, e⟩) x.own.ping hmsg
  | totals t hl hk _ => exact absurd ⟨hl, notBoth (h := hk), hk⟩ hn
  | schema d seq hl hk _ => exact absurd ⟨hl, notBoth (h := hk), hk⟩ hn
  | topic t g v c hm hfl hmay =>
    rw [x.disp.tps] at hm
    obtain ⟨r, hr, seq, b, hmsg⟩ := x.decl.sends t hm g hfl c hdr v _ hmay
    have hne : r.key ≠ a.std.schema_topic := by
      intro e
      have := x.own.sends t hm g hfl c hdr v _ hmay
      rw [hmsg.key, e] at this
      exact this rfl
    exact x.not_out (List.mem_map.mpr ⟨r, hr, rfl⟩) hne hmsg

/-- The two keys differ. -/
theorem schemas_apart {a : App V E SC Ctx} {S : SysCfg V E SC Ctx} (x : SchemasCtx a S) :
    short (keyLen S.kkind) S.disp.std.schema_topic ≠ short (keyLen S.kkind) S.disp.std.schemas_resp := by
  rw [x.disp.std]
  exact fun h => apart_parts x.apart x.resp_mem x.topic_mem h.symm

/-- A frame under one of the two keys is an item or the totals. -/
def SchKind (S : SysCfg V E SC Ctx) (o : Out V) : Prop :=
  (keyBytes o.frame.hdr.key = short (keyLen S.kkind) S.disp.std.schema_topic ∧ ∃ d ∈ schemaMsgs S.disp.device_map, o.frame.body = .schema d) ∨
  (keyBytes o.frame.hdr.key = short (keyLen S.kkind) S.disp.std.schemas_resp ∧ ∃ t, o.frame.body = .totals t)

/-- The requests for the schemas served so far, and the totals given to them. -/
structure SchInv (S : SysCfg V E SC Ctx) (s : Sys V E SC Ctx) (jt : List (Nat × Nat)) : Prop where
  order : jt.Pairwise fun p q => p.1 < q.1
  asked : ∀ p ∈ jt, p.1 < s.taken ∧ ∃ hdr body, Taken s p.1 hdr body ∧ AsksSchemas S.disp hdr
  sent : ((s.outs ++ s.pending).filter (ofSchemas S.disp.std S.kkind)).map (·.frame.body) =
    jt.flatMap fun p => (schemaMsgs S.disp.device_map).map Body.schema ++ [.totals (dumpTotals S.disp.device_map p.2)]
  whole : (∀ o ∈ s.outs ++ s.pending, ofSchemas S.disp.std S.kkind o = true → o.cut = none) → ∀ p ∈ jt, p.2 = 0
  kinds : ∀ o ∈ s.outs ++ s.pending, ofSchemas S.disp.std S.kkind o = true → SchKind S o
  few : ∀ p ∈ jt, p.2 ≤ (schemaMsgs S.disp.device_map).length
  clean : (∀ p ∈ jt, p.2 = 0) → ∀ o ∈ s.outs ++ s.pending, keyBytes o.frame.hdr.key = short (keyLen S.kkind) S.disp.std.schema_topic →
    o.cut = none

theorem schInv_start (S : SysCfg V E SC Ctx) {s : Sys V E SC Ctx} (ho : s.outs = []) (hp : s.pending = []) : SchInv S s [] :=
  ⟨.nil, (fun p h => nomatch h), (by rw [ho, hp]; rfl), (fun _ p h => nomatch h), (fun o h => by rw [ho, hp] at h; cases h),
    (fun p h => nomatch h), (fun _ o h => by rw [ho, hp] at h; cases h)⟩

theorem SchInv.put {S : SysCfg V E SC Ctx} {s s' : Sys V E SC Ctx} {jt : List (Nat × Nat)} {o : Out V} (inv : SchInv S s jt)
    (h : Sys.put S s o = some s') (ho : ofSchemas S.disp.std S.kkind o = false) : SchInv S s' jt := by
  simp only [Sys.put] at h
  split at h
  · rename_i b hb
    cases h
    refine ⟨inv.order, inv.asked, ?_, fun hw => inv.whole fun o' ho' => hw o' ?_, fun o' ho' hof => ?_, inv.few,
      fun hz o' ho' hof => ?_⟩
    · show (((s.outs ++ [o]) ++ s.pending).filter _).map _ = _
      rw [← inv.sent, List.filter_append, List.filter_append, List.filter_append]
      simp [ho]
    · show o' ∈ (s.outs ++ [o]) ++ s.pending
      simp only [List.mem_append] at ho' ⊢
      rcases ho' with h | h
      · exact .inl (.inl h)
      · exact .inr h
    · have ho' : o' ∈ (s.outs ++ [o]) ++ s.pending := ho'
      simp only [List.mem_append, List.mem_singleton] at ho'
      rcases ho' with (h | rfl) | h
      · exact inv.kinds o' (List.mem_append_left _ h) hof
      · rw [ho] at hof; cases hof
      · exact inv.kinds o' (List.mem_append_right _ h) hof
    · have ho' : o' ∈ (s.outs ++ [o]) ++ s.pending := ho'
      simp only [List.mem_append, List.mem_singleton] at ho'
      rcases ho' with (h | rfl) | h
      · exact inv.clean hz o' (List.mem_append_left _ h) hof
      · simp [ofSchemas, hof] at ho
      · exact inv.clean hz o' (List.mem_append_right _ h) hof
  · cases h

theorem SchInv.send {S : SysCfg V E SC Ctx} {s s' : Sys V E SC Ctx} {jt : List (Nat × Nat)} {src : Src} {r : Option E × St V E SC Ctx}
    {f : Frame V} (inv : SchInv S s jt) (h : Sys.send S s src r f = some s')
    (ho : ∀ cut, ofSchemas S.disp.std S.kkind (⟨src, f, cut⟩ : Out V) = false) : SchInv S s' jt := by
  simp only [Sys.send] at h
  have inv2 : SchInv S { s with srv := r.2 } jt := ⟨inv.order, inv.asked, inv.sent, inv.whole, inv.kinds, inv.few, inv.clean⟩
  split at h
  · exact inv2.put h (ho _)
  · exact inv2.put h (ho _)

/-- The server's side of a label: what `ReportUsed` says of it. -/
def NoSchemaPub (a : App V E SC Ctx) : SLabel V → Prop
  | .app_publish key _ _ => key ≠ a.std.schema_topic
  | _ => True

theorem taken_grow {s s' : Sys V E SC Ctx} (h : ∃ x, s'.client.tx = s.client.tx ++ x) {j : Nat} {hdr : VarHeader} {body : Bytes}
    (ht : Taken s j hdr body) : Taken s' j hdr body := by
  obtain ⟨b, h1, h2⟩ := ht
  exact ⟨b, get_append h h1, h2⟩

/-- The first of them is served when a request has been. -/
theorem schInv_step {a : App V E SC Ctx} {S : SysCfg V E SC Ctx} (x : SchemasCtx a S) {s s' : Sys V E SC Ctx} {l : SLabel V}
    {jt : List (Nat × Nat)} (sinv : SysInv a S s) (inv : SchInv S s jt) (h : sys_step S s l = some s') (hu : Used a l) (hn : NoSchemaPub a l) :
    ∃ new, SchInv S s' (jt ++ new) := by
  have grow : ∀ {t : Sys V E SC Ctx}, (∃ y, t.client.tx = s.client.tx ++ y) → s.taken ≤ t.taken → t.outs = s.outs → t.pending = s.pending →
      ∃ new, SchInv S t (jt ++ new) := by
    intro t h1 h2 h3 h4
    refine ⟨[], ?_⟩
    rw [List.append_nil]
    refine ⟨inv.order, fun p hp => ?_, by rw [h3, h4]; exact inv.sent, by rw [h3, h4]; exact inv.whole, by rw [h3, h4]; exact inv.kinds, inv.few,
      by rw [h3, h4]; exact inv.clean⟩
    obtain ⟨g1, hdr, body, g2, g3⟩ := inv.asked p hp
    exact ⟨by omega, hdr, body, taken_grow h1 g2, g3⟩
  cases l with
  | client l =>
    simp only [sys_step, client_step] at h
    split at h
    · rename_i b
      split at h
      · cases h
      · split at h
        · split at h
          · rename_i c hc
            cases h
            exact grow (step_tx hc) (Nat.le_refl _) rfl rfl
          · cases h
        · cases h
    · split at h
      · rename_i c hc
        cases h
        exact grow (step_tx hc) (Nat.le_refl _) rfl rfl
      · cases h
  | serve =>
    obtain ⟨b, up, srv, hb, rfl, hp, hh⟩ := serve_handle h
    rcases hh with rfl | ⟨hdr, body, r, htk, hh⟩
    · refine ⟨[], ?_⟩
      rw [List.append_nil]
      refine ⟨inv.order, fun p hp => ?_, ?_, ?_, ?_, inv.few, ?_⟩
      · obtain ⟨g1, hdr, body, g2, g3⟩ := inv.asked p hp
        exact ⟨Nat.lt_succ_of_lt g1, hdr, body, g2, g3⟩
      · have := inv.sent
        simp only [Sys.served, List.drop_length, sent_ok]
        rw [hp] at this
        exact this
      · have := inv.whole
        simp only [Sys.served, List.drop_length, sent_ok]
        rw [hp] at this
        exact this
      · have := inv.kinds
        simp only [Sys.served, List.drop_length, sent_ok]
        rw [hp] at this
        exact this
      · have := inv.clean
        simp only [Sys.served, List.drop_length, sent_ok]
        rw [hp] at this
        exact this
    · by_cases ha : AsksSchemas S.disp hdr
      · obtain ⟨ev, n, last, h1, h2, h3, h4, h5, h6⟩ := handle_dump hh ha
        have hev : srv.log.drop s.srv.log.length = ev := by rw [h1]; simp
        have hfr := sent_ok_frames S.cut (.req s.taken) s.srv.log ev
        have hkind : ∀ o ∈ sent_ok S.cut (.req s.taken) s.srv.log ev, SchKind S o := by
          intro o ho
          have : o.frame ∈ Spec.frames ev := by rw [← hfr]; exact List.mem_map.mpr ⟨o, ho, rfl⟩
          rw [h2] at this
          rcases List.mem_append.mp this with h | h
          · obtain ⟨d, seq, hm⟩ := schemaFrames_mem h
            have hb : o.frame.body ∈ (schemaFrames S.disp.std S.kkind 0 (schemaMsgs S.disp.device_map) : List (Frame V)).map (·.body) :=
              List.mem_map.mpr ⟨_, h, rfl⟩
            rw [schemaFrames_bodies] at hb
            obtain ⟨d, hd, e⟩ := List.mem_map.mp hb
            exact .inl ⟨hm.key, d, hd, e.symm⟩
          · rw [← List.mem_singleton.mp h] at h3
            exact .inr ⟨h3.key, _, h3.body⟩
        have hall : ∀ o ∈ sent_ok S.cut (.req s.taken) s.srv.log ev, ofSchemas S.disp.std S.kkind o = true := by
          intro o ho
          rcases hkind o ho with ⟨e, _⟩ | ⟨e, _⟩ <;> simp [ofSchemas, e]
        refine ⟨[(s.taken, n)], ?_, fun p hp' => ?_, ?_, fun hw p hp' => ?_, fun o ho hof => ?_, fun p hp' => ?_, fun hz o ho hof => ?_⟩
        · refine List.pairwise_append.mpr ⟨inv.order, List.pairwise_singleton .., fun p hp' q hq => ?_⟩
          rw [List.mem_singleton.mp hq]
          exact (inv.asked p hp').1
        · rcases List.mem_append.mp hp' with hp' | hp'
          · obtain ⟨g1, hdr, body, g2, g3⟩ := inv.asked p hp'
            exact ⟨Nat.lt_succ_of_lt g1, hdr, body, g2, g3⟩
          · rw [List.mem_singleton.mp hp']
            exact ⟨Nat.lt_succ_self _, hdr, body, ⟨b, hb, htk⟩, ha⟩
        · have := inv.sent
          rw [hp, List.append_nil] at this
          simp only [Sys.served, hev]
          rw [List.filter_append, List.map_append, this, List.flatMap_append]
          congr 1
          rw [List.filter_eq_self.mpr hall]
          have : (sent_ok S.cut (.req s.taken) s.srv.log ev).map (·.frame.body) = ((sent_ok S.cut (.req s.taken) s.srv.log ev).map (·.frame)).map (·.body) := by
            rw [List.map_map]; rfl
          rw [this, hfr, h2, List.map_append, schemaFrames_bodies]
          simp [h3.body]
        · have hw : ∀ o ∈ s.outs ++ sent_ok S.cut (.req s.taken) s.srv.log ev, ofSchemas S.disp.std S.kkind o = true → o.cut = none := by
            intro o ho
            refine hw o ?_
            simp only [Sys.served, hev]
            exact ho
          rcases List.mem_append.mp hp' with hp' | hp'
          · exact inv.whole (fun o ho => hw o (by rw [hp, List.append_nil] at ho; exact List.mem_append_left _ ho)) p hp'
          · rw [List.mem_singleton.mp hp']
            exact h4 (failures_whole fun o ho => hw o (List.mem_append_right _ ho) (hall o ho))
        · simp only [Sys.served, hev] at ho
          rcases List.mem_append.mp ho with ho | ho
          · exact inv.kinds o (List.mem_append_left _ ho) hof
          · exact hkind o ho
        · rcases List.mem_append.mp hp' with hp' | hp'
          · exact inv.few p hp'
          · rw [List.mem_singleton.mp hp']
            exact h5
        · simp only [Sys.served, hev] at ho
          rcases List.mem_append.mp ho with ho | ho
          · exact inv.clean (fun p hp' => hz p (List.mem_append_left _ hp')) o (List.mem_append_left _ ho) hof
          · rcases h6 _ _ _ (hz (s.taken, n) (List.mem_append_right _ (List.mem_singleton_self _))) o ho with h | h
            · exact h
            · rw [← h] at h3
              exact absurd (hof.symm.trans h3.key) (schemas_apart x)
      · obtain ⟨ev, h1, h2⟩ := handle_events hh
        have hev : srv.log.drop s.srv.log.length = ev := by rw [h1]; simp
        have hall : ∀ o ∈ sent_ok S.cut (.req s.taken) s.srv.log ev, ofSchemas S.disp.std S.kkind o = false := by
          intro o ho
          obtain ⟨_, _, by_, r, e2⟩ := sent_ok_mem ho
          exact x.not_asked (h2 _ e2) ha
        refine ⟨[], ?_⟩
        rw [List.append_nil]
        refine ⟨inv.order, fun p hp => ?_, ?_, fun hw => ?_, fun o ho hof => ?_, inv.few, fun hz o ho hof => ?_⟩
        · obtain ⟨g1, hdr, body, g2, g3⟩ := inv.asked p hp
          exact ⟨Nat.lt_succ_of_lt g1, hdr, body, g2, g3⟩
        · have := inv.sent
          rw [hp, List.append_nil] at this
          simp only [Sys.served, hev]
          rw [List.filter_append, List.map_append, this, List.filter_eq_nil_iff.mpr (fun o ho => by rw [hall o ho]; exact nofun)]
          simp
        · refine inv.whole fun o ho => hw o ?_
          rw [hp, List.append_nil] at ho
          exact List.mem_append_left _ ho
        · simp only [Sys.served, hev] at ho
          rcases List.mem_append.mp ho with ho | ho
          · exact inv.kinds o (List.mem_append_left _ ho) hof
          · rw [hall o ho] at hof; cases hof
        · simp only [Sys.served, hev] at ho
          rcases List.mem_append.mp ho with ho | ho
          · exact inv.clean hz o (List.mem_append_left _ ho) hof
          · have := hall o ho
            simp [ofSchemas, hof] at this
  | reject =>
    simp only [sys_step, reject] at h
    split at h
    · cases h
      exact grow (same_nil _) (Nat.le_succ _) rfl rfl
    · cases h
  | flush =>
    simp only [sys_step] at h
    split at h
    · cases h
    · rename_i o rest e
      simp only [Sys.put] at h
      split at h
      · cases h
        refine ⟨[], ?_⟩
        rw [List.append_nil]
        refine ⟨inv.order, inv.asked, ?_, ?_, ?_, inv.few, ?_⟩
        · have := inv.sent
          rw [e] at this
          simpa using this
        · have := inv.whole
          rw [e] at this
          simpa using this
        · have := inv.kinds
          rw [e] at this
          simpa using this
        · have := inv.clean
          rw [e] at this
          simpa using this
      · cases h
  | task_reply i v =>
    simp only [sys_step, task_reply] at h
    split at h
    · cases h
    · rename_i j t ht
      split at h
      · cases h
      · rename_i hr
        split at h
        · cases h
        · rename_i hh hf
          have hm := List.mem_of_find?_eq_some hf
          rw [x.disp.eps] at hm
          refine ⟨[], ?_⟩
          rw [List.append_nil]
          exact inv.send h fun cut => x.not_resp (k := hh.resp) (seq := t.hdr.seq_no) (b := .val v)
            (x.disp.eps_listed (hh.req, hh.resp) (List.mem_map.mpr ⟨hh, hm, rfl⟩)).2 (x.own.replies hh hm) ⟨(short_shrink _ _).symm, rfl, rfl⟩
  | app_publish key seq v =>
    simp only [sys_step, app_publish] at h
    obtain ⟨r, hr, e⟩ := hu
    refine ⟨[], ?_⟩
    rw [List.append_nil]
    exact inv.send h fun cut => x.not_out (k := key) (seq := seq) (b := .val v) (List.mem_map.mpr ⟨r, hr, e⟩) hn ⟨(short_shrink _ _).symm, rfl, rfl⟩

end PRpc
