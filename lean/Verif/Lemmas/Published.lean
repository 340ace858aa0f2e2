import Verif.Spec.Published
import Verif.Lemmas.RawReuse
import Verif.Lemmas.KeyLength
import Verif.Lemmas.RawUsb
import Verif.Lemmas.Repl
/-! Helper lemmas for C106. -/

namespace PRpc

open Spec

variable {V E SC Ctx : Type}

theorem toHandlers_append (x y : List (Event V E SC)) : toHandlers (x ++ y) = toHandlers x ++ toHandlers y := by
  induction x with
  | nil => rfl
  | cons e x ih =>
    cases e with
    | sent b f r => exact ih
    | ran role n h v => cases role <;> simp [toHandlers, ih]
    | spawned t ok =>
      obtain ⟨role, n, sc, h, v⟩ := t
      cases role <;> cases ok <;> simp [toHandlers, ih]

theorem toHandlers_none {ev : List (Event V E SC)} (h : ∀ e ∈ ev, ∃ b f r, e = .sent b f r) : toHandlers ev = [] := by
  induction ev with
  | nil => rfl
  | cons e ev ih =>
    obtain ⟨b, f, r, rfl⟩ := h e (List.mem_cons_self ..)
    exact ih fun x hx => h x (List.mem_cons_of_mem _ hx)

/-- What the handler of a topic is to be given. -/
def toHear (t : TpHandler V E Ctx) (hdr : VarHeader) (body : Bytes) : List (Nat × VarSeq × V) :=
  ((t.decode body).map fun v => (t.name, hdr.seq_no, v)).toList

/-- What handling one message gives to topic handlers. -/
theorem handle_toHandlers (env : Env V E SC) (D : Dispatcher V E SC Ctx) (kk : VarKeyKind) {hdr : VarHeader} {body : Bytes} {s s' : St V E SC Ctx}
    {r : Option E} (hh : handle env D kk hdr body s = .ok (r, s')) :
    ∃ ev, s'.log = s.log ++ ev ∧
      ((∃ t ∈ D.tps, ForTopic D hdr t ∧ (toHandlers ev).Sublist (toHear t hdr body) ∧
          ((∀ log x, env.spawn log x = true) → toHandlers ev = toHear t hdr body)) ∨
        (toHandlers ev = [] ∧ (¬ LongEnough D hdr ∨
          (∃ q, (q = D.std.ping_req ∨ q = D.std.schemas_req ∨ ∃ h ∈ D.eps, h.req = q) ∧ rxShort D hdr = short (keyLen D.n) q) ∨
          ∀ q ∈ handledKeys D, rxShort D hdr ≠ short (keyLen D.n) q))) := by
  have one : ∀ (s : St V E SC Ctx) (f : Frame V), Exec.ok (sendOne env f s) = .ok (r, s') →
      ∃ e, s'.log = s.log ++ [e] ∧ ∃ b f r, e = .sent b f r := by
    intro s f he
    simp only [sendOne, Exec.ok.injEq, Prod.mk.injEq] at he
    obtain ⟨_, rfl⟩ := he
    exact ⟨_, rfl, _, _, _, rfl⟩
  have one' : ∀ (s : St V E SC Ctx) (f : Frame V), Exec.ok (sendOne env f s) = .ok (r, s') →
      ∃ ev, s'.log = s.log ++ ev ∧ toHandlers ev = [] := by
    intro s f he
    obtain ⟨e, h, b, f, r, rfl⟩ := one s f he
    exact ⟨[_], h, rfl⟩
  rcases frame_cases D hdr with c | ⟨h, c⟩ | ⟨h, c, c'⟩ | ⟨g, hg, c⟩ | ⟨g, hg, c⟩ | ⟨h, c⟩
  · rw [handle_short _ _ _ _ _ _ c] at hh
    obtain ⟨ev, h1, h2⟩ := one' s _ hh
    exact ⟨ev, h1, .inr ⟨h2, .inl c⟩⟩
  · rw [handle_ping _ _ _ _ _ _ h c] at hh
    have : ∃ ev, s'.log = s.log ++ ev ∧ toHandlers ev = [] := by
      cases hd : D.ping_decode body with
      | none => rw [hd] at hh; exact one' s _ hh
      | some v => rw [hd] at hh; exact one' s _ hh
    obtain ⟨ev, h1, h2⟩ := this
    exact ⟨ev, h1, .inr ⟨h2, .inr (.inl ⟨_, .inl rfl, c⟩)⟩⟩
  · rw [handle_schemas _ _ _ _ _ _ h c c', send_all_schemas_eq] at hh
    cases hp : publish_loop env D.std kk (schemaMsgs D.device_map) 0#16 0#32 s with
    | panic => rw [hp] at hh; simp at hh
    | ok q =>
      rw [hp] at hh
      simp only [Exec.ok_bind] at hh
      obtain ⟨ev, a1, a2, a3⟩ := publish_loop_spec env D.std kk _ 0 0 s q hp
      have hlog : q.2.2.log = s.log ++ ev := by rw [a3]
      obtain ⟨ev2, b1, b2⟩ := one' q.2.2 _ hh
      refine ⟨ev ++ ev2, by rw [b1, hlog, List.append_assoc], .inr ⟨?_, .inr (.inl ⟨_, .inr (.inl rfl), c'⟩)⟩⟩
      rw [toHandlers_append, b2, toHandlers_none fun e he => ?_]
      · rfl
      · obtain ⟨f, r, rfl⟩ := a1 e he
        exact ⟨_, f, r, rfl⟩
  · rw [handle_ep _ _ _ _ _ _ g c] at hh
    have : ∃ ev, s'.log = s.log ++ ev ∧ toHandlers ev = [] := by
      cases hd : g.decode body with
      | none => rw [hd] at hh; exact one' s _ hh
      | some v =>
        rw [hd] at hh
        have reply : ∀ fn, Exec.ok (reply_arm env D.std kk g fn hdr v s) = .ok (r, s') →
            ∃ ev, s'.log = s.log ++ ev ∧ toHandlers ev = [] := by
          intro fn he
          rw [reply_arm_eq] at he
          simp only [sendOne] at he
          generalize env.send _ _ = y at he
          cases y with
          | none =>
            simp only [Exec.ok.injEq, Prod.mk.injEq] at he
            obtain ⟨_, rfl⟩ := he
            exact ⟨[_, _], by simp; exact ⟨rfl, rfl⟩, rfl⟩
          | some y =>
            simp only [Exec.ok.injEq, Prod.mk.injEq] at he
            obtain ⟨_, rfl⟩ := he
            exact ⟨[_, _, _], by simp; exact ⟨rfl, rfl, rfl⟩, rfl⟩
        simp only [ep_arm] at hh
        split at hh
        · rename_i fn hfl; exact reply fn hh
        · rename_i fn hfl; exact reply fn hh
        · rename_i hfl
          simp only [St.note, sender_error_eq, sendOne] at hh
          split at hh
          · simp only [Exec.ok.injEq, Prod.mk.injEq] at hh
            obtain ⟨_, rfl⟩ := hh
            refine ⟨[_], rfl, ?_⟩
            generalize env.spawn _ _ = y
            cases y <;> rfl
          · simp only [Exec.ok.injEq, Prod.mk.injEq] at hh
            obtain ⟨_, rfl⟩ := hh
            refine ⟨[_, _], by simp; exact ⟨rfl, rfl⟩, ?_⟩
            generalize env.spawn _ _ = y
            cases y <;> rfl
    obtain ⟨ev, h1, h2⟩ := this
    exact ⟨ev, h1, .inr ⟨h2, .inr (.inl ⟨_, .inr (.inr ⟨g, hg, rfl⟩), c.here⟩)⟩⟩
  · rw [handle_tp _ _ _ _ _ _ g c] at hh
    cases hd : g.decode body with
    | none =>
      rw [hd] at hh
      simp only [Exec.ok.injEq, Prod.mk.injEq] at hh
      obtain ⟨_, rfl⟩ := hh
      exact ⟨[], by simp, .inl ⟨g, hg, c, List.nil_sublist _, fun _ => by simp [toHear, hd, toHandlers]⟩⟩
    | some v =>
      rw [hd] at hh
      simp only [Exec.ok.injEq, Prod.mk.injEq] at hh
      obtain ⟨_, rfl⟩ := hh
      have e : toHear g hdr body = [(g.name, hdr.seq_no, v)] := by simp [toHear, hd]
      simp only [tp_arm]
      split
      · exact ⟨[_], rfl, .inl ⟨g, hg, c, by rw [e]; exact List.Sublist.refl _, fun _ => e.symm⟩⟩
      · rename_i fn hfl
        obtain ⟨ev, h1, h2⟩ := prog_events env (fn s.ctx hdr v) (s.note (.ran .topic g.name hdr v))
        have : toHandlers (.ran .topic g.name hdr v :: ev) = toHear g hdr body := by
          rw [e, toHandlers, toHandlers_none fun x hx => ?_]
          obtain ⟨f, r, rfl, _⟩ := h2 x hx
          exact ⟨_, f, r, rfl⟩
        refine ⟨.ran .topic g.name hdr v :: ev, by rw [h1]; simp [St.note], .inl ⟨g, hg, c, ?_, fun _ => this⟩⟩
        rw [this]
        exact List.Sublist.refl _
      · refine ⟨[_], rfl, .inl ⟨g, hg, c, ?_, fun hsp => ?_⟩⟩
        · rw [e]
          generalize env.spawn _ _ = y
          cases y
          · exact List.nil_sublist _
          · exact List.Sublist.refl _
        · rw [hsp, e]; rfl
  · rw [handle_unknown _ _ _ _ _ _ h c] at hh
    obtain ⟨ev, h1, h2⟩ := one' s _ hh
    exact ⟨ev, h1, .inr ⟨h2, .inr (.inr c)⟩⟩

/-- The server handles what it takes: all a client sends are well-formed messages. -/
theorem serve_handled {S : SysCfg V E SC Ctx} {s s' : Sys V E SC Ctx} {hdr : VarHeader} {body : Bytes} (h : serve S s = some s')
    (ht : Taken s s.taken hdr body) : ∃ up srv r, s' = s.served S up srv ∧ handle S.env S.disp S.kkind hdr body s.srv = .ok (r, srv) := by
  obtain ⟨b, hb, e⟩ := ht
  simp only [serve, hb] at h
  split at h
  · simp only [server_run, e, Exec.ok_bind] at h
    cases hh : handle S.env S.disp S.kkind hdr body s.srv with
    | panic => rw [hh] at h; simp at h
    | ok q =>
      obtain ⟨r, srv⟩ := q
      rw [hh] at h
      simp only [Exec.ok_bind] at h
      have fin : ∀ up, some (s.served S up srv) = some s' → ∃ up srv' r', s' = s.served S up srv' ∧
          Exec.ok (r, srv) = .ok (r', srv') := fun up h => ⟨up, srv, r, (Option.some.inj h).symm, rfl⟩
      cases r with
      | none => exact fin _ h
      | some x =>
        simp only at h
        cases hk : S.tx_kind x with
        | ConnectionClosed => rw [hk] at h; exact fin _ h
        | Other => rw [hk] at h; exact fin _ h
        | Timeout => rw [hk] at h; exact fin _ h
  · cases h

/-- Where an accepted message comes from: the publication of a message, or a call. -/
def SentAs (a : App V E SC Ctx) (f : RpcFrame) : Option RpcFrame → Prop
  | some g => (∃ k, f = g.shrink k) ∧ ∃ t ∈ a.topic_in_list.topics, g.header.key = .Key8 t.key
  | none => ∃ r ∈ a.endpoint_list.endpoints, ∃ k, keyBytes f.header.key = short (keyLen k) r.req

/-- The accepted messages with their origins `og`; the handlers were given, since `log0`, what the first `s.taken` of them say, all
of it if `X` holds. -/
structure PubInv (a : App V E SC Ctx) (X : Prop) (log0 : List (Event V E SC)) (s : Sys V E SC Ctx) (A : List RpcFrame)
    (og : List (Option RpcFrame)) (ev : List (Event V E SC)) : Prop where
  len : og.length = s.client.enq.length
  taken : s.taken ≤ s.client.tx.length
  from_ : ∀ (i : Nat) f o, s.client.enq[i]? = some f → og[i]? = some o → SentAs a f o
  pubs : og.filterMap id = A
  log : s.srv.log = log0 ++ ev
  some_ : (toHandlers ev).Sublist ((og.take s.taken).filterMap fun o => o.bind (says a))
  all : X → toHandlers ev = (og.take s.taken).filterMap fun o => o.bind (says a)

theorem okBy_nil {cfg : Cfg} {s : Client} {l : Label} (h : ∀ p, l ≠ .pub_send p) : okBy cfg s l = [] := by
  cases l with
  | pub_send p => exact absurd rfl (h p)
  | _ => rfl

/-- What a step of the client adds to the accepted messages and to the publications that returned `Ok`. -/
theorem okBy_step {cfg : Cfg} {s s' : Client} {l : Label} (h : step cfg s l = some s') :
    (s'.enq = s.enq ∧ okBy cfg s l = []) ∨
      (∃ (c : Nat) (cl : Call) (k : VarKeyKind), s.calls[c]? = some cl ∧ s'.enq = s.enq ++ [cl.rqst.shrink k] ∧ okBy cfg s l = []) ∨
      (∃ (p : Nat) (pb : Pub), s.pubs[p]? = some pb ∧ s'.enq = s.enq ++ [pb.frame] ∧ okBy cfg s l = [pb.orig]) := by
  by_cases hl : ∃ p, l = .pub_send p
  · obtain ⟨p, rfl⟩ := hl
    have h0 := h
    simp only [step] at h
    split at h
    · rename_i pb hpb
      split at h
      · simp only [pub_send] at h
        have hlt : p < s.pubs.length := getElem?_lt hpb
        split at h
        · cases h
          refine .inl ⟨rfl, ?_⟩
          simp only [okBy, h0]
          simp [hlt]
        · split at h
          · cases h
            refine .inr (.inr ⟨p, pb, hpb, rfl, ?_⟩)
            simp only [okBy, h0]
            simp [hlt]
          · cases h
      · cases h
    · cases h
  · have e : okBy cfg s l = [] := okBy_nil fun p hp => hl ⟨p, hp⟩
    rcases step_enq h with g | ⟨c, cl, k, _, g1, _, _, g2⟩ | ⟨p, _, rfl, _⟩
    · exact .inl ⟨g, e⟩
    · exact .inr (.inl ⟨c, cl, k, g1, g2, e⟩)
    · exact absurd ⟨p, rfl⟩ hl

/-- A message of the client is for the handler of the topic it was published to. -/
theorem says_for {a : App V E SC Ctx} {D : Dispatcher V E SC Ctx} (hD : Receives a D) {f g : RpcFrame} {k : VarKeyKind} (hf : f = g.shrink k)
    {t0 : TpRow} (ht0 : t0 ∈ a.topic_in_list.topics) (hk : g.header.key = .Key8 t0.key) {t : TpHandler V E Ctx} (htp : t ∈ D.tps)
    (ht : ForTopic D f.header t) : (says a g).toList = toHear t f.header f.body := by
  have mem : ∀ x ∈ D.tps, x.key ∈ a.topic_in_list.topics.map (·.key) := fun x hx =>
    hD.tps_listed _ (List.mem_map.mpr ⟨x, by rw [← hD.tps]; exact hx, rfl⟩)
  have hr : rxShort D f.header = short (keyLen D.n) t0.key :=
    rxShort_of_long ht.long (k := k) (by rw [hf]; exact shrink8_key _ _ hk)
  have ek : t.key = t0.key := apart_eq hD.apart (List.mem_append_right _ (mem t htp))
    (List.mem_append_right _ (List.mem_map.mpr ⟨t0, ht0, rfl⟩)) (ht.here.symm.trans hr)
  obtain ⟨pre, post, e, hpre⟩ := ht.first
  have hfind : (a.tps.find? fun t => g.header.key = .Key8 t.key) = some t := by
    rw [← hD.tps, e, List.find?_append, List.find?_eq_none.mpr, List.find?_cons_of_pos]
    · rfl
    · rw [hk, ek]; simp
    · intro x hx hx'
      rw [hk] at hx'
      have hx' := of_decide_eq_true hx'
      injection hx' with hx'
      exact hpre x hx (by rw [hr, hx'])
  have h1 : f.header.seq_no = g.header.seq_no := by rw [hf]; rfl
  have h2 : f.body = g.body := by rw [hf]; rfl
  simp only [says, hfind, toHear, h1, h2]

/-- What handling a message of the client gives to topic handlers is what it says. -/
theorem handle_says {a : App V E SC Ctx} {S : SysCfg V E SC Ctx} (hD : Receives a S.disp) (hdecl : Declared a S.kkind) {f : RpcFrame}
    {o : Option RpcFrame} (ho : SentAs a f o) {s s' : St V E SC Ctx} {r : Option E}
    (hh : handle S.env S.disp S.kkind f.header f.body s = .ok (r, s')) :
    ∃ ev, s'.log = s.log ++ ev ∧ (toHandlers ev).Sublist (o.bind (says a)).toList ∧
      (LongEnough S.disp f.header → (∀ log x, S.env.spawn log x = true) → toHandlers ev = (o.bind (says a)).toList) := by
  have mem : ∀ x ∈ S.disp.tps, x.key ∈ a.topic_in_list.topics.map (·.key) := fun x hx =>
    hD.tps_listed _ (List.mem_map.mpr ⟨x, by rw [← hD.tps]; exact hx, rfl⟩)
  obtain ⟨ev, h1, ⟨t, htp, ht, h2, h3⟩ | ⟨h2, h3⟩⟩ := handle_toHandlers S.env S.disp S.kkind hh
  · refine ⟨ev, h1, ?_⟩
    cases o with
    | some g =>
      obtain ⟨⟨k, hk⟩, t0, ht0, ek⟩ := ho
      have e := says_for hD hk ht0 ek htp ht
      show _ ∧ (_ → _ → toHandlers ev = (says a g).toList)
      rw [Option.bind_some, e]
      exact ⟨h2, fun _ => h3⟩
    | none =>
      obtain ⟨r, hr, k, ek⟩ := ho
      exact absurd ((rxShort_of_long ht.long ek).symm.trans ht.here)
        (apart_parts hD.apart (List.mem_map.mpr ⟨r, hr, rfl⟩) (mem t htp))
  · refine ⟨ev, h1, by rw [h2]; exact List.nil_sublist _, fun hl _ => ?_⟩
    rw [h2]
    cases o with
    | none => rfl
    | some g =>
      obtain ⟨⟨k, hk⟩, t0, ht0, ek⟩ := ho
      have hr : rxShort S.disp f.header = short (keyLen S.disp.n) t0.key :=
        rxShort_of_long hl (k := k) (by rw [hk]; exact shrink8_key _ _ ek)
      have in_ : t0.key ∈ a.topic_in_list.topics.map (·.key) := List.mem_map.mpr ⟨t0, ht0, rfl⟩
      rcases h3 with h3 | ⟨q, hq, h3⟩ | h3
      · exact absurd hl h3
      · have hq' : q ∈ a.endpoint_list.endpoints.map (·.req) := by
          rcases hq with rfl | rfl | ⟨h, hh, rfl⟩
          · obtain ⟨r, hr, e, _⟩ := hdecl.ping
            exact List.mem_map.mpr ⟨r, hr, by rw [hD.std]; exact e⟩
          · obtain ⟨r, hr, e, _⟩ := hdecl.schemas
            exact List.mem_map.mpr ⟨r, hr, by rw [hD.std]; exact e⟩
          · exact (hD.eps_listed _ (List.mem_map.mpr ⟨h, by rw [← hD.eps]; exact hh, rfl⟩)).1
        exact absurd (h3.symm.trans hr) (apart_parts hD.apart hq' in_)
      · have : (a.tps.find? fun t => g.header.key = .Key8 t.key) = none := by
          rw [List.find?_eq_none]
          intro x hx hx'
          rw [ek] at hx'
          have hx' := of_decide_eq_true hx'
          injection hx' with hx'
          refine h3 t0.key ?_ hr
          rw [hx']
          exact List.mem_append_right _ (List.mem_map.mpr ⟨x, by rw [hD.tps]; exact hx, rfl⟩)
        simp only [Option.bind_some, says, this]
        rfl

/-- As `taken_long`. -/
theorem taken_longR {a : App V E SC Ctx} {S : SysCfg V E SC Ctx} {s : Sys V E SC Ctx} (hD : Receives a S.disp)
    (hdecl : Declared a S.kkind) (hlong : keyLen S.disp.n ≤ keyLen S.kkind) (inv : SysInvR a S s) {f : RpcFrame}
    (hf : f ∈ s.client.enq) : LongEnough S.disp f.header := by
  have le : ∀ k, (k = VarKeyKind.Key8 ∨ k = S.kkind) → keyLen S.disp.n ≤ keyLen k := by
    rintro k (rfl | rfl)
    · exact keyLen_le _
    · exact hlong
  rcases reachable_enqOk inv.reach (sys_consist hD.toRoutes hdecl inv) f hf with ⟨c, cl, k, g1, g2, g3⟩ | ⟨p, pb, k, g1, g2, g3⟩
  · obtain ⟨r, _, e, _⟩ := inv.calls c cl g1
    rw [LongEnough, g3, shrink8_key _ _ e, short_length]
    exact le k g2
  · obtain ⟨t, _, e⟩ := inv.pubs p pb g1
    rw [LongEnough, g3, shrink8_key _ _ e, short_length]
    exact le k g2

theorem tx_le_enq {cfg : Cfg} {s : Client} (hr : Reachable cfg s) : s.tx.length ≤ s.enq.length := by
  obtain ⟨pre, rest, e1, e2, _⟩ := reachable_outInv hr
  have := congrArg List.length e2
  simp only [List.length_map] at this
  rw [e1, List.length_append]
  omega

theorem take_snoc_eq {α : Type} {l : List α} {n : Nat} {x : α} (h : l[n]? = some x) : l.take (n + 1) = l.take n ++ [x] := by
  rw [List.take_add_one, h]; rfl

theorem pubInv_start {a : App V E SC Ctx} {X : Prop} {s : Sys V E SC Ctx} (hc : s.client = Client.new) (ht : s.taken = 0) :
    PubInv a X s.srv.log s [] [] [] where
  len := by rw [hc]; rfl
  taken := by rw [ht]; exact Nat.zero_le _
  from_ := by intro i f o _ h; simp at h
  pubs := rfl
  log := (List.append_nil _).symm
  some_ := by rw [ht]; exact List.Sublist.refl _
  all := fun _ => by rw [ht]; rfl

/-- The log of the server after a step that is no `serve`. -/
theorem other_log {S : SysCfg V E SC Ctx} {s s' : Sys V E SC Ctx} {l : SLabel V} (h : sys_step S s l = some s') (hs : l ≠ .serve)
    (hr : l ≠ .reject) (hc : ∀ k, l ≠ .client k) :
    s'.client = s.client ∧ s'.taken = s.taken ∧ ∃ ev, s'.srv.log = s.srv.log ++ ev ∧ toHandlers ev = [] := by
  have send : ∀ {src : Src} {f g : Frame V}, Sys.send S s src (sendOne S.env g s.srv) f = some s' →
      s'.client = s.client ∧ s'.taken = s.taken ∧ ∃ ev, s'.srv.log = s.srv.log ++ ev ∧ toHandlers ev = [] := by
    intro src f g h
    simp only [Sys.send, Sys.put, frame_bytes_eq] at h
    split at h <;> (cases h; exact ⟨rfl, rfl, [_], rfl, rfl⟩)
  cases l with
  | client k => exact absurd rfl (hc k)
  | serve => exact absurd rfl hs
  | reject => exact absurd rfl hr
  | flush =>
    simp only [sys_step] at h
    split at h
    · cases h
    · rw [put_shape h]; exact ⟨rfl, rfl, [], by simp, rfl⟩
  | task_reply i v =>
    simp only [sys_step, task_reply] at h
    (repeat' split at h) <;> first
      | (cases h; done)
      | exact send h
  | app_publish k q v => exact send h

/-- One step. -/
theorem pubInv_step {a : App V E SC Ctx} {S : SysCfg V E SC Ctx} (hD : Receives a S.disp) (hdecl : Declared a S.kkind) {X : Prop}
    (hX : X → Hears S) {log0 : List (Event V E SC)} {s s' : Sys V E SC Ctx} {A : List RpcFrame} {og : List (Option RpcFrame)}
    {ev : List (Event V E SC)} (si : SysInvR a S s) (inv : PubInv a X log0 s A og ev) {l : SLabel V} (hl : X → l ≠ .reject)
    (h : sys_step S s l = some s') :
    ∃ ox ex, PubInv a X log0 s' (A ++ publishedOk S [l] s) (og ++ ox) (ev ++ ex) := by
  have hle := tx_le_enq si.reach
  have tk : s.taken ≤ og.length := Nat.le_trans inv.taken (inv.len ▸ hle)
  by_cases hcl : ∃ k, l = .client k
  · obtain ⟨k, rfl⟩ := hcl
    have hlater := (sys_step_later h).tx
    obtain ⟨c, air, hs, e, _⟩ := client_shape h
    have hp : publishedOk S [.client k] s = okBy S.cfg s.client k := by
      simp only [publishedOk, h, List.append_nil]
    rw [hp]
    have htx : s'.taken ≤ s'.client.tx.length := by
      obtain ⟨x, ex⟩ := hlater
      rw [ex, List.length_append, e]
      have := inv.taken
      show s.taken ≤ _
      omega
    have same : ∀ ox : List (Option RpcFrame), (og ++ ox).take s'.taken = og.take s.taken := by
      intro ox
      rw [e]
      exact List.take_append_of_le_length tk
    have hlog : s'.srv.log = log0 ++ (ev ++ []) := by rw [e, List.append_nil]; exact inv.log
    have grow : ∀ (f : RpcFrame) (o : Option RpcFrame), s'.client.enq = s.client.enq ++ [f] → SentAs a f o →
        PubInv a X log0 s' (A ++ o.toList) (og ++ [o]) (ev ++ []) := by
      intro f o ef ho
      refine ⟨by rw [ef, List.length_append, List.length_append, inv.len]; rfl, htx, ?_, ?_, hlog, ?_, ?_⟩
      · intro i f' o' h1 h2
        rw [ef] at h1
        rcases snoc_get h1 with h1 | ⟨h1, rfl⟩ <;> rcases snoc_get h2 with h2 | ⟨h2, rfl⟩
        · exact inv.from_ i f' o' h1 h2
        · have := getElem?_lt h1; have := inv.len; omega
        · have := getElem?_lt h2; have := inv.len; omega
        · exact ho
      · rw [List.filterMap_append, inv.pubs]
        cases o <;> rfl
      · rw [same, List.append_nil]; exact inv.some_
      · rw [same, List.append_nil]; exact inv.all
    rcases okBy_step hs with ⟨g1, g2⟩ | ⟨c', cl, k', g1, g2, g3⟩ | ⟨p, pb, g1, g2, g3⟩
    · refine ⟨[], [], ?_⟩
      rw [g2, List.append_nil]
      have ec : s'.client.enq = s.client.enq := by rw [e]; exact g1
      refine ⟨by rw [List.append_nil, ec]; exact inv.len, htx, ?_, by rw [List.append_nil]; exact inv.pubs, hlog, ?_, ?_⟩
      · rw [List.append_nil, ec]; exact inv.from_
      · rw [same, List.append_nil]; exact inv.some_
      · rw [same, List.append_nil]; exact inv.all
    · refine ⟨[none], [], ?_⟩
      rw [g3]
      obtain ⟨r, hr, ek, _⟩ := si.calls c' cl g1
      exact grow _ none (by rw [e]; exact g2) ⟨r, hr, k', shrink8_key _ _ ek⟩
    · refine ⟨[some pb.orig], [], ?_⟩
      rw [g3]
      obtain ⟨k'', ek⟩ := (reachable_origin si.reach).1 p pb g1
      exact grow _ (some pb.orig) (by rw [e]; exact g2) ⟨⟨k'', ek⟩, si.pubs p pb g1⟩
  · have hp : publishedOk S [l] s = [] := by
      cases l with
      | client k => exact absurd ⟨k, rfl⟩ hcl
      | _ => simp only [publishedOk, h, List.append_nil]
    rw [hp, List.append_nil]
    refine ⟨[], ?_⟩
    rw [List.append_nil]
    by_cases hsv : l = .serve
    · subst hsv
      have h : serve S s = some s' := h
      obtain ⟨b, _, _, hb, _⟩ := serve_handle h
      obtain ⟨f, hf, hfb⟩ := reachable_tx_at si.reach hb
      have ht : Taken s s.taken f.header f.body := by
        refine ⟨b, hb, ?_⟩
        rw [RpcFrame.to_bytes, write_to_vec_eq] at hfb
        cases hfb
        exact take_enc ..
      obtain ⟨up, srv, r, e, hh⟩ := serve_handled h ht
      obtain ⟨o, ho⟩ : ∃ o, og[s.taken]? = some o :=
        ⟨_, List.getElem?_eq_getElem (by rw [inv.len]; exact getElem?_lt hf)⟩
      obtain ⟨ex, h1, h2, h3⟩ := handle_says hD hdecl (inv.from_ _ f o hf ho) hh
      have last : (og.take (s.taken + 1)).filterMap (fun o => o.bind (says a)) =
          (og.take s.taken).filterMap (fun o => o.bind (says a)) ++ (o.bind (says a)).toList := by
        rw [take_snoc_eq ho, List.filterMap_append]
        congr 1
      refine ⟨ex, ?_⟩
      rw [e]
      refine ⟨inv.len, ?_, inv.from_, inv.pubs, ?_, ?_, fun x => ?_⟩
      · exact getElem?_lt hb
      · show srv.log = _
        rw [h1, inv.log, List.append_assoc]
      · show (toHandlers (ev ++ ex)).Sublist ((og.take (s.taken + 1)).filterMap _)
        rw [toHandlers_append, last]
        exact List.Sublist.append inv.some_ h2
      · show toHandlers (ev ++ ex) = (og.take (s.taken + 1)).filterMap _
        rw [toHandlers_append, last, inv.all x,
          h3 (taken_longR hD hdecl (hX x).long si (List.mem_of_getElem? hf)) (hX x).spawns]
    · by_cases hrj : l = .reject
      · subst hrj
        simp only [sys_step, reject] at h
        split at h
        · rename_i hc
          cases h
          refine ⟨[], inv.len, hc.2.2, inv.from_, inv.pubs, by rw [List.append_nil]; exact inv.log, ?_, fun x => absurd rfl (hl x)⟩
          rw [List.append_nil]
          refine List.Sublist.trans inv.some_ (List.Sublist.filterMap _ ?_)
          show (og.take s.taken).Sublist (og.take (s.taken + 1))
          rw [List.take_add_one]
          exact List.sublist_append_left ..
        · cases h
      · obtain ⟨e1, e2, ex, e3, e4⟩ := other_log h hsv hrj fun k hk => hcl ⟨k, hk⟩
        refine ⟨ex, by rw [e1]; exact inv.len, by rw [e1, e2]; exact inv.taken, by rw [e1]; exact inv.from_, inv.pubs, ?_, ?_, ?_⟩
        · rw [e3, inv.log, List.append_assoc]
        · rw [e2, toHandlers_append, e4, List.append_nil]; exact inv.some_
        · rw [e2, toHandlers_append, e4, List.append_nil]; exact inv.all

theorem publishedOk_cons {S : SysCfg V E SC Ctx} {l : SLabel V} {ls : List (SLabel V)} {s s' : Sys V E SC Ctx}
    (h : sys_step S s l = some s') : publishedOk S (l :: ls) s = publishedOk S [l] s ++ publishedOk S ls s' := by
  simp only [publishedOk, h, List.append_nil]

/-- A run. -/
theorem pubInv_run {a : App V E SC Ctx} {S : SysCfg V E SC Ctx} (hD : Receives a S.disp) (hdecl : Declared a S.kkind) {X : Prop}
    (hX : X → Hears S) {log0 : List (Event V E SC)} {ls : List (SLabel V)} : ∀ {s s' : Sys V E SC Ctx} {A : List RpcFrame}
    {og : List (Option RpcFrame)} {ev : List (Event V E SC)}, SysInvR a S s → PubInv a X log0 s A og ev → (∀ l ∈ ls, UsedRaw a l) →
    (X → ∀ l ∈ ls, l ≠ .reject) → sys_run S ls s = some s' →
    SysInvR a S s' ∧ ∃ ox ex, PubInv a X log0 s' (A ++ publishedOk S ls s) (og ++ ox) (ev ++ ex) := by
  induction ls with
  | nil =>
    intro s s' A og ev si inv _ _ h
    cases h
    refine ⟨si, [], [], ?_⟩
    rw [List.append_nil, List.append_nil, publishedOk, List.append_nil]
    exact inv
  | cons l ls ih =>
    intro s s' A og ev si inv hu hl h
    simp only [sys_run] at h
    split at h
    · rename_i t ht
      obtain ⟨ox, ex, inv1⟩ := pubInv_step hD hdecl hX si inv (fun x => hl x l (List.mem_cons_self ..)) ht
      obtain ⟨si', ox', ex', inv2⟩ := ih (sys_step_invR ht (hu l (List.mem_cons_self ..)) si) inv1
        (fun m hm => hu m (List.mem_cons_of_mem _ hm)) (fun x m hm => hl x m (List.mem_cons_of_mem _ hm)) h
      refine ⟨si', ox ++ ox', ex ++ ex', ?_⟩
      rw [publishedOk_cons ht, ← List.append_assoc, ← List.append_assoc, ← List.append_assoc]
      exact inv2
    · cases h

theorem sys_step_enq {S : SysCfg V E SC Ctx} {s s' : Sys V E SC Ctx} {l : SLabel V} (h : sys_step S s l = some s') :
    ∃ x, s'.client.enq = s.client.enq ++ x := by
  by_cases hcl : ∃ k, l = .client k
  · obtain ⟨k, rfl⟩ := hcl
    obtain ⟨c, air, hs, e, _⟩ := client_shape h
    rw [e]
    rcases step_enq hs with g | ⟨_, cl, k', _, _, _, _, g⟩ | ⟨_, pb, _, _, _, _, g⟩
    · exact ⟨[], by rw [List.append_nil]; exact g⟩
    · exact ⟨_, g⟩
    · exact ⟨_, g⟩
  · refine ⟨[], ?_⟩
    rw [List.append_nil]
    by_cases hsv : l = .serve
    · subst hsv
      obtain ⟨_, up, srv, _, e, _⟩ := serve_handle h
      rw [e]; rfl
    · by_cases hrj : l = .reject
      · subst hrj
        simp only [sys_step, reject] at h
        split at h <;> cases h
        rfl
      · rw [(other_log h hsv hrj fun k hk => hcl ⟨k, hk⟩).1]

theorem sys_run_enq {S : SysCfg V E SC Ctx} {ls : List (SLabel V)} : ∀ {s s' : Sys V E SC Ctx}, sys_run S ls s = some s' →
    ∃ x, s'.client.enq = s.client.enq ++ x := by
  induction ls with
  | nil => intro s s' h; cases h; exact same_nil _
  | cons l ls ih =>
    intro s s' h
    simp only [sys_run] at h
    split at h
    · rename_i t ht
      obtain ⟨x, hx⟩ := sys_step_enq ht
      obtain ⟨y, hy⟩ := ih h
      exact ⟨x ++ y, by rw [hy, hx, List.append_assoc]⟩
    · cases h

/-- The request of a call begun later is accepted later. -/
theorem asked_after_enq {a : App V E SC Ctx} {S : SysCfg V E SC Ctx} {s s' : Sys V E SC Ctx} (hD : Receives a S.disp)
    (inv : SysInv a S s) (inv' : SysInv a S s') (hlen : s'.client.calls.length < 2 ^ 32) (h : Later s s')
    (he : ∃ x, s'.client.enq = s.client.enq ++ x) {c j : Nat} (hc : s.client.calls.length ≤ c) (ha : AskedAt S.disp s' c j) :
    s.client.enq.length ≤ j := by
  rcases Nat.lt_or_ge j s.client.enq.length with hj | hj
  · exfalso
    obtain ⟨cl, b, hdr, req, hc', hb, hf, hs, hk, hl, hrx⟩ := ha.asked
    obtain ⟨f, hfe, hfb⟩ := reachable_tx_at inv'.reach hb
    obtain ⟨x, ex⟩ := he
    rw [ex, List.getElem?_append_left hj] at hfe
    have e : f.header = hdr := by
      rw [RpcFrame.to_bytes, write_to_vec_eq] at hfb
      cases hfb
      have := (isFrame_iff ..).mp hf
      rw [take_enc] at this
      have := Exec.ok.inj this
      exact congrArg Prod.fst (Option.some.inj this)
    obtain ⟨_, og, h1, h2, _⟩ := reachable_origin inv.reach
    obtain ⟨o, ho⟩ : ∃ o, og[j]? = some o := ⟨_, List.getElem?_eq_getElem (by rw [h1]; exact hj)⟩
    have := h2 j f o hfe ho
    cases o with
    | some c1 =>
      obtain ⟨cl1, k, g1, _, g3⟩ := this
      obtain ⟨cl2, g2, e2⟩ := h.calls c1 cl1 g1
      have e2 : cl2.rqst = cl1.rqst := congrArg (fun x => x.1) e2
      have : c1 = c := calls_apart inv' hlen hc' g2 (by rw [← hs, ← e, g3, e2]; rfl)
      have := getElem?_lt g1
      omega
    | none =>
      obtain ⟨p, pb, k, g1, g2⟩ := this
      obtain ⟨t, ht, et⟩ := inv.pubs p pb g1
      obtain ⟨r, hr, ek, _⟩ := inv'.calls c cl hc'
      rw [hk] at ek
      cases ek
      have : rxShort S.disp hdr = short (keyLen S.disp.n) t.key :=
        rxShort_of_long hl (k := k) (by rw [← e, g2]; exact shrink8_key _ _ et)
      exact absurd (hrx.symm.trans this)
        (apart_parts hD.apart (List.mem_map.mpr ⟨r, hr, rfl⟩) (List.mem_map.mpr ⟨t, ht, rfl⟩))
  · exact hj

theorem sessions_taken {a : App V E SC Ctx} {S : SysCfg V E SC Ctx} {es : List (Sys V E SC Ctx)} {s0 : Sys V E SC Ctx} (h : Sessions a S es s0) :
    s0.taken = 0 := by
  cases h <;> rfl

/-- A session. -/
theorem published_run {a : App V E SC Ctx} {S : SysCfg V E SC Ctx} (hD : Receives a S.disp) (hdecl : Declared a S.kkind)
    {X : Prop} (hX : X → Hears S) {es : List (Sys V E SC Ctx)} {s0 : Sys V E SC Ctx} (h0 : Sessions a S es s0) {ls : List (SLabel V)}
    {s : Sys V E SC Ctx} (hu : ∀ l ∈ ls, UsedRaw a l) (hl : X → ∀ l ∈ ls, l ≠ .reject) (hrun : sys_run S ls s0 = some s) :
    SysInvR a S s ∧ ∃ og, PubInv a X s0.srv.log s (publishedOk S ls s0) og (s.srv.log.drop s0.srv.log.length) := by
  obtain ⟨si, og, ev, inv⟩ := pubInv_run hD hdecl hX (sessions_start h0).inv.toSysInvR
    (pubInv_start (sessions_fresh h0).1 (sessions_taken h0)) hu hl hrun
  rw [List.nil_append, List.nil_append, List.nil_append] at inv
  refine ⟨si, og, ?_⟩
  have : s.srv.log.drop s0.srv.log.length = ev := by rw [inv.log, List.drop_left]
  rw [this]
  exact inv

theorem filterMap_bind_id {α β : Type} (f : α → Option β) (l : List (Option α)) :
    l.filterMap (fun o => o.bind f) = (l.filterMap id).filterMap f := by
  rw [List.filterMap_filterMap]
  rfl

theorem filterMap_take_prefix {α β : Type} (f : α → Option β) (l : List α) (n : Nat) : (l.take n).filterMap f <+: l.filterMap f := by
  refine ⟨(l.drop n).filterMap f, ?_⟩
  rw [← List.filterMap_append, List.take_append_drop]

/-- The server has taken all that was accepted. -/
theorem all_taken {cfg : Cfg} {s : Client} (hr : Reachable cfg s) (ho : s.out_pc ≠ .exited) (hq : s.outq = []) : s.tx.length = s.enq.length := by
  obtain ⟨pre, rest, e1, e2, e3⟩ := reachable_outInv hr
  have := congrArg List.length e2
  simp only [List.length_map] at this
  rw [e1, e3 ho, hq, List.append_nil, this]

/-! ### Over a USB cable -/

theorem usbPublishedOk_cons {U : UsbCfg V E SC Ctx} {l : ULabel V} {ls : List (ULabel V)} {u u' : UsbSys V E SC Ctx}
    (h : u_step U u l = some u') : usbPublishedOk U (l :: ls) u = usbPublishedOk U [l] u ++ usbPublishedOk U ls u' := by
  simp only [usbPublishedOk, h, List.append_nil]

/-- A run over a cable is one over links that carry whole messages, with the same publications of the client; if messages fit, none is
rejected. -/
theorem sim_published {U : UsbCfg V E SC Ctx} (hU : UsbSound U) {ls : List (ULabel V)} :
    ∀ {u u' : UsbSys V E SC Ctx}, UsbInv U.S u → (RequestsFit U u'.sys → u.rx ≠ .draining) → Small U.S u'.sys →
    u_run U ls u = some u' → UsbInv U.S u' ∧ (RequestsFit U u'.sys → u'.rx ≠ .draining) ∧
    ∃ ls', sys_run U.S ls' u.abs = some u'.abs ∧ (∀ l' ∈ ls', ∃ l ∈ ls, Stands l l') ∧
      publishedOk U.S ls' u.abs = usbPublishedOk U ls u ∧ (RequestsFit U u'.sys → ∀ l' ∈ ls', l' ≠ .reject) := by
  induction ls with
  | nil => intro u u' inv hrx _ h; cases h; exact ⟨inv, hrx, [], rfl, by simp, rfl, by simp⟩
  | cons l ls ih =>
    intro u u' inv hrx hsm h
    have hg := u_run_grows h
    simp only [u_run] at h
    split at h
    · rename_i v hv
      have hs : UsbInv U.S v ∧ (RequestsFit U u'.sys → v.rx ≠ .draining) ∧
          (v.abs = u.abs ∨ ∃ l', Stands l l' ∧ sys_step U.S u.abs l' = some v.abs ∧ (RequestsFit U u'.sys → l' ≠ .reject)) := by
        by_cases hf : RequestsFit U u'.sys
        · obtain ⟨i, r, hs⟩ := sim_fit hU inv (hrx hf) (small_before hsm hg.1) (fit_before hf hg.2) hv
          refine ⟨i, fun _ => r, ?_⟩
          rcases hs with e | ⟨l', st, hn, e⟩
          · exact .inl e
          · exact .inr ⟨l', st, e, fun _ => hn⟩
        · obtain ⟨i, hs⟩ := sim_step hU.buffer hU.some_buffer inv (small_before hsm hg.1) hv
          refine ⟨i, fun h => absurd h hf, ?_⟩
          rcases hs with e | ⟨l', st, e⟩
          · exact .inl e
          · exact .inr ⟨l', st, e, fun h => absurd h hf⟩
      obtain ⟨i, r, hs⟩ := hs
      obtain ⟨i', r', ls', h1, h2, h3, h4⟩ := ih i r hsm h
      refine ⟨i', r', ?_⟩
      rw [usbPublishedOk_cons hv]
      rcases hs with e | ⟨l', st, e, hn⟩
      · have : usbPublishedOk U [l] u = [] := by
          cases l with
          | client k =>
            simp only [usbPublishedOk, hv, List.append_nil]
            rcases u_step_client hv with ⟨k', ek, hk⟩ | ⟨hne, _⟩
            · cases ek
              have ec : v.sys.client = u.sys.client := congrArg (fun s => s.client) e
              rw [ec] at hk
              rcases okBy_step hk with ⟨_, g⟩ | ⟨_, _, _, _, _, g⟩ | ⟨_, _, _, g, _⟩
              · exact g
              · exact g
              · have := congrArg List.length g
                simp at this
            · exact absurd rfl (hne k)
          | _ => simp only [usbPublishedOk, hv, List.append_nil]
        refine ⟨ls', by rw [← e]; exact h1, fun l' hl' => ?_, by rw [this, List.nil_append, ← e]; exact h3, h4⟩
        obtain ⟨m, hm, hst⟩ := h2 l' hl'
        exact ⟨m, List.mem_cons_of_mem _ hm, hst⟩
      · refine ⟨l' :: ls', by simp only [sys_run, e]; exact h1, fun m hm => ?_, ?_, fun hf m hm => ?_⟩
        · rcases List.mem_cons.mp hm with rfl | hm
          · exact ⟨l, List.mem_cons_self .., st⟩
          · obtain ⟨m', hm', hst⟩ := h2 m hm
            exact ⟨m', List.mem_cons_of_mem _ hm', hst⟩
        · rw [publishedOk_cons (ls := ls') e, h3]
          congr 1
          simp only [publishedOk, usbPublishedOk, e, hv]
          cases st <;> rfl
        · rcases List.mem_cons.mp hm with rfl | hm
          · exact hn hf
          · exact h4 hf m hm
    · cases h

/-- At the start of a session the device is not in the middle of dropping a message. -/
theorem usb_sessions_rx {a : App V E SC Ctx} {U : UsbCfg V E SC Ctx} {es : List (UsbSys V E SC Ctx)} {u : UsbSys V E SC Ctx}
    (h : UsbSessions a U DevIdle es u) : u.rx ≠ .draining := by
  cases h with
  | first c => intro h; cases h
  | next es u0 u ls _ hu hrun hsm hlen hi =>
    intro e
    have : u.rx = .draining := e
    rw [hi.receiver] at this; cases this
  | replug es u0 u ls _ hu hrun hsm hlen => exact fun e => nomatch e

end PRpc
