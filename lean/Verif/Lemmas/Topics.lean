import Verif.Lemmas.QSysRun
import Verif.Lemmas.Held
import Verif.Lemmas.ClientMulti
import Verif.Lemmas.ClientHist
import Verif.Spec.Topics
/-! Helper lemmas for C94: publications on their way to the subscribers. -/

namespace PRpc

open Spec

variable {V E SC Ctx : Type}

/-! ### Lists -/

theorem filterMap_sublist {α β : Type} {f g : α → Option β} : ∀ {l : List α}, (∀ x ∈ l, ∀ m, f x = some m → g x = some m) →
    (l.filterMap f).Sublist (l.filterMap g)
  | [], _ => List.Sublist.refl _
  | x :: l, h => by
    have ih := filterMap_sublist (l := l) fun y hy => h y (List.mem_cons_of_mem _ hy)
    rw [List.filterMap_cons, List.filterMap_cons]
    cases hf : f x with
    | none =>
      simp only
      cases g x with
      | none => exact ih
      | some b => exact ih.cons _
    | some m =>
      rw [h x (List.mem_cons_self ..) m hf]
      exact ih.cons_cons _

/-! ### What is put on the link -/

/-- The publication of topic `key` a frame is, if it is one. -/
def topicOut (n : VarKeyKind) (key : Key) (o : Out V) : Option (Publication V) :=
  if keyBytes o.frame.hdr.key = short (keyLen n) key then
    match o.frame.body with
    | .val v => some ⟨o.frame.hdr.seq_no, v, o.cut.isNone⟩
    | _ => none
  else none

/-- What is assumed of the application and its topic `key`. -/
structure TopicCtx (a : App V E SC Ctx) (S : SysCfg V E SC Ctx) (key : Key) : Prop where
  disp : Dispatches a S.disp
  decl : Declared a S.kkind
  apart : KeysApart a S
  topic : AppTopic a S.kkind key
  err : short (keyLen S.kkind) key ≠ short (keyLen S.kkind) a.std.error

theorem TopicCtx.other {a : App V E SC Ctx} {S : SysCfg V E SC Ctx} {key : Key} (x : TopicCtx a S key) {k : Key}
    (hk : k ∈ a.topic_out_list.topics.map (·.key)) (e : short (keyLen S.kkind) k = short (keyLen S.kkind) key) : k = key := by
  obtain ⟨t, ht, rfl⟩ := x.topic.listed
  exact apart_eq x.apart (List.mem_append_right _ hk) (List.mem_append_right _ (List.mem_map.mpr ⟨t, ht, rfl⟩)) e

theorem TopicCtx.resp {a : App V E SC Ctx} {S : SysCfg V E SC Ctx} {key : Key} (x : TopicCtx a S key) {k : Key}
    (hk : k ∈ a.endpoint_list.endpoints.map (·.resp)) : short (keyLen S.kkind) k ≠ short (keyLen S.kkind) key := by
  obtain ⟨t, ht, rfl⟩ := x.topic.listed
  exact fun e => apart_parts x.apart hk (List.mem_map.mpr ⟨t, ht, rfl⟩) e

/-- What is not put on the link by code of the application outside dispatch is not of the topic. -/
theorem not_topic {a : App V E SC Ctx} {S : SysCfg V E SC Ctx} {key : Key} (x : TopicCtx a S key) {s : Sys V E SC Ctx} {o : Out V}
    (ho : OutOk a S s o) (hs : o.src ≠ .app) : keyBytes o.frame.hdr.key ≠ short (keyLen S.kkind) key := by
  obtain ⟨⟨⟨hh, _, hstd, heps, htps⟩, _⟩, _⟩ := x.disp
  have declared : ∀ h ∈ S.disp.eps, h.resp ∈ a.endpoint_list.endpoints.map (·.resp) := by
    intro h hm
    rw [heps] at hm
    exact (hh (h.req, h.resp) (List.mem_map.mpr ⟨h, hm, rfl⟩)).2
  obtain ⟨src, fr, cut⟩ := o
  unfold OutOk at ho
  cases src with
  | req j =>
    obtain ⟨hdr, body, ctx, h1, h2, h3⟩ := ho
    cases h3 with
    | err e _ he => rw [hstd] at he; intro e'; exact x.err (e'.symm.trans he.key)
    | ran h g v hm _ _ _ hmsg => intro e; exact x.resp (declared h hm) (hmsg.key.symm.trans e)
    | ping v _ _ _ hmsg =>
      obtain ⟨r, hr, _, e2⟩ := x.decl.ping
      intro e; exact x.resp (List.mem_map.mpr ⟨r, hr, by rw [hstd]; exact e2⟩) (hmsg.key.symm.trans e)
    | totals t _ _ hmsg =>
      obtain ⟨r, hr, _, e2⟩ := x.decl.schemas
      intro e; exact x.resp (List.mem_map.mpr ⟨r, hr, by rw [hstd]; exact e2⟩) (hmsg.key.symm.trans e)
    | schema d seq _ _ hmsg =>
      obtain ⟨t, ht, e2⟩ := x.decl.schema_topic
      intro e
      refine x.topic.schemas (x.other (k := a.std.schema_topic) (List.mem_map.mpr ⟨t, ht, e2⟩) ?_).symm
      rw [hstd] at hmsg
      exact hmsg.key.symm.trans e
    | topic t g v c hm hfl hmay =>
      rw [htps] at hm
      exact x.topic.handlers t hm g hfl c hdr v fr hmay
  | task i =>
    obtain ⟨j, t, h, w, _, _, hfind, hmsg⟩ := ho
    intro e; exact x.resp (declared h (List.mem_of_find?_eq_some hfind)) (hmsg.key.symm.trans e)
  | app => exact absurd rfl hs

theorem not_topicOut {a : App V E SC Ctx} {S : SysCfg V E SC Ctx} {key : Key} (x : TopicCtx a S key) {s : Sys V E SC Ctx} {o : Out V}
    (ho : OutOk a S s o) (hs : o.src ≠ .app) : topicOut S.kkind key o = none := if_neg (not_topic x ho hs)

theorem put_outs {S : SysCfg V E SC Ctx} {s s' : Sys V E SC Ctx} {o : Out V} (h : Sys.put S s o = some s') : s'.outs = s.outs ++ [o] := by
  simp only [Sys.put, frame_bytes_eq] at h
  cases h; rfl

theorem send_outs {S : SysCfg V E SC Ctx} {s s' : Sys V E SC Ctx} {src : Src} {r : Option E × St V E SC Ctx} {f : Frame V}
    (h : Sys.send S s src r f = some s') : ∃ cut, s'.outs = s.outs ++ [⟨src, f, cut⟩] ∧ cut.isNone = r.1.isNone := by
  simp only [Sys.send] at h
  split at h
  · rename_i e; have := put_outs h; exact ⟨some _, this, by rw [e]; rfl⟩
  · rename_i e; have := put_outs h; exact ⟨none, this, by rw [e]; rfl⟩

theorem put_pending {S : SysCfg V E SC Ctx} {s s' : Sys V E SC Ctx} {o : Out V} (h : Sys.put S s o = some s') : s'.pending = s.pending := by
  simp only [Sys.put, frame_bytes_eq] at h
  cases h; rfl

theorem send_pending {S : SysCfg V E SC Ctx} {s s' : Sys V E SC Ctx} {src : Src} {r : Option E × St V E SC Ctx} {f : Frame V}
    (h : Sys.send S s src r f = some s') : s'.pending = s.pending := by
  simp only [Sys.send] at h
  split at h
  · have := put_pending h; exact this
  · have := put_pending h; exact this

/-- What waits to be put on the link is the dispatcher's. -/
def PendReq (s : Sys V E SC Ctx) : Prop := ∀ o ∈ s.pending, ∃ j, o.src = .req j

theorem sent_ok_src (cut : List (Event V E SC) → Frame V → Nat) (src : Src) : ∀ (ev log : List (Event V E SC)), ∀ o ∈ sent_ok cut src log ev, o.src = src
  | [], _, o, h => by simp [sent_ok] at h
  | e :: es, log, o, h => by
    have ih := fun log => sent_ok_src cut src es log o
    cases e with
    | sent b f r =>
      cases r with
      | none =>
        rw [sent_ok] at h
        rcases List.mem_cons.mp h with rfl | h
        · rfl
        · exact ih _ h
      | some r =>
        rw [sent_ok] at h
        rcases List.mem_cons.mp h with rfl | h
        · rfl
        · exact ih _ h
    | ran a b c d => rw [sent_ok] at h; exact ih _ h
    | spawned t ok => rw [sent_ok] at h; exact ih _ h

theorem pendReq_step {S : SysCfg V E SC Ctx} {s s' : Sys V E SC Ctx} {l : SLabel V} (h : sys_step S s l = some s') (inv : PendReq s) :
    PendReq s' := by
  have same : s'.pending = s.pending → PendReq s' := fun e o ho => inv o (by rw [← e]; exact ho)
  cases l with
  | client l =>
    refine same ?_
    simp only [sys_step, client_step] at h
    (repeat' split at h) <;> first | (cases h; done) | (cases h; rfl)
  | serve =>
    obtain ⟨b, up, srv, hb, rfl, _⟩ := serve_cases h
    exact fun o ho => ⟨_, sent_ok_src _ _ _ _ o ho⟩
  | reject =>
    refine same ?_
    simp only [sys_step, reject] at h
    split at h <;> cases h
    rfl
  | flush =>
    simp only [sys_step] at h
    split at h
    · cases h
    · rename_i o tl e
      intro o' ho'
      rw [put_pending h] at ho'
      exact inv o' (by rw [e]; exact List.mem_cons_of_mem _ ho')
  | task_reply i v =>
    simp only [sys_step, task_reply] at h
    (repeat' split at h) <;> first | (cases h; done) | exact same (send_pending h)
  | app_publish k seq v => exact same (send_pending h)

/-- The publications are what is put on the link for the topic. -/
theorem pubs_step {a : App V E SC Ctx} {S : SysCfg V E SC Ctx} {key : Key} (x : TopicCtx a S key) {s s' : Sys V E SC Ctx} {l : SLabel V}
    (inv : SysInv a S s) (pr : PendReq s) (h : sys_step S s l = some s') (hu : Used a l) :
    s'.outs.filterMap (topicOut S.kkind key) = s.outs.filterMap (topicOut S.kkind key) ++ publications S key [l] s := by
  have same : s'.outs = s.outs → publications S key [l] s = [] →
      s'.outs.filterMap (topicOut S.kkind key) = s.outs.filterMap (topicOut S.kkind key) ++ publications S key [l] s := by
    intro e1 e2; rw [e1, e2, List.append_nil]
  have one : ∀ {o : Out V}, s'.outs = s.outs ++ [o] → topicOut S.kkind key o = none → publications S key [l] s = [] →
      s'.outs.filterMap (topicOut S.kkind key) = s.outs.filterMap (topicOut S.kkind key) ++ publications S key [l] s := by
    intro o e1 e2 e3
    rw [e1, e3, List.filterMap_append, List.filterMap_cons, e2]; rfl
  have rest : (match sys_step S s l with | some s' => publications S key [] s' | none => []) = [] := by
    cases sys_step S s l <;> rfl
  cases l with
  | client l =>
    refine same ?_ (by simp only [publications]; exact rest)
    simp only [sys_step, client_step] at h
    (repeat' split at h) <;> first | (cases h; done) | (cases h; rfl)
  | serve =>
    obtain ⟨b, up, srv, hb, rfl, _⟩ := serve_cases h
    exact same rfl (by simp only [publications]; exact rest)
  | reject =>
    refine same ?_ (by simp only [publications]; exact rest)
    simp only [sys_step, reject] at h
    split at h <;> cases h
    rfl
  | flush =>
    have hp : publications S key [SLabel.flush] s = [] := by simp only [publications]; exact rest
    simp only [sys_step] at h
    split at h
    · cases h
    · rename_i o tl e
      have ho := inv.pend o (by rw [e]; exact List.mem_cons_self ..)
      have h1 := put_outs h
      obtain ⟨j, hj⟩ := pr o (by rw [e]; exact List.mem_cons_self ..)
      exact one h1 (not_topicOut x ho (by rw [hj]; simp)) hp
  | task_reply i v =>
    have hp : publications S key [SLabel.task_reply i v] s = [] := by simp only [publications]; exact rest
    simp only [sys_step, task_reply] at h
    split at h
    · cases h
    · rename_i j t ht
      split at h
      · cases h
      · rename_i hr
        split at h
        · cases h
        · rename_i hh hf
          obtain ⟨cut, h1, _⟩ := send_outs h
          refine one h1 (not_topicOut (s := s) x ?_ (by simp)) hp
          exact ⟨j, t, hh, v, ht, hr, hf, (short_shrink _ _).symm, rfl, rfl⟩
  | app_publish k seq v =>
    have hp : publications S key [.app_publish k seq v] s =
        if k = key then [⟨seq, v, (sender_publish S.env S.kkind k seq (.val v) s.srv).1.isNone⟩] else [] := by
      simp only [publications, h]
    rw [hp]
    simp only [sys_step, app_publish] at h
    obtain ⟨cut, h1, h2⟩ := send_outs h
    rw [h1, List.filterMap_append, List.filterMap_cons]
    congr 1
    obtain ⟨t, ht, e⟩ := hu
    by_cases hk : k = key
    · rw [if_pos hk, topicOut, if_pos (by rw [← hk]; exact (short_shrink _ _).symm)]
      simp only [h2, List.filterMap_nil]
    · rw [if_neg hk, topicOut, if_neg]
      · rfl
      · intro he
        exact hk (x.other (List.mem_map.mpr ⟨t, ht, e⟩) ((short_shrink _ _).trans he))

theorem publications_cons {S : SysCfg V E SC Ctx} {key : Key} {l : SLabel V} {ls : List (SLabel V)} {s s' : Sys V E SC Ctx}
    (h : sys_step S s l = some s') : publications S key (l :: ls) s = publications S key [l] s ++ publications S key ls s' := by
  cases l <;> simp only [publications, h, List.nil_append]
  split <;> rfl

theorem sys_run_append {S : SysCfg V E SC Ctx} {ls ks : List (SLabel V)} : ∀ {s s1 : Sys V E SC Ctx}, sys_run S ls s = some s1 →
    sys_run S (ls ++ ks) s = sys_run S ks s1 := by
  induction ls with
  | nil => intro s s1 h; cases h; rfl
  | cons l ls ih =>
    intro s s1 h
    simp only [sys_run, List.cons_append] at h ⊢
    split at h
    · exact ih h
    · cases h

theorem publications_append {S : SysCfg V E SC Ctx} {key : Key} {ls ks : List (SLabel V)} : ∀ {s s1 : Sys V E SC Ctx}, sys_run S ls s = some s1 →
    publications S key (ls ++ ks) s = publications S key ls s ++ publications S key ks s1 := by
  induction ls with
  | nil => intro s s1 h; cases h; rfl
  | cons l ls ih =>
    intro s s1 h
    simp only [sys_run] at h
    split at h
    · rename_i t ht
      rw [List.cons_append, publications_cons ht, publications_cons (ls := ls) ht, ih h, List.append_assoc]
    · cases h

/-- All that is kept along a run. -/
theorem pubs_run {a : App V E SC Ctx} {S : SysCfg V E SC Ctx} {key : Key} (x : TopicCtx a S key) {ls : List (SLabel V)} :
    ∀ {s s' : Sys V E SC Ctx}, sys_run S ls s = some s' → (∀ l ∈ ls, Used a l) → SysInv a S s → PendReq s →
    SysInv a S s' ∧ PendReq s' ∧
      s'.outs.filterMap (topicOut S.kkind key) = s.outs.filterMap (topicOut S.kkind key) ++ publications S key ls s := by
  induction ls with
  | nil => intro s s' h _ inv pr; cases h; exact ⟨inv, pr, by simp [publications]⟩
  | cons l ls ih =>
    intro s s' h hu inv pr
    simp only [sys_run] at h
    split at h
    · rename_i t ht
      obtain ⟨i1, i2, i3⟩ := ih h (fun l hl => hu l (List.mem_cons_of_mem _ hl)) (sys_step_inv ht (hu l (List.mem_cons_self ..)) inv)
        (pendReq_step ht pr)
      refine ⟨i1, i2, ?_⟩
      rw [i3, pubs_step x inv pr ht (hu l (List.mem_cons_self ..)), publications_cons (ls := ls) ht, List.append_assoc]
    · cases h

theorem step_client {S : SysCfg V E SC Ctx} {s s' : Sys V E SC Ctx} {l : SLabel V} (h : sys_step S s l = some s') :
    (s'.client = s.client ∧ clientSteps [l] = []) ∨ ∃ k, l = .client k ∧ step S.cfg s.client k = some s'.client := by
  cases l with
  | client l =>
    refine .inr ⟨l, rfl, ?_⟩
    simp only [sys_step, client_step] at h
    (repeat' split at h) <;> first | (cases h; done) | (cases h; assumption)
  | serve =>
    obtain ⟨b, up, srv, hb, rfl, _⟩ := serve_cases h
    exact .inl ⟨rfl, rfl⟩
  | reject =>
    simp only [sys_step, reject] at h
    split at h <;> cases h
    exact .inl ⟨rfl, rfl⟩
  | flush =>
    simp only [sys_step] at h
    split at h
    · cases h
    · simp only [Sys.put, frame_bytes_eq] at h
      cases h; exact .inl ⟨rfl, rfl⟩
  | task_reply i v =>
    simp only [sys_step, task_reply, Sys.send, Sys.put, frame_bytes_eq] at h
    (repeat' split at h) <;> first | (cases h; done) | (cases h; exact .inl ⟨rfl, rfl⟩)
  | app_publish k seq v =>
    simp only [sys_step, app_publish, Sys.send, Sys.put, frame_bytes_eq] at h
    (repeat' split at h) <;> first | (cases h; done) | (cases h; exact .inl ⟨rfl, rfl⟩)

theorem clientSteps_cons (l : SLabel V) (ls : List (SLabel V)) : clientSteps (l :: ls) = clientSteps [l] ++ clientSteps ls := by
  cases l <;> rfl

theorem clientSteps_append (ls ks : List (SLabel V)) : clientSteps (ls ++ ks) = clientSteps ls ++ clientSteps ks := by
  induction ls with
  | nil => rfl
  | cons l ls ih => rw [List.cons_append, clientSteps_cons, ih, clientSteps_cons l ls, List.append_assoc]

/-- The client's steps are a run of the client. -/
theorem client_run {S : SysCfg V E SC Ctx} {ls : List (SLabel V)} : ∀ {s s' : Sys V E SC Ctx}, sys_run S ls s = some s' →
    run S.cfg (clientSteps ls) s.client = some s'.client := by
  induction ls with
  | nil => intro s s' h; cases h; rfl
  | cons l ls ih =>
    intro s s' h
    simp only [sys_run] at h
    split at h
    · rename_i t ht
      rw [clientSteps_cons]
      rcases step_client ht with ⟨e1, e2⟩ | ⟨k, rfl, e⟩
      · rw [e2, List.nil_append, ← e1]; exact ih h
      · show run S.cfg (k :: clientSteps ls) s.client = _
        rw [run, e]; exact ih h
    · cases h

theorem over_back {S : SysCfg V E SC Ctx} {s s' : Sys V E SC Ctx} {l : SLabel V} (h : sys_step S s l = some s')
    (ho : s'.client.in_pc.over = false) : s.client.in_pc.over = false := by
  rcases step_client h with ⟨e, _⟩ | ⟨k, _, e⟩
  · rw [← e]; exact ho
  · exact ((step_arr e).1 ho).1

/-- As `OrdInv`, also once the receive worker is over. -/
structure Watch (S : SysCfg V E SC Ctx) (s : Sys V E SC Ctx) (z : List (Out V × Option RpcFrame)) : Prop where
  fed : ∃ os, s.outs = z.map (·.1) ++ os
  got : s.client.subs.arrived <+: z.filterMap (·.2)
  fate : ∀ p ∈ z, Fate S.enc p
  live : s.client.in_pc.over = false → OrdInv S s z

theorem OrdInv.watch {S : SysCfg V E SC Ctx} {s : Sys V E SC Ctx} {z : List (Out V × Option RpcFrame)} (h : OrdInv S s z) : Watch S s z := by
  obtain ⟨os, h1, _⟩ := h.fed
  exact ⟨⟨os, h1⟩, ⟨_, h.got⟩, h.fate, fun _ => h⟩

theorem watch_step {S : SysCfg V E SC Ctx} {s s' : Sys V E SC Ctx} {l : SLabel V} {z : List (Out V × Option RpcFrame)} (inv : Watch S s z)
    (h : sys_step S s l = some s') : ∃ z', Watch S s' z' ∧ z <+: z' := by
  cases ho : s'.client.in_pc.over with
  | false =>
    obtain ⟨z', h1, h2⟩ := ordInv_grows (inv.live (over_back h ho)) h
    exact ⟨z', h1.watch, h2 ho⟩
  | true =>
    refine ⟨z, ⟨?_, ?_, inv.fate, fun h => by rw [ho] at h; cases h⟩, List.prefix_rfl⟩
    · obtain ⟨os, h1⟩ := inv.fed
      obtain ⟨t, h2⟩ := sys_step_outs h
      exact ⟨os ++ t, by rw [← h2, h1, List.append_assoc]⟩
    · have : s'.client.subs.arrived = s.client.subs.arrived := by
        rcases step_client h with ⟨e, _⟩ | ⟨k, _, e⟩
        · rw [e]
        · exact ((step_arr e).2 ho).1
      rw [this]; exact inv.got

theorem watch_run {S : SysCfg V E SC Ctx} {ls : List (SLabel V)} : ∀ {s s' : Sys V E SC Ctx} {z : List (Out V × Option RpcFrame)},
    sys_run S ls s = some s' → Watch S s z → ∃ z', Watch S s' z' ∧ z <+: z' := by
  induction ls with
  | nil => intro s s' z h inv; cases h; exact ⟨z, inv, List.prefix_rfl⟩
  | cons l ls ih =>
    intro s s' z h inv
    simp only [sys_run] at h
    split at h
    · rename_i t ht
      obtain ⟨z1, i1, i2⟩ := watch_step inv ht
      obtain ⟨z2, j1, j2⟩ := ih h i1
      exact ⟨z2, j1, i2.trans j2⟩
    · cases h

/-! ### What arrives -/

/-- The frame of topic `key` that arrived, if it is one. -/
def heardOf (key : Key) (p : Out V × Option RpcFrame) : Option RpcFrame := p.2.filter fun f => decide (OfTopic key f)

theorem topic_heard (key : Key) (z : List (Out V × Option RpcFrame)) :
    (z.filterMap (·.2)).filter (fun f => decide (OfTopic key f)) = z.filterMap (heardOf key) := by
  rw [List.filter_filterMap]
  rfl

theorem of_topic_out {a : App V E SC Ctx} {S : SysCfg V E SC Ctx} {key : Key} (x : TopicCtx a S key) {s : Sys V E SC Ctx}
    (inv : SysInv a S s) {o : Out V} (ho : o ∈ s.outs) {f : RpcFrame} (hc : CarriesPart S.enc o f) (k : Key) :
    OfTopic k f ↔ keyBytes o.frame.hdr.key = short (keyLen S.kkind) k := by
  have hk := outKind_kind (out_kind x.disp x.decl inv (inv.outs o ho))
  have hl : (keyBytes o.frame.hdr.key).length = keyLen S.kkind := by rw [← kind_len, hk]
  rw [OfTopic, hc.header, hl]

/-- A frame of the topic is a publication. -/
theorem topicOut_of {a : App V E SC Ctx} {S : SysCfg V E SC Ctx} {key : Key} (x : TopicCtx a S key) {s : Sys V E SC Ctx}
    (inv : SysInv a S s) {o : Out V} (ho : o ∈ s.outs) (hk : keyBytes o.frame.hdr.key = short (keyLen S.kkind) key) :
    ∃ v, o.frame.body = .val v ∧ topicOut S.kkind key o = some ⟨o.frame.hdr.seq_no, v, o.cut.isNone⟩ := by
  have hok := inv.outs o ho
  by_cases hs : o.src = .app
  · unfold OutOk at hok
    rw [hs] at hok
    obtain ⟨r, hr, seq, v, hm⟩ := hok
    refine ⟨v, hm.body, ?_⟩
    rw [topicOut, if_pos hk, hm.body]
  · exact absurd hk (not_topic x hok hs)

theorem topicOut_not {n : VarKeyKind} {key : Key} {o : Out V} (h : ¬ keyBytes o.frame.hdr.key = short (keyLen n) key) :
    topicOut n key o = none := if_neg h

theorem heard_cases {a : App V E SC Ctx} {S : SysCfg V E SC Ctx} {key : Key} (x : TopicCtx a S key) {s : Sys V E SC Ctx}
    (inv : SysInv a S s) {p : Out V × Option RpcFrame} (ho : p.1 ∈ s.outs) (hf : Fate S.enc p) :
    (∃ f v, heardOf key p = some f ∧ CarriesPart S.enc p.1 f ∧ p.1.frame.body = .val v ∧
      topicOut S.kkind key p.1 = some ⟨p.1.frame.hdr.seq_no, v, p.1.cut.isNone⟩) ∨
    (heardOf key p = none ∧ (topicOut S.kkind key p.1 = none ∨ p.1.cut ≠ none)) := by
  cases hp : p.2 with
  | none =>
    rw [Fate, hp] at hf
    exact .inr ⟨by rw [heardOf, hp]; rfl, .inr hf⟩
  | some f =>
    rw [Fate, hp] at hf
    by_cases hk : keyBytes p.1.frame.hdr.key = short (keyLen S.kkind) key
    · obtain ⟨v, h1, h2⟩ := topicOut_of x inv ho hk
      refine .inl ⟨f, v, ?_, hf, h1, h2⟩
      rw [heardOf, hp, Option.filter_some, if_pos (by simpa using (of_topic_out x inv ho hf key).mpr hk)]
    · refine .inr ⟨?_, .inl (topicOut_not hk)⟩
      rw [heardOf, hp, Option.filter_some, if_neg (by simpa using fun e => hk ((of_topic_out x inv ho hf key).mp e))]

/-- Over a link that leaves nothing of failed sends, what arrives is what was published successfully. -/
theorem heard_clean {a : App V E SC Ctx} {S : SysCfg V E SC Ctx} {key : Key} (x : TopicCtx a S key) (hclean : Clean S) {s : Sys V E SC Ctx}
    (inv : SysInv a S s) {p : Out V × Option RpcFrame} (ho : p.1 ∈ s.outs) (hf : Fate S.enc p) :
    (heardOf key p).map (fun f => (f.header.seq_no, f.body)) =
      ((topicOut S.kkind key p.1).filter (·.ok)).map fun q => (q.seq, S.enc (.val q.msg)) := by
  rcases heard_cases x inv ho hf with ⟨f, v, h1, h2, h3, h4⟩ | ⟨h1, h2⟩
  · have hw := clean_whole hclean inv ho h2
    obtain ⟨e1, e2⟩ := h2.whole hw
    rw [h1, h4, hw]
    simp [Option.filter_some, e1, e2, h3]
  · rw [h1]
    rcases h2 with h2 | h2
    · rw [h2]; rfl
    · have : ∀ q, topicOut S.kkind key p.1 = some q → q.ok = false := by
        intro q hq
        rw [topicOut] at hq
        split at hq
        · split at hq
          · cases hq
            cases hc : p.1.cut with
            | none => exact absurd hc h2
            | some n => rfl
          · cases hq
        · cases hq
      cases hq : topicOut S.kkind key p.1 with
      | none => rfl
      | some q => rw [Option.filter_some, this q hq]; rfl

/-- What is not on the link was not sent whole. -/
theorem bits_nil {enc : Body V → Bytes} {os : List (Out V)} (h : os.flatMap (Out.bits enc) = []) : ∀ o ∈ os, o.cut ≠ none := by
  intro o ho hc
  have := List.flatMap_eq_nil_iff.mp h o ho
  rw [Out.bits, Out.part, hc] at this
  cases this

theorem topicOut_cut {n : VarKeyKind} {key : Key} {o : Out V} (h : o.cut ≠ none) {q : Publication V} (hq : topicOut n key o = some q) :
    q.ok = false := by
  rw [topicOut] at hq
  split at hq
  · split at hq
    · cases hq
      cases hc : o.cut with
      | none => exact absurd hc h
      | some n => rfl
    · cases hq
  · cases hq

theorem none_succeeded {n : VarKeyKind} {key : Key} {os : List (Out V)} (h : ∀ o ∈ os, o.cut ≠ none) :
    succeeded (os.filterMap (topicOut n key)) = [] := by
  rw [succeeded, List.filter_eq_nil_iff]
  intro q hq
  obtain ⟨o, ho, e⟩ := List.mem_filterMap.mp hq
  rw [topicOut_cut (h o ho) e]
  nofun

theorem succeeded_append (a b : List (Publication V)) : succeeded (a ++ b) = succeeded a ++ succeeded b := List.filter_append ..

/-- What arrived while a subscription was there, and what was published: `zs` are the frames put on the link that became due in that time,
`late` those publications made before it of which nothing had been handed on, `after` those since. -/
structure Heard (S : SysCfg V E SC Ctx) (key : Key) (s1 s : Sys V E SC Ctx) (early late after : List (Publication V))
    (zs : List (Out V × Option RpcFrame)) : Prop where
  part : topicPart key s1.client.subs.arrived.length s.client.subs.arrived <+: zs.filterMap (heardOf key)
  mem : ∀ p ∈ zs, p.1 ∈ s.outs
  fate : ∀ p ∈ zs, Fate S.enc p
  before : late <:+ early
  quiet : CaughtUp s1 → succeeded late = []
  pubs : (zs.map (·.1)).filterMap (topicOut S.kkind key) <+: late ++ after
  all : CaughtUp s → topicPart key s1.client.subs.arrived.length s.client.subs.arrived = zs.filterMap (heardOf key) ∧
    ∃ t, late ++ after = (zs.map (·.1)).filterMap (topicOut S.kkind key) ++ t ∧ succeeded t = []

theorem caughtUp_over {s : Sys V E SC Ctx} (h : CaughtUp s) : s.client.in_pc.over = false ∧ s.client.arrNow = s.client.subs.arrived := by
  obtain ⟨_, h2, h3, h4⟩ := h
  rw [Client.arrNow]
  cases hp : s.client.in_pc with
  | purge => exact absurd hp h3
  | exited => exact absurd hp h4
  | lookup f => exact absurd hp (h2 f)
  | _ => exact ⟨rfl, List.append_nil _⟩

theorem heard_of {a : App V E SC Ctx} {S : SysCfg V E SC Ctx} {key : Key} (x : TopicCtx a S key) {s0 s1 s : Sys V E SC Ctx}
    {ls1 ls2 : List (SLabel V)} (inv0 : SysInv a S s0) (pr0 : PendReq s0) (ho : s0.outs = []) (w0 : Watch S s0 [])
    (h1 : sys_run S ls1 s0 = some s1) (u1 : ∀ l ∈ ls1, Used a l) (h2 : sys_run S ls2 s1 = some s) (u2 : ∀ l ∈ ls2, Used a l)
    (mono : s1.client.subs.arrived <+: s.client.subs.arrived) :
    ∃ late zs, Heard S key s1 s (publications S key ls1 s0) late (publications S key ls2 s1) zs := by
  obtain ⟨inv1, pr1, e1⟩ := pubs_run x h1 u1 inv0 pr0
  obtain ⟨inv2, pr2, e2⟩ := pubs_run x h2 u2 inv1 pr1
  obtain ⟨z1, w1, _⟩ := watch_run h1 w0
  obtain ⟨z, w, z2, rfl⟩ := watch_run h2 w1
  obtain ⟨t1, g1⟩ := w1.got
  obtain ⟨za, zb, rfl, ga, gb⟩ := List.filterMap_eq_append_iff.mp g1.symm
  obtain ⟨os1, f1⟩ := w1.fed
  obtain ⟨os, f⟩ := w.fed
  rw [ho, List.filterMap_nil, List.nil_append, f1] at e1
  rw [f1, f] at e2
  simp only [List.map_append, List.filterMap_append, List.append_assoc] at e1 e2
  have e2 := List.append_cancel_left e2
  obtain ⟨t, gt⟩ := w.got
  obtain ⟨m, hm⟩ := mono
  have hmore : m ++ t = (zb ++ z2).filterMap (·.2) := by
    rw [← hm, List.append_assoc, List.filterMap_append, List.filterMap_append, ga, List.append_assoc] at gt
    rw [List.append_cancel_left gt, List.filterMap_append]
  have hpart : topicPart key s1.client.subs.arrived.length s.client.subs.arrived = m.filter fun f => decide (OfTopic key f) := by
    rw [topicPart, ← hm, List.drop_left]
  have hall : (m ++ t).filter (fun f => decide (OfTopic key f)) = (zb ++ z2).filterMap (heardOf key) := by rw [hmore, topic_heard]
  refine ⟨(zb.map (·.1)).filterMap (topicOut S.kkind key) ++ os1.filterMap (topicOut S.kkind key), zb ++ z2,
    ⟨?_, fun p hp => ?_, fun p hp => w.fate p ?_, ⟨_, e1⟩, fun hq => ?_, ?_, fun hq => ?_⟩⟩
  · rw [hpart, ← hall, List.filter_append]; exact List.prefix_append _ _
  · rw [f]
    refine List.mem_append_left _ (List.mem_map.mpr ⟨p, ?_, rfl⟩)
    rw [List.append_assoc]; exact List.mem_append_right _ hp
  · rw [List.append_assoc]; exact List.mem_append_right _ hp
  · obtain ⟨o1, o2⟩ := caughtUp_over hq
    obtain ⟨os', q1, q2⟩ := (w1.live o1).fed
    have q3 := (w1.live o1).got
    rw [o2, ← g1] at q3
    have ht1 : t1 = [] := by simpa using q3
    rw [ht1] at gb
    rw [f1] at q1
    have q1 := List.append_cancel_left q1
    subst q1
    have q2 := q2 o1
    rw [hq.air] at q2
    rw [succeeded_append, none_succeeded (bits_nil q2.symm), List.append_nil]
    refine none_succeeded fun o ho => ?_
    obtain ⟨p, hp, rfl⟩ := List.mem_map.mp ho
    have hn : p.2 = none := List.filterMap_eq_nil_iff.mp gb p hp
    have := w1.fate p (List.mem_append_right _ hp)
    rw [Fate, hn] at this
    exact this
  · refine ⟨os.filterMap (topicOut S.kkind key), ?_⟩
    rw [List.map_append, List.filterMap_append, List.append_assoc, List.append_assoc]
    exact e2
  · obtain ⟨o1, o2⟩ := caughtUp_over hq
    obtain ⟨os', q1, q2⟩ := (w.live o1).fed
    have q3 := (w.live o1).got
    rw [o2, ← gt] at q3
    have ht : t = [] := by simpa using q3
    rw [f] at q1
    have q1 := List.append_cancel_left q1
    subst q1
    have q2 := q2 o1
    rw [hq.air] at q2
    refine ⟨by rw [hpart, ← hall, ht, List.append_nil], os.filterMap (topicOut S.kkind key), ?_, none_succeeded (bits_nil q2.symm)⟩
    rw [List.map_append, List.filterMap_append, List.append_assoc, List.append_assoc]
    exact e2.symm

theorem filterMap_toMap {α β γ δ : Type} (h : α → Option β) (t : α → Option γ) (f : β → δ) (g : γ → δ) : ∀ {l : List α},
    (∀ x ∈ l, (h x).map f = (t x).map g) → (l.filterMap h).map f = (l.filterMap t).map g
  | [], _ => rfl
  | x :: l, hx => by
    have ih := filterMap_toMap h t f g (l := l) fun y hy => hx y (List.mem_cons_of_mem _ hy)
    have h0 := hx x (List.mem_cons_self ..)
    rw [List.filterMap_cons, List.filterMap_cons]
    cases h1 : h x <;> cases h2 : t x <;> rw [h1, h2] at h0 <;> simp_all

/-- What arrived, by sequence number and body, over a clean link. -/
theorem heard_pairs {a : App V E SC Ctx} {S : SysCfg V E SC Ctx} {key : Key} (x : TopicCtx a S key) (hclean : Clean S) {s : Sys V E SC Ctx}
    (inv : SysInv a S s) {zs : List (Out V × Option RpcFrame)} (hm : ∀ p ∈ zs, p.1 ∈ s.outs) (hf : ∀ p ∈ zs, Fate S.enc p) :
    AreThese S.enc (zs.filterMap (heardOf key)) (succeeded ((zs.map (·.1)).filterMap (topicOut S.kkind key))) := by
  rw [AreThese, succeeded, List.filter_filterMap, List.filterMap_map]
  exact filterMap_toMap _ _ _ _ fun p hp => heard_clean x hclean inv (hm p hp) (hf p hp)

/-- The values of the messages that arrived whole, or as a value at all. -/
theorem heard_values {a : App V E SC Ctx} {S : SysCfg V E SC Ctx} {key : Key} (x : TopicCtx a S key) {M : Type} {decode : Bytes → Option M}
    {val : V → M} {s : Sys V E SC Ctx} (inv : SysInv a S s) {zs : List (Out V × Option RpcFrame)} (hm : ∀ p ∈ zs, p.1 ∈ s.outs)
    (hf : ∀ p ∈ zs, Fate S.enc p)
    (hv : ∀ q ∈ (zs.map (·.1)).filterMap (topicOut S.kkind key), Understood decode (S.enc (.val q.msg)) (val q.msg)) :
    ((zs.filterMap (heardOf key)).filterMap (fun f => decode f.body)).Sublist
      (((zs.map (·.1)).filterMap (topicOut S.kkind key)).map fun q => val q.msg) ∧
    ((succeeded ((zs.map (·.1)).filterMap (topicOut S.kkind key))).map fun q => val q.msg).Sublist
      ((zs.filterMap (heardOf key)).filterMap fun f => decode f.body) := by
  have und : ∀ p ∈ zs, ∀ q, topicOut S.kkind key p.1 = some q → Understood decode (S.enc (.val q.msg)) (val q.msg) := fun p hp q hq =>
    hv q (List.mem_filterMap.mpr ⟨p.1, List.mem_map.mpr ⟨p, hp, rfl⟩, hq⟩)
  constructor
  · rw [List.filterMap_filterMap, List.filterMap_map, List.map_filterMap]
    refine filterMap_sublist fun p hp m hm' => ?_
    rcases heard_cases x inv (hm p hp) (hf p hp) with ⟨f, v, h1, h2, h3, h4⟩ | ⟨h1, h2⟩
    · rw [h1] at hm'
      obtain ⟨_, hpre⟩ := h2.begins
      rw [h3] at hpre
      show Option.map _ (topicOut S.kkind key p.1) = some m
      rw [h4, Option.map_some, understood_prefix (und p hp _ h4) hpre hm']
    · rw [h1] at hm'; cases hm'
  · rw [succeeded, List.filter_filterMap, List.filterMap_filterMap, List.filterMap_map, List.map_filterMap]
    refine filterMap_sublist fun p hp m hm' => ?_
    obtain ⟨q, hq, rfl⟩ := Option.map_eq_some_iff.mp hm'
    obtain ⟨hq, hok⟩ := Option.filter_eq_some_iff.mp hq
    rcases heard_cases x inv (hm p hp) (hf p hp) with ⟨f, v, h1, h2, h3, h4⟩ | ⟨h1, h2⟩
    · have hq : topicOut S.kkind key p.1 = some q := hq
      have e : q = _ := Option.some.inj (hq.symm.trans h4)
      have hc : p.1.cut = none := by rw [e] at hok; exact Option.isNone_iff_eq_none.mp hok
      obtain ⟨_, e2⟩ := h2.whole hc
      have hu := (und p hp q hq).1 []
      rw [List.append_nil] at hu
      rw [h1]
      show decode f.body = _
      rw [e2, h3, ← hu, e]
    · rcases h2 with h2 | h2
      · have hq : topicOut S.kkind key p.1 = some q := hq
        rw [h2] at hq; cases hq
      · rw [topicOut_cut h2 hq] at hok; cases hok

/-! ### Subscriptions -/

theorem estep_keeps {e e' : Exc} (h : EStep e e') {id : Nat} {c : Chan} (hc : e.ch[id]? = some c) :
    ∃ c', e'.ch[id]? = some c' ∧ c'.key = c.key ∧ c'.since = c.since := by
  have set : ∀ {ch : List Chan} {i : Nat} {y z : Chan}, ch[id]? = some c → ch[i]? = some y → z.key = y.key → z.since = y.since →
      ∃ c', (ch.set i z)[id]? = some c' ∧ c'.key = c.key ∧ c'.since = c.since := by
    intro ch i y z h1 h2 h3 h4
    by_cases e : id = i
    · subst e
      have : y = c := Option.some.inj (h2.symm.trans h1)
      subst this
      exact ⟨z, set_get_self h2 z, h3, h4⟩
    · exact ⟨c, by rw [set_get_ne z e]; exact h1, rfl, rfl⟩
  have snoc : ∀ {ch : List Chan} {y : Chan}, ch[id]? = some c → ∃ c', (ch ++ [y])[id]? = some c' ∧ c'.key = c.key ∧ c'.since = c.since :=
    fun h1 => ⟨c, by rw [List.getElem?_append_left (get_lt h1)]; exact h1, rfl, rfl⟩
  cases h with
  | skip => exact ⟨c, hc, rfl, rfl⟩
  | lose => exact ⟨c, hc, rfl, rfl⟩
  | waitGone => exact ⟨c, hc, rfl, rfl⟩
  | arriveNone => exact ⟨c, hc, rfl, rfl⟩
  | arriveWait => exact ⟨c, hc, rfl, rfl⟩
  | arriveDead => exact ⟨c, hc, rfl, rfl⟩
  | waitDead => exact ⟨c, hc, rfl, rfl⟩
  | purge => exact ⟨c, hc, rfl, rfl⟩
  | arriveOk _ _ _ _ _ _ _ _ h => exact set hc h rfl rfl
  | arriveDrop _ _ _ _ _ _ _ _ h => exact set hc h rfl rfl
  | waitOk _ _ _ _ _ _ h => exact set hc h rfl rfl
  | waitDrop _ _ _ _ _ _ h => exact set hc h rfl rfl
  | fresh => exact snoc hc
  | replace => exact snoc hc
  | recv _ _ _ _ _ _ _ _ h => exact set hc h rfl rfl
  | dropRx _ _ _ _ _ _ h => exact set hc h rfl rfl

theorem estep_arr {e e' : Exc} (h : EStep e e') : e.arr <+: e'.arr := by
  cases h <;> first | exact List.prefix_rfl | exact List.prefix_append _ _

theorem bstep_keeps {e e' : Bc} (h : BStep e e') {id : Nat} {r : BRx} (hr : e.rx[id]? = some r) :
    ∃ r', e'.rx[id]? = some r' ∧ r'.key = r.key ∧ r'.since = r.since := by
  have set : ∀ {rs : List BRx} {i : Nat} {y z : BRx}, rs[id]? = some r → rs[i]? = some y → z.key = y.key → z.since = y.since →
      ∃ r', (rs.set i z)[id]? = some r' ∧ r'.key = r.key ∧ r'.since = r.since := by
    intro rs i y z h1 h2 h3 h4
    by_cases e : id = i
    · subst e
      have : y = r := Option.some.inj (h2.symm.trans h1)
      subst this
      exact ⟨z, set_get_self h2 z, h3, h4⟩
    · exact ⟨r, by rw [set_get_ne z e]; exact h1, rfl, rfl⟩
  have snoc : ∀ {rs : List BRx} {y : BRx}, rs[id]? = some r → ∃ r', (rs ++ [y])[id]? = some r' ∧ r'.key = r.key ∧ r'.since = r.since :=
    fun h1 => ⟨r, by rw [List.getElem?_append_left (get_lt h1)]; exact h1, rfl, rfl⟩
  cases h with
  | skip => exact ⟨r, hr, rfl, rfl⟩
  | lose => exact ⟨r, hr, rfl, rfl⟩
  | arriveNone => exact ⟨r, hr, rfl, rfl⟩
  | arriveWait => exact ⟨r, hr, rfl, rfl⟩
  | arriveDead => exact ⟨r, hr, rfl, rfl⟩
  | remove => exact ⟨r, hr, rfl, rfl⟩
  | purge => exact ⟨r, hr, rfl, rfl⟩
  | arriveOk a x c rx f k b h hl =>
    refine ⟨if onChan b r then r.push (c.getD b 1) f else r, ?_, ?_, ?_⟩
    · show (List.map _ rx)[id]? = _
      rw [List.getElem?_map, show rx[id]? = some r from hr]; rfl
    · split
      · exact (push_fields _ _ _).2.2.1
      · rfl
    · split
      · exact (push_fields _ _ _).2.2.2.1
      · rfl
  | join => exact snoc hr
  | fresh => exact snoc hr
  | lag _ _ _ _ _ _ _ h => exact set hr h rfl rfl
  | recv _ _ _ _ _ _ _ _ _ h => exact set hr h rfl rfl
  | dropRx _ _ _ _ _ _ _ h => exact set hr h rfl rfl

theorem chan_kept {cfg : Cfg} {ls : List Label} {s s' : Client} (h : run cfg ls s = some s') {id : Nat} {c : Chan}
    (hc : s.subs.chans[id]? = some c) : ∃ c', s'.subs.chans[id]? = some c' ∧ c'.key = c.key ∧ c'.since = c.since :=
  run_induct (fun t => ∃ c', t.subs.chans[id]? = some c' ∧ c'.key = c.key ∧ c'.since = c.since) (fun t l t' ⟨c1, h1, h2, h3⟩ hs => by
    obtain ⟨c2, g1, g2, g3⟩ := estep_keeps (step_exc hs) (id := id) h1
    exact ⟨c2, g1, g2.trans h2, g3.trans h3⟩) ls s s' ⟨c, hc, rfl, rfl⟩ h

theorem brx_kept {cfg : Cfg} {ls : List Label} {s s' : Client} (h : run cfg ls s = some s') {id : Nat} {r : BRx}
    (hr : s.subs.brxs[id]? = some r) : ∃ r', s'.subs.brxs[id]? = some r' ∧ r'.key = r.key ∧ r'.since = r.since :=
  run_induct (fun t => ∃ r', t.subs.brxs[id]? = some r' ∧ r'.key = r.key ∧ r'.since = r.since) (fun t l t' ⟨c1, h1, h2, h3⟩ hs => by
    obtain ⟨c2, g1, g2, g3⟩ := bstep_keeps (step_bc hs) (id := id) h1
    exact ⟨c2, g1, g2.trans h2, g3.trans h3⟩) ls s s' ⟨r, hr, rfl, rfl⟩ h

theorem arrived_mono {cfg : Cfg} {ls : List Label} {s s' : Client} (h : run cfg ls s = some s') :
    s.subs.arrived <+: s'.subs.arrived :=
  run_induct (fun t => s.subs.arrived <+: t.subs.arrived) (fun t l t' h1 hs => h1.trans (estep_arr (step_exc hs))) ls s s'
    List.prefix_rfl h

/-- What a step that subscribes leaves. -/
theorem subscribes_starts {cfg : Cfg} {s s' : Client} {key : Key} {id : Nat} {l : Label} (hs : Subscribes s.subs key id l)
    (h : step cfg s l = some s') : ∃ c, s'.subs.chans[id]? = some c ∧ c.key = key ∧ c.since = s'.subs.arrived.length ∧ c.got = [] := by
  cases l with
  | sub_repl k d =>
    obtain ⟨rfl, hs⟩ := hs
    simp only [step] at h
    split at h
    · cases h
      simp only [subscribe_inner] at hs ⊢
      repeat' split at hs
      all_goals first
        | (cases hs; done)
        | (cases hs; simp_all [Chan.new])
    · cases h
  | sub_excl k d =>
    obtain ⟨rfl, hs⟩ := hs
    simp only [step] at h
    split at h
    · cases h
      simp only [subscribe_inner_exclusive] at hs ⊢
      repeat' split at hs
      all_goals first
        | (cases hs; done)
        | (cases hs; simp_all [Chan.new])
    · cases h
  | _ => exact hs.elim

theorem subscribesMulti_starts {cfg : Cfg} {s s' : Client} {key : Key} {id : Nat} {l : Label} (hs : SubscribesMulti s.subs key id l)
    (h : step cfg s l = some s') : ∃ r, s'.subs.brxs[id]? = some r ∧ r.key = key ∧ r.since = s'.subs.arrived.length ∧ r.got = [] := by
  cases l with
  | sub_multi k d =>
    obtain ⟨rfl, hs⟩ := hs
    simp only [step] at h
    split at h
    · cases h
      simp only [subscribe_multi_inner] at hs ⊢
      repeat' split at hs
      all_goals first
        | (cases hs; done)
        | (cases hs; simp_all)
    · cases h
  | _ => exact hs.elim

theorem subs_declared {a : App V E SC Ctx} {cfg : Cfg} {ls : List Label} (hl : ∀ l ∈ ls, ToDeclared a l) : ∀ {s s' : Client},
    run cfg ls s = some s' →
    (∀ c ∈ s.subs.chans, c.key ∈ a.topic_out_list.topics.map (·.key)) ∧ (∀ r ∈ s.subs.brxs, r.key ∈ a.topic_out_list.topics.map (·.key)) →
    (∀ c ∈ s'.subs.chans, c.key ∈ a.topic_out_list.topics.map (·.key)) ∧ (∀ r ∈ s'.subs.brxs, r.key ∈ a.topic_out_list.topics.map (·.key)) := by
  induction ls with
  | nil => intro s s' h h0; cases h; exact h0
  | cons l ls ih =>
    intro s s' h h0
    rw [run] at h
    split at h
    · rename_i t ht
      refine ih (fun l hm => hl l (List.mem_cons_of_mem _ hm)) h ?_
      have hl := hl l (List.mem_cons_self ..)
      have made : ∀ {s : Subs}, (∀ c ∈ s.chans, c.key ∈ a.topic_out_list.topics.map (·.key)) ↔
          ∀ m ∈ s.made, m.2 ∈ a.topic_out_list.topics.map (·.key) := by
        intro s; rw [Subs.made]; simp
      have joined : ∀ {s : Subs}, (∀ c ∈ s.brxs, c.key ∈ a.topic_out_list.topics.map (·.key)) ↔
          ∀ m ∈ s.joined, m ∈ a.topic_out_list.topics.map (·.key) := by
        intro s; rw [Subs.joined]; simp
      rw [made, joined] at h0 ⊢
      constructor
      · rcases step_made ht with e | ⟨k, d, hk, e⟩
        · rw [e]; exact h0.1
        · rw [e]
          intro m hm
          rcases List.mem_append.mp hm with hm | hm
          · exact h0.1 m hm
          · rw [List.mem_singleton.mp hm]
            rcases hk with rfl | rfl <;> exact List.mem_map.mpr hl
      · rcases step_joined ht with e | ⟨k, d, hk, e⟩
        · rw [e]; exact h0.2
        · rw [e]
          intro m hm
          rcases List.mem_append.mp hm with hm | hm
          · exact h0.2 m hm
          · rw [List.mem_singleton.mp hm]
            subst hk
            exact List.mem_map.mpr hl
    · cases h

/-- No frame that arrived is of two declared topics. -/
theorem arrived_apart {a : App V E SC Ctx} {S : SysCfg V E SC Ctx} {key : Key} (x : TopicCtx a S key) {s : Sys V E SC Ctx}
    (inv : SysInv a S s) {z : List (Out V × Option RpcFrame)} (w : Watch S s z) {f : RpcFrame} (hf : f ∈ s.client.subs.arrived) {k1 k2 : Key}
    (h1 : k1 ∈ a.topic_out_list.topics.map (·.key)) (h2 : k2 ∈ a.topic_out_list.topics.map (·.key)) (t1 : OfTopic k1 f)
    (t2 : OfTopic k2 f) : k1 = k2 := by
  obtain ⟨p, hp, e⟩ := List.mem_filterMap.mp (w.got.subset hf)
  obtain ⟨os, ho⟩ := w.fed
  have hm : p.1 ∈ s.outs := by rw [ho]; exact List.mem_append_left _ (List.mem_map.mpr ⟨p, hp, rfl⟩)
  have hc := w.fate p hp
  rw [Fate, e] at hc
  rw [of_topic_out x inv hm hc] at t1 t2
  exact apart_eq x.apart (List.mem_append_right _ h1) (List.mem_append_right _ h2) (t1.symm.trans t2)

/-! ### What subscribers get -/

theorem heard_order {a : App V E SC Ctx} {S : SysCfg V E SC Ctx} {key : Key} (x : TopicCtx a S key) {s1 s : Sys V E SC Ctx}
    {early late after : List (Publication V)} {zs : List (Out V × Option RpcFrame)} (inv : SysInv a S s)
    (H : Heard S key s1 s early late after zs) {L : List RpcFrame}
    (hL : L.Sublist (topicPart key s1.client.subs.arrived.length s.client.subs.arrived)) : SomeOf S L (late ++ after) := by
  have hL := hL.trans H.part.sublist
  refine ⟨fun hclean => ?_, fun M decode val hv => ?_⟩
  · have hp := heard_pairs x hclean inv H.mem H.fate
    have h1 := hL.map fun f => (f.header.seq_no, f.body)
    rw [AreThese] at hp
    rw [hp] at h1
    obtain ⟨qs, h2, h3⟩ := List.sublist_map_iff.mp h1
    exact ⟨qs, h2.trans (H.pubs.sublist.filter _), h3⟩
  · have hp := heard_values x (decode := decode) (val := val) inv H.mem H.fate fun q hq => hv q (H.pubs.subset hq)
    exact (hL.filterMap _).trans (hp.1.trans (H.pubs.sublist.map _))

theorem heard_all {a : App V E SC Ctx} {S : SysCfg V E SC Ctx} {key : Key} (x : TopicCtx a S key) {s1 s : Sys V E SC Ctx}
    {early late after : List (Publication V)} {zs : List (Out V × Option RpcFrame)} (inv : SysInv a S s)
    (H : Heard S key s1 s early late after zs) (hq : CaughtUp s) :
    AllOf S (topicPart key s1.client.subs.arrived.length s.client.subs.arrived) (late ++ after) := by
  obtain ⟨h1, t, h2, h3⟩ := H.all hq
  have he : succeeded (late ++ after) = succeeded ((zs.map (·.1)).filterMap (topicOut S.kkind key)) := by
    rw [h2, succeeded_append, h3, List.append_nil]
  refine ⟨fun hclean => ?_, fun M decode val hv => ?_⟩
  · rw [h1, he]; exact heard_pairs x hclean inv H.mem H.fate
  · rw [h1, he]
    exact (heard_values x (decode := decode) (val := val) inv H.mem H.fate fun q hq => hv q (H.pubs.subset hq)).2

end PRpc
