import Verif.Spec.Session
import Verif.Lemmas.System
import Verif.Lemmas.LiveRest
/-! Helper lemmas about sessions: what remains of the earlier ones. -/

namespace PRpc

open Spec

variable {V E SC Ctx : Type}

/-- What a step does to the tasks and to the frames put on the link or about to be. -/
theorem sys_step_sources {S : SysCfg V E SC Ctx} {s s' : Sys V E SC Ctx} {l : SLabel V} (h : sys_step S s l = some s') :
    (∃ x, s'.tasks = s.tasks ++ x) ∧ ∀ o, o ∈ s'.pending ∨ o ∈ s'.outs → ∀ i, o.src = .task i →
      (o ∈ s.pending ∨ o ∈ s.outs) ∨ ∃ v, l = .task_reply i v := by
  have put : ∀ {s s' : Sys V E SC Ctx} {o : Out V}, Sys.put S s o = some s' →
      s'.tasks = s.tasks ∧ s'.pending = s.pending ∧ s'.outs = s.outs ++ [o] := by
    intro s s' o h
    simp only [Sys.put] at h
    split at h
    · cases h; exact ⟨rfl, rfl, rfl⟩
    · cases h
  have send : ∀ {src r f}, Sys.send S s src r f = some s' →
      s'.tasks = s.tasks ∧ s'.pending = s.pending ∧ ∃ o : Out V, o.src = src ∧ s'.outs = s.outs ++ [o] := by
    intro src r f h
    simp only [Sys.send] at h
    split at h
    · have := put h; exact ⟨this.1, this.2.1, _, rfl, this.2.2⟩
    · have := put h; exact ⟨this.1, this.2.1, _, rfl, this.2.2⟩
  have sent : ∀ {src r f}, Sys.send S s src r f = some s' → (∀ i, src = .task i → ∃ v, l = .task_reply i v) →
      (∃ x, s'.tasks = s.tasks ++ x) ∧ ∀ o, o ∈ s'.pending ∨ o ∈ s'.outs → ∀ i, o.src = .task i →
      (o ∈ s.pending ∨ o ∈ s.outs) ∨ ∃ v, l = .task_reply i v := by
    intro src r f h hl
    obtain ⟨h1, h2, o, h3, h4⟩ := send h
    refine ⟨⟨[], by rw [h1, List.append_nil]⟩, fun o' ho i hi => ?_⟩
    rw [h2, h4] at ho
    rcases ho with ho | ho
    · exact .inl (.inl ho)
    · rcases List.mem_append.mp ho with ho | ho
      · exact .inl (.inr ho)
      · rw [List.mem_singleton.mp ho, h3] at hi
        exact .inr (hl i hi)
  cases l with
  | client l =>
    simp only [sys_step, client_step] at h
    repeat' split at h
    all_goals first
      | (cases h; done)
      | (cases h; exact ⟨same_nil _, fun o ho _ _ => .inl ho⟩)
  | serve =>
    obtain ⟨b, up, srv, hb, rfl, hp, _⟩ := serve_cases h
    refine ⟨⟨_, rfl⟩, fun o ho i hi => ?_⟩
    rcases ho with ho | ho
    · rw [(sent_ok_mem ho).1] at hi
      cases hi
    · exact .inl (.inr ho)
  | reject =>
    simp only [sys_step, reject] at h
    split at h
    · cases h; exact ⟨same_nil _, fun o ho _ _ => .inl ho⟩
    · cases h
  | flush =>
    simp only [sys_step] at h
    split at h
    · cases h
    · rename_i o rest e
      obtain ⟨h1, h2, h3⟩ := put h
      refine ⟨⟨[], by rw [h1, List.append_nil]⟩, fun o' ho i hi => .inl ?_⟩
      rw [h2, h3] at ho
      rw [e]
      rcases ho with ho | ho
      · exact .inl (List.mem_cons_of_mem _ ho)
      · rcases List.mem_append.mp ho with ho | ho
        · exact .inr ho
        · rw [List.mem_singleton.mp ho]
          exact .inl (List.mem_cons_self ..)
  | task_reply i v =>
    simp only [sys_step, task_reply] at h
    repeat' split at h
    all_goals first
      | (cases h; done)
      | exact sent h (fun k e => by cases e; exact ⟨v, rfl⟩)
  | app_publish key seq v => exact sent h (fun k e => by cases e)

theorem sys_run_tasks {S : SysCfg V E SC Ctx} {ls : List (SLabel V)} : ∀ {s s' : Sys V E SC Ctx}, sys_run S ls s = some s' →
    ∃ x, s'.tasks = s.tasks ++ x := by
  induction ls with
  | nil => intro s s' h; cases h; exact same_nil _
  | cons l ls ih =>
    intro s s' h
    simp only [sys_run] at h
    split at h
    · rename_i t ht
      obtain ⟨x, hx⟩ := (sys_step_sources ht).1
      obtain ⟨y, hy⟩ := ih h
      exact ⟨x ++ y, by rw [hy, hx, List.append_assoc]⟩
    · cases h

/-- If no earlier task replies, none of the frames is from one. -/
theorem sys_run_sources {S : SysCfg V E SC Ctx} {n : Nat} {ls : List (SLabel V)} : ∀ {s s' : Sys V E SC Ctx}, sys_run S ls s = some s' →
    OwnTasks n ls → (∀ o, o ∈ s.pending ∨ o ∈ s.outs → ∀ i, o.src = .task i → n ≤ i) →
    ∀ o, o ∈ s'.pending ∨ o ∈ s'.outs → ∀ i, o.src = .task i → n ≤ i := by
  induction ls with
  | nil => intro s s' h _ h0; cases h; exact h0
  | cons l ls ih =>
    intro s s' h hown h0
    simp only [sys_run] at h
    split at h
    · rename_i t ht
      refine ih h (fun i v hi => hown i v (List.mem_cons_of_mem _ hi)) fun o ho i hi => ?_
      rcases (sys_step_sources ht).2 o ho i hi with ho | ⟨v, rfl⟩
      · exact h0 o ho i hi
      · exact hown i v (List.mem_cons_self ..)
    · cases h

/-- At the start of a session: nothing on the links, and every task belongs to an earlier session. -/
structure StartInv (a : App V E SC Ctx) (S : SysCfg V E SC Ctx) (es : List (Sys V E SC Ctx)) (s : Sys V E SC Ctx) : Prop where
  inv : SysInv a S s
  old : s.old = s.tasks.length
  quiet : s.pending = [] ∧ s.outs = []
  tasks : ∀ (i : Nat) j t, s.tasks[i]? = some (j, t) → ∃ e ∈ es, SysInv a S e ∧ e.client.calls.length < 2 ^ 32 ∧
    ∃ body, Taken e j t.hdr body ∧ TaskFor S.disp t.hdr body t

theorem sessions_start {a : App V E SC Ctx} {S : SysCfg V E SC Ctx} {es : List (Sys V E SC Ctx)} {s : Sys V E SC Ctx}
    (h : Sessions a S es s) : StartInv a S es s := by
  induction h with
  | first c => exact ⟨sysInv_new a S c, rfl, ⟨rfl, rfl⟩, fun i j t h => by simp [Sys.new] at h⟩
  | next es s s' ls _ hu hrun hlen ih =>
    have inv := sys_run_inv hrun hu ih.inv
    refine ⟨sysInv_reconnect a S s', rfl, ⟨rfl, rfl⟩, fun i j t ht => ?_⟩
    have ht : s'.tasks[i]? = some (j, t) := ht
    rcases Nat.lt_or_ge i s'.old with hold | hold
    · obtain ⟨x, hx⟩ := sys_run_tasks hrun
      rw [sys_run_old hrun, ih.old] at hold
      rw [hx, List.getElem?_append_left hold] at ht
      obtain ⟨e, he, h⟩ := ih.tasks i j t ht
      exact ⟨e, List.mem_append.mpr (.inl he), h⟩
    · obtain ⟨hdr, body, h1, h2⟩ := inv.tasks i j t ht hold
      have := h2.same
      subst this
      exact ⟨s', by simp, inv, hlen, body, h1, h2⟩

/-- The task of an endpoint was spawned for a request of a client. -/
theorem task_request {a : App V E SC Ctx} {S : SysCfg V E SC Ctx} (hD : Receives a S.disp)
    (hdecl : Declared a S.kkind) {e : Sys V E SC Ctx} (inv : SysInv a S e) (hlen : e.client.calls.length < 2 ^ 32) {j : Nat}
    {t : Task V SC} {body : Bytes} (ht : Taken e j t.hdr body) (hfor : TaskFor S.disp t.hdr body t) (hrole : t.role = .endpoint)
    {h : EpHandler V Ctx} (hm : h ∈ S.disp.eps) (hname : h.name = t.name) :
    ∃ c cl, RequestOf e c cl j t.hdr ∧ h.flavor = .spawn ∧ cl.rqst.header.key = .Key8 h.req ∧ h.decode cl.rqst.body = some t.arg := by
  obtain ⟨⟨hh, _, _, heps, _⟩, din⟩ := id hD
  obtain ⟨h', hm', hf, hname', hfl, hdec⟩ := hfor.row hrole
  have : h = h' := nodup_names (by rw [heps]; exact hdecl.names) hm hm' (hname.trans hname'.symm)
  subst this
  have hq : h.req ∈ a.endpoint_list.endpoints.map (·.req) := by
    rw [heps] at hm
    exact (hh (h.req, h.resp) (List.mem_map.mpr ⟨h, hm, rfl⟩)).1
  rcases taken_origin hD hdecl inv ht with ⟨c, cl, r, k, hc, hr, ek, er, eh, eb, erx⟩ | ⟨p, pb, _, tp, htp, _, erx⟩
  · have e1 : h.req = r.req := apart_eq din (List.mem_append.mpr (.inl hq))
      (List.mem_append.mpr (.inl (List.mem_map.mpr ⟨r, hr, rfl⟩))) (hf.here.symm.trans (erx hf.long))
    refine ⟨c, cl, ?_, hfl, by rw [ek, e1], by rw [← eb]; exact hdec⟩
    have esq : t.hdr.seq_no = cl.rqst.header.seq_no := by rw [eh]; rfl
    obtain ⟨b, t1, t2⟩ := ht
    have typed : ∀ x ∈ e.client.calls, x.typed = true := by
      intro x hx
      obtain ⟨n, hn⟩ := List.mem_iff_getElem?.mp hx
      exact inv.typed n x hn
    refine ⟨hc, ⟨b, t1, (isFrame_iff ..).mpr (by rw [← eb]; exact t2)⟩, ⟨keyLen k, ?_⟩, esq, ?_⟩
    · rw [eh]
      exact (shrink_shortened cl.rqst k).key
    · intro c2 cl2 h2 e2
      by_cases hne : c2 = c
      · exact hne
      · exact absurd (by rw [e2, esq]) (Props.c37_sequence_condition inv.reach typed hlen hc c2 cl2 hne h2)
  · exact absurd (hf.here.symm.trans (erx hf.long)) (apart_parts din hq (List.mem_map.mpr ⟨tp, htp, rfl⟩))

theorem sessions_live {a : App V E SC Ctx} {S : SysCfg V E SC Ctx} {es : List (Sys V E SC Ctx)} {s : Sys V E SC Ctx}
    (h : Sessions a S es s) : LiveInv a S s := by
  cases h with
  | first c => exact liveInv_new a S c
  | next es s s' ls _ _ _ _ => exact liveInv_reconnect a S s'

/-- The context changes only when the server takes a message, and then the one before is noted. -/
theorem sys_step_ctx {S : SysCfg V E SC Ctx} {s s' : Sys V E SC Ctx} {l : SLabel V} (h : sys_step S s l = some s') :
    (s'.before = s.before ∧ s'.srv.ctx = s.srv.ctx) ∨ s'.before = s.before ++ [s.srv.ctx] := by
  have put : ∀ {s s' : Sys V E SC Ctx} {o : Out V}, Sys.put S s o = some s' → s'.before = s.before ∧ s'.srv = s.srv := by
    intro s s' o h
    simp only [Sys.put] at h
    split at h
    · cases h; exact ⟨rfl, rfl⟩
    · cases h
  have send : ∀ {src f} {r : Option E × St V E SC Ctx}, r.2.ctx = s.srv.ctx → Sys.send S s src r f = some s' →
      s'.before = s.before ∧ s'.srv.ctx = s.srv.ctx := by
    intro src f r hr h
    simp only [Sys.send] at h
    split at h
    · have := put h; exact ⟨this.1, by rw [this.2]; exact hr⟩
    · have := put h; exact ⟨this.1, by rw [this.2]; exact hr⟩
  cases l with
  | client l =>
    simp only [sys_step, client_step] at h
    repeat' split at h
    all_goals first
      | (cases h; done)
      | (cases h; exact .inl ⟨rfl, rfl⟩)
  | serve =>
    obtain ⟨b, up, srv, _, rfl, _⟩ := serve_cases h
    exact .inr rfl
  | reject =>
    simp only [sys_step, reject] at h
    split at h
    · cases h; exact .inr rfl
    · cases h
  | flush =>
    simp only [sys_step] at h
    split at h
    · cases h
    · have := put h; exact .inl ⟨this.1, by rw [this.2]⟩
  | task_reply i v =>
    simp only [sys_step, task_reply] at h
    repeat' split at h
    all_goals first
      | (cases h; done)
      | exact .inl (send (by rw [sender_reply_eq]; rfl) h)
  | app_publish key seq v =>
    simp only [sys_step, app_publish] at h
    exact .inl (send (by rw [sender_publish_eq]; rfl) h)

theorem sys_run_ctx {S : SysCfg V E SC Ctx} {c : Ctx} {ls : List (SLabel V)} : ∀ {s s' : Sys V E SC Ctx}, sys_run S ls s = some s' →
    ((s.before = [] ∧ s.srv.ctx = c) ∨ s.before[0]? = some c) → (s'.before = [] ∧ s'.srv.ctx = c) ∨ s'.before[0]? = some c := by
  induction ls with
  | nil => intro s s' h h0; cases h; exact h0
  | cons l ls ih =>
    intro s s' h h0
    simp only [sys_run] at h
    split at h
    · rename_i t ht
      refine ih h ?_
      rcases sys_step_ctx ht with ⟨h1, h2⟩ | h1
      · rw [h1, h2]; exact h0
      · right
        rw [h1]
        rcases h0 with ⟨h2, h3⟩ | h2
        · rw [h2, h3]; rfl
        · obtain ⟨hl, _⟩ := List.getElem?_eq_some_iff.mp h2
          rw [List.getElem?_append_left hl]; exact h2
    · cases h

theorem row_unique_resp {n : Nat} {rows : List EpRow} {ys : List Key} (d : DistinctAt n (rows.map (·.resp) ++ ys)) {r r' : EpRow}
    (h1 : r ∈ rows) (h2 : r' ∈ rows) (e : r.resp = r'.resp) : r = r' := by
  obtain ⟨i, hi, rfl⟩ := List.getElem_of_mem h1
  obtain ⟨j, hj, rfl⟩ := List.getElem_of_mem h2
  by_cases hij : i = j
  · subst hij; rfl
  · refine absurd ?_ (d i j (by simp; omega) (by simp; omega) hij)
    rw [List.getElem_append_left (by simpa using hi), List.getElem_append_left (by simpa using hj)]
    simp [e]

/-- If each handler is that of a listed endpoint, a task of an earlier session answers calls of its own endpoint only. -/
theorem stale_handler {a : App V E SC Ctx} {S : SysCfg V E SC Ctx} (hD : define_dispatch a = .ok S.disp) {s : Sys V E SC Ctx} (inv : SysInv a S s)
    {c : Nat} {cl : Call} {req : Key} (hc : s.client.calls[c]? = some cl) (hk : cl.rqst.header.key = .Key8 req) {o : Out V} {k j : Nat}
    {t : Task V SC} (hst : StaleReply S.disp s cl.resp_key o k j t)
    (hlist : ∀ h ∈ a.eps, ∃ r ∈ a.endpoint_list.endpoints, r.req = h.req ∧ r.resp = h.resp) : ∃ h ∈ S.disp.eps, h.req = req := by
  obtain ⟨g, hg, _, hr⟩ := hst.row
  have hga := hg
  rw [(define_dispatch_ok hD).2.2.1] at hga
  obtain ⟨r', hr', e1, e2⟩ := hlist g hga
  obtain ⟨r, hm, k1, k2⟩ := inv.calls c cl hc
  cases row_unique_resp (Props.c10_dispatcher_key_length _ _ (define_dispatch_ok hD).1).2.2.1 hr' hm (e2.trans (hr.trans k2))
  exact ⟨g, hg, e1.symm.trans (VarKey.Key8.inj (k1.symm.trans hk))⟩

/-- In the first session there is none. -/
theorem stale_none {a : App V E SC Ctx} {S : SysCfg V E SC Ctx} {s0 s : Sys V E SC Ctx} (h0 : Sessions a S [] s0) {ls : List (SLabel V)}
    (hrun : sys_run S ls s0 = some s) {resp : Key} {o : Out V} {k j : Nat} {t : Task V SC} : ¬ StaleReply S.disp s resp o k j t := by
  intro h
  have st := sessions_start h0
  have hk := h.earlier
  have ht := h.task
  obtain ⟨x, hx⟩ := sys_run_tasks hrun
  rw [sys_run_old hrun, st.old] at hk
  rw [hx, List.getElem?_append_left hk] at ht
  obtain ⟨e, he, _⟩ := st.tasks k j t ht
  cases he

end PRpc
