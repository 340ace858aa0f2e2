import Verif.Lemmas.WorkbookRun
import Verif.Spec.Failed
/-! Helper lemmas for C90: what an error tells about the request it answers. -/

namespace PRpc

open Spec

variable {V E SC Ctx : Type}

/-- Sent by a topic handler. -/
def FromTopic (D : Dispatcher V E SC Ctx) (f : Frame V) : Prop :=
  ∃ (t : TpHandler V E Ctx) (g : Ctx → VarHeader → V → Prog V E Ctx) (c : Ctx) (hdr : VarHeader) (v : V), t ∈ D.tps ∧ t.flavor = .async g ∧
    MaySend (g c hdr v) f

theorem refusal_grows {D : Dispatcher V E SC Ctx} {kk : VarKeyKind} {log log' : List (Event V E SC)} {hdr : VarHeader} {body : Bytes}
    {ctx ctx' : Ctx} {e : WireError} (hl : ∃ x, log' = log ++ x) (h : Refusal D kk log hdr body ctx e ctx') : Refusal D kk log' hdr body ctx e ctx' := by
  obtain ⟨x, rfl⟩ := hl
  cases h with
  | key_too_small h1 => exact .key_too_small h1
  | unknown h1 h2 => exact .unknown h1 h2
  | ping_undecodable h1 h2 h3 => exact .ping_undecodable h1 h2 h3
  | undecodable h h1 h2 => exact .undecodable h h1 h2
  | unsent h g v fr x h1 h2 h3 h4 h5 => exact .unsent h g v fr x h1 h2 h3 h4 (List.mem_append_left _ h5)
  | unspawned h v h1 h2 h3 h4 => exact .unspawned h v h1 h2 h3 (List.mem_append_left _ h4)

/-- What the handling of a frame shows, if it is a frame with an error. -/
def Tells (D : Dispatcher V E SC Ctx) (kk : VarKeyKind) (hdr : VarHeader) (body : Bytes) (s s' : St V E SC Ctx) (ev : List (Event V E SC)) : Prop :=
  ∀ by_ f r e, .sent by_ f r ∈ ev → f.body = .err e →
    FromTopic D f ∨ (Refusal D kk s'.log hdr body s.ctx e s'.ctx ∧ ∀ j, spawned_ok j ev = [])

theorem handle_tells {env : Env V E SC} {D : Dispatcher V E SC Ctx} {kk : VarKeyKind} {hdr : VarHeader} {body : Bytes} {s s' : St V E SC Ctx}
    {r : Option E} (hh : handle env D kk hdr body s = .ok (r, s')) : ∃ ev, s'.log = s.log ++ ev ∧ Tells D kk hdr body s s' ev := by
  have one : ∀ (f : Frame V), (∀ log e, f.body = .err e → Refusal D kk log hdr body s.ctx e s.ctx) → Exec.ok (sendOne env f s) = .ok (r, s') →
      ∃ ev, s'.log = s.log ++ ev ∧ Tells D kk hdr body s s' ev := by
    intro f hf he
    simp only [sendOne, Exec.ok.injEq, Prod.mk.injEq] at he
    obtain ⟨_, rfl⟩ := he
    refine ⟨_, rfl, fun by_ g r e hg hb => .inr ⟨?_, fun j => rfl⟩⟩
    cases List.mem_singleton.mp hg
    exact hf _ e hb
  have err : ∀ e', (∀ log, Refusal D kk log hdr body s.ctx e' s.ctx) → ∀ log e, (errFrame D.std kk hdr.seq_no e' : Frame V).body = .err e →
      Refusal D kk log hdr body s.ctx e s.ctx := by
    intro e' h log e he
    have : Body.err (V := V) e' = .err e := (errFrame_isMsg (V := V) D.std kk hdr.seq_no e').body.symm.trans he
    cases this
    exact h log
  have none_of : ∀ {f : Frame V} {k q b}, IsMsg kk k q b f → (∀ e, b ≠ .err e) → ∀ e, f.body ≠ .err e := by
    intro f k q b hm hb e he
    exact hb e (hm.body.symm.trans he)
  rcases frame_cases D hdr with c | ⟨h, c⟩ | ⟨h, c, c'⟩ | ⟨g, hg, c⟩ | ⟨g, hg, c⟩ | ⟨h, c⟩
  · rw [handle_short _ _ _ _ _ _ c] at hh
    exact one _ (err _ fun _ => .key_too_small c) hh
  · rw [handle_ping _ _ _ _ _ _ h c] at hh
    cases hd : D.ping_decode body with
    | none => rw [hd] at hh; exact one _ (err _ fun _ => .ping_undecodable h c hd) hh
    | some v =>
      rw [hd] at hh
      exact one _ (fun _ e he => absurd he (none_of (replyFrame_isMsg ..) (fun _ h => by cases h) e)) hh
  · rw [handle_schemas _ _ _ _ _ _ h c c', send_all_schemas_eq] at hh
    cases hp : publish_loop env D.std kk (schemaMsgs D.device_map) 0#16 0#32 s with
    | panic => rw [hp] at hh; simp at hh
    | ok q =>
      rw [hp] at hh
      simp only [Exec.ok_bind] at hh
      obtain ⟨ev, a1, a2, a3⟩ := publish_loop_spec env D.std kk _ 0 0 s q hp
      have hlog : q.2.2.log = s.log ++ ev := by rw [a3]
      simp only [sendOne, Exec.ok.injEq, Prod.mk.injEq] at hh
      obtain ⟨_, rfl⟩ := hh
      refine ⟨ev ++ [_], by rw [hlog, List.append_assoc], fun by_ f r e hf he => ?_⟩
      rcases List.mem_append.mp hf with hf | hf
      · obtain ⟨f', r', e'⟩ := a1 _ hf
        cases e'
        have := ownFrames_mem hf
        rw [a2] at this
        obtain ⟨d, seq, hm⟩ := schemaFrames_mem this
        exact absurd he (none_of hm (fun _ h => by cases h) e)
      · cases List.mem_singleton.mp hf
        exact absurd he (none_of (replyFrame_isMsg ..) (fun _ h => by cases h) e)
  · rw [handle_ep _ _ _ _ _ _ g c] at hh
    cases hd : g.decode body with
    | none => rw [hd] at hh; exact one _ (err _ fun _ => .undecodable g c hd) hh
    | some v =>
      rw [hd] at hh
      have reply : ∀ fn, (g.flavor = .blocking fn ∨ g.flavor = .async fn) →
          Exec.ok (reply_arm env D.std kk g fn hdr v s) = .ok (r, s') → ∃ ev, s'.log = s.log ++ ev ∧ Tells D kk hdr body s s' ev := by
        intro fn hfl he
        rw [reply_arm_eq] at he
        have hm := replyFrame_isMsg kk g.resp hdr.seq_no (Body.val (fn s.ctx hdr v).1)
        simp only [sendOne] at he
        generalize env.send _ _ = x at he
        cases x with
        | none =>
          simp only [Exec.ok.injEq, Prod.mk.injEq] at he
          obtain ⟨_, rfl⟩ := he
          refine ⟨[_, _], by simp; exact ⟨rfl, rfl⟩, fun by_ f r e hf hb => ?_⟩
          simp only [List.mem_cons, List.not_mem_nil, or_false] at hf
          rcases hf with hf | hf
          · cases hf
          · cases hf
            exact absurd hb (none_of hm (fun _ h => by cases h) e)
        | some x =>
          simp only [Exec.ok.injEq, Prod.mk.injEq] at he
          obtain ⟨_, rfl⟩ := he
          refine ⟨[_, _, _], by simp; exact ⟨rfl, rfl, rfl⟩, fun by_ f r e hf hb => ?_⟩
          simp only [List.mem_cons, List.not_mem_nil, or_false] at hf
          rcases hf with hf | hf | hf
          · cases hf
          · cases hf
            exact absurd hb (none_of hm (fun _ h => by cases h) e)
          · cases hf
            have : Body.err (V := V) .SerFailed = .err e := (errFrame_isMsg (V := V) D.std kk hdr.seq_no .SerFailed).body.symm.trans hb
            cases this
            exact .inr ⟨.unsent g fn v _ x c hfl hd hm (by simp), fun j => rfl⟩
      simp only [ep_arm] at hh
      split at hh
      · rename_i fn hfl; exact reply fn (.inl hfl) hh
      · rename_i fn hfl; exact reply fn (.inr hfl) hh
      · rename_i hfl
        simp only [St.note, sender_error_eq, sendOne] at hh
        split at hh
        · simp only [Exec.ok.injEq, Prod.mk.injEq] at hh
          obtain ⟨_, rfl⟩ := hh
          exact ⟨_, rfl, fun by_ f r e hf _ => by cases List.mem_singleton.mp hf⟩
        · rename_i hok
          simp only [Exec.ok.injEq, Prod.mk.injEq] at hh
          obtain ⟨_, rfl⟩ := hh
          have hok : env.spawn s.log (⟨.endpoint, g.name, (D.spawn_ctxt s.ctx).1, hdr, v⟩ : Task V SC) = false := by simpa using hok
          refine ⟨[_, _], by simp; exact ⟨rfl, rfl⟩, fun by_ f r e hf hb => ?_⟩
          simp only [List.mem_cons, List.not_mem_nil, or_false] at hf
          rcases hf with hf | hf
          · cases hf
          · cases hf
            have : Body.err (V := V) .FailedToSpawn = .err e := (errFrame_isMsg (V := V) D.std kk hdr.seq_no .FailedToSpawn).body.symm.trans hb
            cases this
            refine .inr ⟨.unspawned g v c hfl hd ?_, fun j => ?_⟩
            · rw [hok]; simp
            · rw [hok]; rfl
  · rw [handle_tp _ _ _ _ _ _ g c] at hh
    cases hd : g.decode body with
    | none =>
      rw [hd] at hh
      simp only [Exec.ok.injEq, Prod.mk.injEq] at hh
      obtain ⟨_, rfl⟩ := hh
      exact ⟨[], by simp, fun by_ f r e hf _ => by cases hf⟩
    | some v =>
      rw [hd] at hh
      simp only [Exec.ok.injEq, Prod.mk.injEq] at hh
      obtain ⟨_, rfl⟩ := hh
      simp only [tp_arm]
      split
      · exact ⟨_, rfl, fun by_ f r e hf _ => by cases List.mem_singleton.mp hf⟩
      · rename_i fn hfl
        obtain ⟨ev, h1, h2⟩ := prog_events env (fn s.ctx hdr v) (s.note (.ran .topic g.name hdr v))
        refine ⟨.ran .topic g.name hdr v :: ev, by rw [h1]; simp [St.note], fun by_ f r e hf _ => .inl ?_⟩
        rcases List.mem_cons.mp hf with hf | hf
        · cases hf
        · obtain ⟨f', r', e', hm⟩ := h2 _ hf
          cases e'
          exact ⟨g, fn, s.ctx, hdr, v, hg, hfl, hm⟩
      · exact ⟨_, rfl, fun by_ f r e hf _ => by cases List.mem_singleton.mp hf⟩
  · rw [handle_unknown _ _ _ _ _ _ h c] at hh
    exact one _ (err _ fun _ => .unknown h c) hh

/-- The same for one turn of the server loop. -/
theorem serve_tells {S : SysCfg V E SC Ctx} {s s' : Sys V E SC Ctx} (h : serve S s = some s') :
    ∃ b up srv ev, s.client.tx[s.taken]? = some b ∧ s' = s.served S up srv ∧ srv.log = s.srv.log ++ ev ∧
      (ev = [] ∨ ∃ hdr body, IsFrame b hdr body ∧ Tells S.disp S.kkind hdr body s.srv srv ev) := by
  simp only [serve] at h
  split at h
  · split at h
    · cases h
    · rename_i b hb
      rcases take_cases b with e | ⟨hdr, body, e⟩
      · simp only [server_run, e, Exec.ok_bind] at h
        exact ⟨b, true, s.srv, [], hb, (Option.some.inj h).symm, (List.append_nil _).symm, .inl rfl⟩
      · simp only [server_run, e, Exec.ok_bind] at h
        cases hh : handle S.env S.disp S.kkind hdr body s.srv with
        | panic => rw [hh] at h; simp at h
        | ok q =>
          obtain ⟨r, srv⟩ := q
          rw [hh] at h
          simp only [Exec.ok_bind] at h
          obtain ⟨ev, h1, h2⟩ := handle_tells hh
          have fin : ∀ up, some (s.served S up srv) = some s' →
              ∃ b up srv ev, s.client.tx[s.taken]? = some b ∧ s' = s.served S up srv ∧ srv.log = s.srv.log ++ ev ∧
                (ev = [] ∨ ∃ hdr body, IsFrame b hdr body ∧ Tells S.disp S.kkind hdr body s.srv srv ev) := fun up h =>
            ⟨b, up, srv, ev, hb, (Option.some.inj h).symm, h1, .inr ⟨hdr, body, (isFrame_iff ..).mpr e, h2⟩⟩
          cases r with
          | none => exact fin _ h
          | some x =>
            simp only at h
            cases hk : S.tx_kind x with
            | ConnectionClosed => rw [hk] at h; exact fin _ h
            | Other => rw [hk] at h; exact fin _ h
            | Timeout => rw [hk] at h; exact fin _ h
  · cases h

/-- Frames with errors tell why. -/
def ErrInv (S : SysCfg V E SC Ctx) (s : Sys V E SC Ctx) : Prop :=
  ∀ o j e, o ∈ s.outs ∨ o ∈ s.pending → o.src = .req j → o.frame.body = .err e →
    FromTopic S.disp o.frame ∨ ∃ hdr body, RefusedAt S.disp S.kkind s j hdr body e

theorem errInv_new (S : SysCfg V E SC Ctx) (c0 : Ctx) : ErrInv S (Sys.new c0) :=
  fun o j e h => by rcases h with h | h <;> cases h

theorem refusedAt_later {D : Dispatcher V E SC Ctx} {kk : VarKeyKind} {s s' : Sys V E SC Ctx} {j : Nat} {hdr : VarHeader} {body : Bytes}
    {e : WireError} (htx : ∃ x, s'.client.tx = s.client.tx ++ x) (hc : ∃ x, contexts s' = contexts s ++ x) (hl : ∃ x, s'.srv.log = s.srv.log ++ x)
    (ho : s'.old = s.old) (ht : ∀ (i : Nat) x, s'.tasks[i]? = some x → s.tasks[i]? = some x ∨ x.1 ≠ j)
    (h : RefusedAt D kk s j hdr body e) : RefusedAt D kk s' j hdr body e := by
  obtain ⟨b, h1, h2⟩ := h.sent
  obtain ⟨ctx, ctx', h3, h4, h5⟩ := h.why
  refine ⟨⟨b, get_append htx h1, h2⟩, ⟨ctx, ctx', get_append hc h3, get_append hc h4, refusal_grows hl h5⟩, fun i x hi hx => ?_⟩
  rcases ht i x hx with hx | hx
  · exact h.unspawned i x (by rw [← ho]; exact hi) hx
  · exact hx

theorem sys_step_errInv {c0 : Ctx} {S : SysCfg V E SC Ctx} {s s' : Sys V E SC Ctx} {l : SLabel V}
    (h : sys_step S s l = some s') (cinv : CtxInv c0 S s) (inv : ErrInv S s) : ErrInv S s' := by
  have hp := sys_step_parts h
  have htx := (sys_step_later h).tx
  have same : (∃ x, s'.srv.log = s.srv.log ++ x) → s'.old = s.old → s'.tasks = s.tasks →
      (∀ o j, o ∈ s'.outs ∨ o ∈ s'.pending → o.src = .req j → o ∈ s.outs ∨ o ∈ s.pending) → ErrInv S s' := by
    intro h1 h2 h3 h4 o j e ho hj hb
    rcases inv o j e (h4 o j ho hj) hj hb with h | ⟨hdr, body, h⟩
    · exact .inl h
    · exact .inr ⟨hdr, body, refusedAt_later htx hp.2 h1 h2 (fun i x hx => .inl (by rw [← h3]; exact hx)) h⟩
  have send : ∀ {src : Src} {r : Option E × St V E SC Ctx} {f}, Sys.send S s src r f = some s' → (∀ j, src ≠ .req j) →
      (∃ x, r.2.log = s.srv.log ++ x) → ErrInv S s' := by
    intro src r f h hs hr
    have put : ∀ {t : Sys V E SC Ctx} {o : Out V}, Sys.put S t o = some s' → (∀ j, o.src ≠ .req j) → (∃ x, t.srv.log = s.srv.log ++ x) →
        t.old = s.old → t.tasks = s.tasks → t.outs = s.outs → t.pending = s.pending → ErrInv S s' := by
      intro t o h hs hr e1 e2 e3 e4
      simp only [Sys.put] at h
      split at h
      · cases h
        refine same hr e1 e2 (fun o' j ho hj => ?_)
        rcases ho with ho | ho
        · rcases List.mem_append.mp ho with ho | ho
          · exact .inl (by rw [← e3]; exact ho)
          · rw [List.mem_singleton.mp ho] at hj
            exact absurd hj (hs j)
        · exact .inr (by rw [← e4]; exact ho)
      · cases h
    simp only [Sys.send] at h
    split at h
    · exact put h hs hr rfl rfl rfl rfl
    · exact put h hs hr rfl rfl rfl rfl
  cases l with
  | client l =>
    obtain ⟨c, hc, ⟨b, air, _, _, rfl⟩ | ⟨_, rfl⟩⟩ := client_step_cases h
    · exact same ⟨[], (List.append_nil _).symm⟩ rfl rfl (fun o j h _ => h)
    · exact same ⟨[], (List.append_nil _).symm⟩ rfl rfl (fun o j h _ => h)
  | serve =>
    obtain ⟨b, up, srv, ev, hb, rfl, hlog, hev⟩ := serve_tells h
    have hdrop : srv.log.drop s.srv.log.length = ev := by rw [hlog]; exact List.drop_left ..
    intro o j e ho hj hbd
    rcases ho with ho | ho
    · rcases inv o j e (.inl ho) hj hbd with h | ⟨hdr, body, h⟩
      · exact .inl h
      · refine .inr ⟨hdr, body, refusedAt_later htx hp.2 ⟨ev, hlog⟩ rfl (fun i x hx => ?_) h⟩
        have hlt := cinv.srcs o j (.inl ho) hj
        have hx : (s.tasks ++ spawned_ok s.taken (srv.log.drop s.srv.log.length))[i]? = some x := hx
        rcases Nat.lt_or_ge i s.tasks.length with hi | hi
        · rw [List.getElem?_append_left hi] at hx; exact .inl hx
        · rw [List.getElem?_append_right hi] at hx
          have := (spawned_ok_mem (List.mem_iff_getElem?.mpr ⟨_, hx⟩)).1
          exact .inr (by omega)
    · have ho : o ∈ sent_ok S.cut (.req s.taken) s.srv.log (srv.log.drop s.srv.log.length) := ho
      rw [hdrop] at ho
      obtain ⟨h1, _, by_, r, h3⟩ := sent_ok_mem ho
      rw [hj] at h1
      cases h1
      rcases hev with rfl | ⟨hdr, body, hf, ht⟩
      · cases h3
      · rcases ht by_ _ r e h3 hbd with h | ⟨hr, hs⟩
        · exact .inl h
        · have hcl : s.before.length = s.taken := cinv.len
          refine .inr ⟨hdr, body, ⟨b, hb, hf⟩, ⟨s.srv.ctx, srv.ctx, ?_, ?_, hr⟩, fun i x hi hx => ?_⟩
          · show ((s.before ++ [s.srv.ctx]) ++ [srv.ctx])[s.taken]? = _
            rw [← hcl]; simp
          · show ((s.before ++ [s.srv.ctx]) ++ [srv.ctx])[s.taken + 1]? = _
            rw [← hcl]; simp
          · have hx : (s.tasks ++ spawned_ok s.taken (srv.log.drop s.srv.log.length))[i]? = some x := hx
            rw [hdrop, hs, List.append_nil] at hx
            have := cinv.tasks i x hi hx
            omega
  | reject =>
    simp only [sys_step, reject] at h
    split at h
    · cases h
      exact same ⟨[], (List.append_nil _).symm⟩ rfl rfl (fun o j h _ => h)
    · cases h
  | flush =>
    simp only [sys_step] at h
    split at h
    · cases h
    · rename_i o rest e
      simp only [Sys.put] at h
      split at h
      · cases h
        refine same ⟨[], (List.append_nil _).symm⟩ rfl rfl (fun o' j ho _ => ?_)
        rcases ho with ho | ho
        · rcases List.mem_append.mp ho with ho | ho
          · exact .inl ho
          · rw [List.mem_singleton.mp ho, e]; exact .inr (List.mem_cons_self ..)
        · rw [e]; exact .inr (List.mem_cons_of_mem _ ho)
      · cases h
  | task_reply i v =>
    simp only [sys_step, task_reply] at h
    split at h
    · cases h
    · split at h
      · cases h
      · split at h
        · cases h
        · refine send h (fun j e => by cases e) ?_
          rw [sender_reply_eq]; exact ⟨_, rfl⟩
  | app_publish key seq v => exact send h (fun j e => by cases e) ⟨_, rfl⟩

theorem sys_run_errInv {c0 : Ctx} {S : SysCfg V E SC Ctx} {ls : List (SLabel V)} {s s' : Sys V E SC Ctx}
    (h : sys_run S ls s = some s') (cinv : CtxInv c0 S s) (inv : ErrInv S s) : ErrInv S s' := by
  induction ls generalizing s with
  | nil => cases h; exact inv
  | cons l ls ih =>
    simp only [sys_run] at h
    split at h
    · rename_i s1 hs
      exact ih h (sys_step_ctxInv hs cinv) (sys_step_errInv hs cinv inv)
    · cases h

end PRpc
