import Verif.Lemmas.Context
import Verif.Props.Server
/-! C69: handlers share one context. -/

namespace PRpc.Props

open Spec

variable {V E SC Ctx : Type}

/-- C69, one frame: dispatching it turns the context into what its handler makes of it (through `spawn_ctxt` for a spawned
one), and leaves it alone if there is no handler for it. -/
theorem c69_context (env : Env V E SC) (D : Dispatcher V E SC Ctx) (kkind : VarKeyKind) (hdr : VarHeader) (body : Bytes)
    (s s' : St V E SC Ctx) (r : Option E) (h : handle env D kkind hdr body s = .ok (r, s')) :
    ∃ ev, s'.log = s.log ++ ev ∧ Leaves D hdr body s.ctx (handlerSends ev) s'.ctx := by
  have one : ∀ (f : Frame V) (t : St V E SC Ctx), (sendOne env f t).2.ctx = t.ctx ∧
      ∃ x, (sendOne env f t).2.log = t.log ++ [.sent .dispatcher f x] := fun f t => ⟨rfl, _, rfl⟩
  have sent : ∀ (f : Frame V), handle env D kkind hdr body s = .ok (sendOne env f s) → NoHandler D hdr body →
      ∃ ev, s'.log = s.log ++ ev ∧ Leaves D hdr body s.ctx (handlerSends ev) s'.ctx := by
    intro f e hn
    rw [e] at h
    have h2 : s' = (sendOne env f s).2 := by cases h; rfl
    subst h2
    exact ⟨_, rfl, .untouched hn⟩
  rcases frame_cases D hdr with c | ⟨hl, c⟩ | ⟨hl, c, c'⟩ | ⟨g, hg, c⟩ | ⟨g, hg, c⟩ | ⟨hl, c⟩
  · exact sent _ (handle_short _ _ _ _ _ _ c) (noHandler_of fun q => c q.1)
  · have hn : NoHandler D hdr body := noHandler_of fun q => q.2.1 c
    have e := handle_ping env D kkind hdr body s hl c
    cases hd : D.ping_decode body with
    | none => rw [hd] at e; exact sent _ e hn
    | some req => rw [hd] at e; exact sent _ e hn
  · rw [handle_schemas _ _ _ _ _ _ hl c c', send_all_schemas_eq] at h
    cases hq : publish_loop env D.std kkind (schemaMsgs D.device_map) 0#16 0#32 s with
    | panic => rw [hq] at h; cases h
    | ok q =>
      obtain ⟨ev, h1, _, rfl⟩ := publish_loop_spec env D.std kkind (schemaMsgs D.device_map) 0 0 s q hq
      rw [hq] at h
      simp only [Exec.ok_bind, Exec.ok.injEq] at h
      obtain ⟨_, rfl⟩ := h
      refine ⟨ev ++ [_], by rw [List.append_assoc], ?_⟩
      rw [handlerSends_append, handlerSends_own h1]
      exact .untouched (noHandler_of fun q => q.2.2 c')
  · have e := handle_ep env D kkind hdr body s g c
    cases hd : g.decode body with
    | none =>
      rw [hd] at e
      refine sent _ e ⟨fun h' hf => by rw [forEndpoint_unique hf c]; exact hd, fun t ht => ?_⟩
      exact absurd c.here (ht.notEp g hg)
    | some req =>
      rw [hd] at e
      rw [e] at h
      simp only [Exec.ok.injEq] at h
      have called : ∀ f, (g.flavor = .blocking f ∨ g.flavor = .async f) → reply_arm env D.std kkind g f hdr req s = (r, s') →
          ∃ ev, s'.log = s.log ++ ev ∧ Leaves D hdr body s.ctx (handlerSends ev) s'.ctx := by
        intro f hfl h
        simp only [reply_arm, sender_reply_eq, sender_error_eq] at h
        split at h
        · cases h
          refine ⟨[_, _, _], by simp only [sendOne, St.note, List.append_assoc]; rfl, ?_⟩
          exact .endpoint c hd hfl
        · cases h
          refine ⟨[_, _], by simp only [sendOne, St.note, List.append_assoc]; rfl, ?_⟩
          exact .endpoint c hd hfl
      unfold ep_arm at h
      cases hfl : g.flavor with
      | blocking f => rw [hfl] at h; exact called f (.inl hfl) h
      | async f => rw [hfl] at h; exact called f (.inr hfl) h
      | spawn =>
        simp only [hfl, sender_error_eq] at h
        split at h
        · cases h
          exact ⟨[_], rfl, .endpoint_spawn c hd hfl⟩
        · cases h
          refine ⟨[_, _], by simp only [sendOne, St.note, List.append_assoc]; rfl, .endpoint_spawn c hd hfl⟩
  · have e := handle_tp env D kkind hdr body s g c
    rw [e] at h
    simp only [Exec.ok.injEq, Prod.mk.injEq] at h
    obtain ⟨_, h⟩ := h
    cases hd : g.decode body with
    | none =>
      rw [hd] at h
      subst h
      exact ⟨[], by simp, .untouched ⟨fun h' hf => absurd hf.here (c.notEp h' (forEndpoint_mem hf)),
        fun t ht => by rw [forTopic_unique ht c]; exact hd⟩⟩
    | some msg =>
      simp only [hd, tp_arm] at h
      cases hfl : g.flavor with
      | blocking f =>
        simp only [hfl] at h
        subst h
        exact ⟨[_], rfl, .topic c hd hfl⟩
      | async f =>
        simp only [hfl] at h
        subst h
        obtain ⟨ev, h1, h2⟩ := prog_run_ends env (f s.ctx hdr msg) (s.note (.ran .topic g.name hdr msg))
        refine ⟨.ran .topic g.name hdr msg :: ev, by rw [h1]; simp [St.note], .topic_async c hd hfl h2⟩
      | spawn =>
        simp only [hfl] at h
        subst h
        exact ⟨[_], rfl, .topic_spawn c hd hfl⟩
  · refine sent _ (handle_unknown _ _ _ _ _ _ hl c) ⟨fun h' hf => ?_, fun t hf => ?_⟩
    · exact absurd hf.here (c h'.req (by simp only [handledKeys, List.mem_append, List.mem_map]; exact .inl (.inr ⟨h', forEndpoint_mem hf, rfl⟩)))
    · obtain ⟨pre, post, e, _⟩ := hf.first
      exact absurd hf.here (c t.key (by simp only [handledKeys, List.mem_append, List.mem_map]; exact .inr ⟨t, by rw [e]; simp, rfl⟩))

/-- C69: while the server runs, its context goes from frame to frame: each handler finds what the one before it left. -/
theorem c69_context_threads {RE : Type} (tx_kind : E → WireTxErrorKind) (rx_kind : RE → WireRxErrorKind) (env : Env V E SC)
    (D : Dispatcher V E SC Ctx) (kkind : VarKeyKind) (rs : List (Rx RE)) (s s' : St V E SC Ctx)
    (h : server_run tx_kind rx_kind (handle env D kkind) rs s = .ok (.waiting s')) :
    ∃ fs, Consumed rx_kind rs fs ∧ Threads D fs s.ctx s'.ctx := by
  obtain ⟨fs, h1, h2⟩ := (c17_still_running tx_kind rx_kind (handle env D kkind) rs s s').mp h
  refine ⟨fs, h1, ?_⟩
  clear h1 h
  induction h2 with
  | nil => exact .nil _
  | cons ha _ _ ih =>
    obtain ⟨ev, _, hl⟩ := c69_context env D kkind _ _ _ _ _ ha
    exact .cons hl ih

/-- The context of a server that is still running. -/
def ctxOf : Exec (RunRes WireTxErrorKind WireRxErrorKind (St Nat WireTxErrorKind Nat Nat)) → Option Nat
  | .ok (.waiting s) => some s.ctx
  | _ => none

/-- One frame for each kind of handler and one for none: the context goes 0, 1, 11, 111, 118, 119, 119. -/
example : ∃ s', server_run id id (handle exEnv exDisp .Key1)
    [.frame [0, 3, 1, 5], .frame [0, 4, 2, 5], .frame [0, 5, 3, 5], .frame [0, 6, 4, 7], .frame [0, 7, 5, 5], .frame [0, 9, 6, 5]]
    (⟨0, []⟩ : St Nat WireTxErrorKind Nat Nat) = .ok (.waiting s') ∧ s'.ctx = 119 := by
  have h : ctxOf (server_run id id (handle exEnv exDisp .Key1)
    [.frame [0, 3, 1, 5], .frame [0, 4, 2, 5], .frame [0, 5, 3, 5], .frame [0, 6, 4, 7], .frame [0, 7, 5, 5], .frame [0, 9, 6, 5]]
    (⟨0, []⟩ : St Nat WireTxErrorKind Nat Nat)) = some 119 := by decide +kernel
  revert h
  generalize server_run id id (handle exEnv exDisp .Key1) _ _ = x
  intro h
  match x, h with
  | .ok (.waiting s), h => exact ⟨s, rfl, by simpa [ctxOf] using h⟩

end PRpc.Props
