import Verif.Spec.SkewLater
import Verif.Lemmas.Skew
import Verif.Lemmas.Session
import Verif.Lemmas.History
import Verif.Props.Failed
/-! Helper lemmas for C108. -/

namespace PRpc

open Spec Props

variable {V E SC Ctx : Type}

/-- At the start of a session of a host: nothing on the links, and every task belongs to an earlier session. -/
structure HostStart (a : App V E SC Ctx) (S : SysCfg V E SC Ctx) (es : List (HostIcd × Sys V E SC Ctx)) (s : Sys V E SC Ctx) : Prop where
  inv : ∀ H, SysInv (withHost a H) S s
  old : s.old = s.tasks.length
  quiet : s.pending = [] ∧ s.outs = []
  ctx : ∃ c, CtxInv c S s
  errs : ErrInv S s
  live : ∀ H, LiveInv (withHost a H) S s
  tasks : ∀ (i : Nat) j t, s.tasks[i]? = some (j, t) → ∃ x ∈ es, RequestsApart a x.1 (keyLen S.disp.n) ∧ SysInv (withHost a x.1) S x.2 ∧
    x.2.client.calls.length < 2 ^ 32 ∧ ∃ body, Taken x.2 j t.hdr body ∧ TaskFor S.disp t.hdr body t

theorem host_start {a : App V E SC Ctx} {S : SysCfg V E SC Ctx} {es : List (HostIcd × Sys V E SC Ctx)} {s : Sys V E SC Ctx}
    (h : HostSessions a S es s) : HostStart a S es s := by
  induction h with
  | first c =>
    exact ⟨fun H => sysInv_new _ S c, rfl, ⟨rfl, rfl⟩, ⟨c, ctxInv_new c S⟩, errInv_new S c, fun H => liveInv_new _ S c, fun i j t h => by simp [Sys.new] at h⟩
  | next es s s' H ls _ hreq hu hrun hlen ih =>
    have inv := sys_run_inv hrun (fun l hl => host_used (hu l hl)) (ih.inv H)
    refine ⟨fun H' => sysInv_reconnect _ S s', rfl, ⟨rfl, rfl⟩, ⟨_, ctxInv_reconnect S s'⟩, fun o j e h => ?_, fun H' => liveInv_reconnect _ S s', fun i j t ht => ?_⟩
    · rcases h with h | h <;> cases h
    have ht : s'.tasks[i]? = some (j, t) := ht
    rcases Nat.lt_or_ge i s'.old with hold | hold
    · obtain ⟨x, hx⟩ := sys_run_tasks hrun
      rw [sys_run_old hrun, ih.old] at hold
      rw [hx, List.getElem?_append_left hold] at ht
      obtain ⟨e, he, h⟩ := ih.tasks i j t ht
      exact ⟨e, List.mem_append.mpr (.inl he), h⟩
    · obtain ⟨hdr, body, h1, h2⟩ := inv.tasks i j t ht hold
      have := h2.same
      subst this
      exact ⟨(H, s'), by simp, hreq, inv, hlen, body, h1, h2⟩

/-- The reply of a task of an earlier session goes back to a call of an earlier host. -/
theorem host_stale {a : App V E SC Ctx} {S : SysCfg V E SC Ctx} (hb : SoundBoard a S) {es : List (HostIcd × Sys V E SC Ctx)}
    {s0 s : Sys V E SC Ctx} (st : HostStart a S es s0) {ls : List (SLabel V)} (hrun : sys_run S ls s0 = some s) {cl : Call} {o : Out V} {k j : Nat}
    {t : Task V SC} (h2 : StaleReply S.disp s cl.resp_key o k j t) (h3 : seqVal t.hdr.seq_no = seqVal cl.rqst.header.seq_no) :
    ∃ x ∈ es, ∃ c' cl', SameNumber S.disp x.2 c' cl' cl j t := by
  have hk := h2.earlier
  have ht := h2.task
  obtain ⟨x, hx⟩ := sys_run_tasks hrun
  rw [sys_run_old hrun, st.old] at hk
  rw [hx, List.getElem?_append_left hk] at ht
  obtain ⟨e, he, hreq, inve, hle, body, ht, hfor⟩ := st.tasks k j t ht
  obtain ⟨g, hg, hname, hresp⟩ := h2.row
  obtain ⟨c', cl', hrq, hfl, hkey, hdec⟩ := task_request (host_receives (dispatches hb.disp).toRoutes hreq) (host_declared hb.decl e.1) inve hle ht
    hfor h2.role hg hname
  exact ⟨e, he, c', cl', hrq, by rw [← hrq.seq]; exact h3, g, hg, hname, hfl, hkey, hresp, hdec⟩

end PRpc
