import Verif.Spec.Raw
import Verif.Lemmas.Session
import Verif.Lemmas.LiveRest
/-! Helper lemmas for C100. -/

namespace PRpc

open Spec

variable {V E SC Ctx : Type}

/-- Two short forms of one key agree. -/
theorem shrunk_eq (key : Key) (k k' : VarKeyKind) :
    ((VarKey.Key8 key).shrink_to k).eq ((VarKey.Key8 key).shrink_to k') = true := by
  rw [eq_iff_shrink, kind_of_shrink8, kind_of_shrink8, shrink_shrink, shrink_shrink]
  congr 1
  apply keyLen_inj
  simp only [keyLen_minKind]
  omega

theorem err_hdrs_eq (cfg : Cfg) (a b : Call) (k k' : VarKeyKind)
    (h : seqVal a.rqst.header.seq_no = seqVal b.rqst.header.seq_no) : (a.err_hdr cfg k).eq (b.err_hdr cfg k') = true := by
  rw [Call.err_hdr, Call.err_hdr, VarHeader.eq, Bool.and_eq_true]
  exact ⟨shrunk_eq _ _ _, (seq_eq_iff _ _).mpr h.symm⟩

theorem onlyOne_of_nodup {s : Client} (hn : (numbers s).Nodup) {c : Nat} {cl : Call} (hc : s.calls[c]? = some cl) :
    OnlyOne s c cl := by
  intro c' cl' h' e
  by_cases hne : c' = c
  · exact hne
  · exact absurd e (numbers_ne hn hc hne h')

/-- In a session in which no task of an earlier one replies, nothing received is from such a task. -/
theorem not_stale {a : App V E SC Ctx} {S : SysCfg V E SC Ctx} {es : List (Sys V E SC Ctx)} {s0 s : Sys V E SC Ctx}
    (h0 : Sessions a S es s0) {ls : List (SLabel V)} (hrun : sys_run S ls s0 = some s) (hown : OwnTasks s0.tasks.length ls)
    {o : Out V} (ho : o ∈ s.outs) {resp : Key} {k j : Nat} {t : Task V SC} (h : StaleReply S.disp s resp o k j t) : False := by
  have st := sessions_start h0
  have h2 := sys_run_sources hrun hown (fun o ho => by rw [st.quiet.1, st.quiet.2] at ho; rcases ho with ho | ho <;> cases ho)
    o (.inr ho) k h.src
  have h3 := h.earlier
  rw [sys_run_old hrun, st.old] at h3
  omega

end PRpc
