import Verif.Lemmas.ClientOut
/-! Helper lemma for C70. -/

namespace PRpc

theorem step_outq {cfg : Cfg} {s s' : Client} {l : Label} (h : step cfg s l = some s') (hq : s.outq.length ≤ cfg.outgoing_depth) :
    s'.outq.length ≤ cfg.outgoing_depth := by
  cases l with
  | call_send c =>
    simp only [step, call_send, Client.set_phase, Client.drop_waits] at h
    repeat' split at h
    all_goals first
      | (cases h; done)
      | (cases h; exact hq)
      | (cases h; simp only [List.length_append, List.length_singleton]; omega)
  | pub_send p =>
    simp only [step, pub_send] at h
    repeat' split at h
    all_goals first
      | (cases h; done)
      | (cases h; exact hq)
      | (cases h; simp only [List.length_append, List.length_singleton]; omega)
  | out_recv =>
    simp only [step, out_recv] at h
    repeat' split at h
    all_goals first
      | (cases h; done)
      | (cases h; exact hq)
      | (rename_i e _ _ _; cases h; rw [e] at hq; simp at hq ⊢; omega)
  | _ =>
    simp only [step, call_reg_ok, call_reg_err, call_take, out_poll, out_done, in_poll, in_recv, in_lookup, in_full_send,
      in_full_timeout, after_lookup, in_wake, Client.set_phase, Client.drop_waits] at h
    repeat' split at h
    all_goals first
      | (cases h; done)
      | (cases h; exact hq)
      | (cases h; exact Nat.zero_le _)

end PRpc
