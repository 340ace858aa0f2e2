import Verif.Props.Client
import Verif.Lemmas.ClientQueue
/-! C70: the client's outgoing queue is bounded. -/

namespace PRpc.Props

open Spec

/-- C70 (bound): at most `outgoing_depth` frames are accepted and not yet given to the transport. -/
theorem c70_queue_bounded {cfg : Cfg} {s : Client} (hr : Reachable cfg s) (ho : s.out_pc ≠ .exited) :
    s.enq.length ≤ s.tx.length + cfg.outgoing_depth := by
  have hq : s.outq.length ≤ cfg.outgoing_depth := by
    obtain ⟨ls, h⟩ := hr
    exact run_induct (fun t => t.outq.length ≤ cfg.outgoing_depth) (fun a l b h1 h2 => step_outq h2 h1) ls _ _ (Nat.zero_le _) h
  obtain ⟨_, _, h3⟩ := c48_submission_order hr
  have := congrArg List.length (h3 ho)
  rw [List.length_drop] at this
  omega

/-- C70 (waiting): in a client whose transmit worker runs, a call ready to submit its request and a publication not yet
submitted can go on exactly when fewer than `outgoing_depth` frames are accepted and unsent. -/
theorem c70_waits_for_room {cfg : Cfg} {s : Client} (hr : Reachable cfg s) (ho : s.out_pc ≠ .exited) :
    (∀ (c : Nat) cl k, s.calls[c]? = some cl → cl.phase = .registered k →
      (step cfg s (.call_send c) ≠ none ↔ s.enq.length < s.tx.length + cfg.outgoing_depth)) ∧
    (∀ (p : Nat) pb, s.pubs[p]? = some pb → pb.res = none →
      (step cfg s (.pub_send p) ≠ none ↔ s.enq.length < s.tx.length + cfg.outgoing_depth)) := by
  obtain ⟨h1, _, h3⟩ := c48_submission_order hr
  have hl := congrArg List.length (h3 ho)
  rw [List.length_drop] at hl
  have hopen : s.out_open = true := by simpa [Client.out_open] using ho
  have key : s.outq.length < cfg.outgoing_depth ↔ s.enq.length < s.tx.length + cfg.outgoing_depth := by omega
  refine ⟨fun c cl k hc hp => ?_, fun p pb hpb hn => ?_⟩
  · simp only [step, hc, hp, call_send, hopen, Bool.not_true, Bool.false_eq_true, if_false]
    rw [← key]
    by_cases h : s.outq.length < cfg.outgoing_depth <;> simp [h]
  · simp only [step, hpb, hn, pub_send, hopen, Bool.not_true, Bool.false_eq_true, if_false, if_true]
    rw [← key]
    by_cases h : s.outq.length < cfg.outgoing_depth <;> simp [h]

/-- C70 (room appears): the worker taking a frame makes room, so a submission can go on whatever the queue held. -/
theorem c70_send_makes_room {cfg : Cfg} {s s' : Client} (hr : Reachable cfg s) (h : step cfg s .out_recv = some s')
    (ho : s'.out_pc ≠ .exited) : s'.enq.length < s'.tx.length + cfg.outgoing_depth := by
  have hb := c70_queue_bounded hr (by
    simp only [step, out_recv] at h
    split at h
    · rename_i hp; rw [hp.1]; simp
    · cases h)
  simp only [step, out_recv] at h
  repeat' split at h
  all_goals first
    | (cases h; done)
    | (cases h; simp only [List.length_append, List.length_singleton]; omega)
    | (cases h; exact absurd rfl ho)

/-- A queue of depth 1: the second of two publications waits until the worker has taken the first. -/
def exFullQueue : List Label :=
  [.pub_begin ⟨⟨.Key8 ⟨1, 0, 0, 0, 0, 0, 0, 0⟩, .Seq4 0⟩, []⟩, .pub_begin ⟨⟨.Key8 ⟨2, 0, 0, 0, 0, 0, 0, 0⟩, .Seq4 0⟩, []⟩, .pub_send 0]

example : ∃ s, run ⟨.Seq4, ⟨9, 0, 0, 0, 0, 0, 0, 0⟩, 1, false⟩ exFullQueue Client.new = some s ∧ s.enq.length = 1 ∧ s.tx.length = 0 ∧
    s.out_pc ≠ .exited ∧ step ⟨.Seq4, ⟨9, 0, 0, 0, 0, 0, 0, 0⟩, 1, false⟩ s (.pub_send 1) = none ∧
    (run ⟨.Seq4, ⟨9, 0, 0, 0, 0, 0, 0, 0⟩, 1, false⟩ [.out_poll, .out_recv, .pub_send 1] s).isSome := by
  have h : (run ⟨.Seq4, ⟨9, 0, 0, 0, 0, 0, 0, 0⟩, 1, false⟩ exFullQueue Client.new).map (fun s => (s.enq.length, s.tx.length,
      decide (s.out_pc ≠ .exited), (step ⟨.Seq4, ⟨9, 0, 0, 0, 0, 0, 0, 0⟩, 1, false⟩ s (.pub_send 1)).isNone,
      (run ⟨.Seq4, ⟨9, 0, 0, 0, 0, 0, 0, 0⟩, 1, false⟩ [.out_poll, .out_recv, .pub_send 1] s).isSome)) =
      some (1, 0, true, true, true) := by decide +kernel
  obtain ⟨s, e1, e2⟩ := Option.map_eq_some_iff.mp h
  simp only [Prod.mk.injEq, decide_eq_true_eq, Option.isNone_iff_eq_none] at e2
  exact ⟨s, e1, e2.1, e2.2.1, e2.2.2.1, e2.2.2.2.1, e2.2.2.2.2⟩

end PRpc.Props
