import Verif.Lemmas.ClientOut
import Verif.Lemmas.ClientKind
/-!
Helper lemmas about clients that end because every handle was dropped.
-/

namespace PRpc

/-- Nothing closed the client but the dropping of its handles: no explicit close and no transport error. -/
def Label.quiet : Label → Bool
  | .close => false
  | .out_done false => false
  | .in_recv none => false
  | _ => true

/-- Is the transmit worker inside `wire.send`? -/
def OutPc.busy : OutPc → Nat
  | .sending _ => 1
  | _ => 0

/-- A quiet step stops the client only if the transmit worker found its queue empty. -/
theorem step_quiet {cfg : Cfg} {s s' : Client} {l : Label} (h : step cfg s l = some s') (hq : l.quiet = true)
    (h0 : s.stopped = false) : s'.stopped = false ∨ (s.outq = [] ∧ s.out_pc = .recv ∧ s'.out_pc = .exited ∧ s'.tx = s.tx ∧ s'.enq = s.enq) := by
  cases l with
  | out_done ok => cases ok with
    | false => cases hq
    | true =>
      simp only [step, out_done] at h
      split at h
      · cases h; exact .inl h0
      · cases h
  | in_recv r => cases r with
    | none => cases hq
    | some b =>
      simp only [step, in_recv] at h
      repeat' split at h
      all_goals first
        | (cases h; done)
        | (cases h; exact .inl h0)
  | close => cases hq
  | out_recv =>
    simp only [step, out_recv] at h
    split at h
    · rename_i hp
      split at h
      · split at h
        · cases h; exact .inl h0
        · cases h
      · rename_i he
        split at h
        · cases h
        · cases h; exact .inr ⟨he, hp.1, rfl, rfl, rfl⟩
    · cases h
  | _ =>
    left
    simp only [step, send_resp_begin, call_reg_ok, call_reg_err, call_send, call_take, publish_raw_begin, pub_send,
      out_poll, in_poll, in_lookup, in_full_send, in_full_timeout, after_lookup, in_wake,
      Client.set_phase, Client.drop_waits] at h
    repeat' split at h
    all_goals first
      | (cases h; done)
      | (cases h; exact h0)
      | (cases h; split <;> exact h0)
      | (simp_all; done)

/-- How the number of completed sends relates to what was handed to the transport. -/
theorem step_done {cfg : Cfg} {s s' : Client} {l : Label} (h : step cfg s l = some s') (h0 : s.stopped = false)
    (hq : l.quiet = true) :
    s.tx.length + (if l = .out_done true then 1 else 0) + s'.out_pc.busy = s'.tx.length + s.out_pc.busy := by
  cases l with
  | out_done ok =>
    cases ok with
    | false => cases hq
    | true =>
      simp only [step, out_done] at h
      split at h
      · rename_i hp _
        cases h; simp [hp, OutPc.busy]
      · cases h
  | out_recv =>
    simp only [step, out_recv] at h
    split at h
    · rename_i hp
      repeat' split at h
      all_goals first
        | (cases h; done)
        | (cases h; simp [hp.1, OutPc.busy])
    · cases h
  | out_poll =>
    simp only [step, out_poll] at h
    split at h
    · cases h
    · rw [h0] at h; cases h; simp
  | _ =>
    simp only [step, send_resp_begin, call_reg_ok, call_reg_err, call_send, call_take, publish_raw_begin, pub_send,
      in_poll, in_recv, in_lookup, in_full_send, in_full_timeout, after_lookup, in_wake,
      Client.set_phase, Client.drop_waits] at h
    repeat' split at h
    all_goals first
      | (cases h; done)
      | (cases h; simp; done)
      | (cases h; split <;> simp; done)

end PRpc
