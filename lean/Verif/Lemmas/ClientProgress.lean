import Verif.Spec.Progress
import Verif.Lemmas.ClientOut
/-!
Helper lemmas for C66: every step of the client's own makes a rank smaller, and a client that can take none is idle or over.
-/

namespace PRpc

open Spec

/-- How many steps of its own a call may still cause. -/
def Phase.rank : Phase → Nat
  | .begun => 7
  | .kinded _ => 6
  | .half _ => 5
  | .registered _ => 4
  | .waiting _ => 1
  | .done _ => 0
  | .dropped => 0

def Pub.rank (p : Pub) : Nat := if p.res = none then 3 else 0

def OutPc.rank : OutPc → Nat
  | .recv => 1
  | .sending _ => 2
  | .exited => 0

def InPc.rank : InPc → Nat
  | .lookup _ => 5
  | .full _ _ _ => 4
  | .wake _ => 3
  | .recv => 2
  | .purge => 1
  | .exited => 0

/-- How often a worker may still be polled. -/
def pollRank (stopped polled ended : Bool) : Nat :=
  match stopped, polled, ended with
  | true, true, _ => 2
  | true, false, false => 1
  | true, false, true => 0
  | false, true, _ => 0
  | false, false, _ => 1

/-- The stop of the client is a step, too, after which the workers are polled again. -/
def stopRank : Bool → Nat
  | true => 0
  | false => 4

def InPc.ended : InPc → Bool
  | .purge => true
  | .exited => true
  | _ => false

def OutPc.ended : OutPc → Bool
  | .exited => true
  | _ => false

def callsRank : List Call → Nat
  | [] => 0
  | c :: cs => c.phase.rank + callsRank cs

def pubsRank : List Pub → Nat
  | [] => 0
  | p :: ps => p.rank + pubsRank ps

/-- How many steps of its own the client can still take, at most. -/
def Client.rank (s : Client) : Nat :=
  callsRank s.calls + pubsRank s.pubs + 2 * s.outq.length + s.out_pc.rank + s.in_pc.rank +
    pollRank s.stopped s.out_polled s.out_pc.ended + pollRank s.stopped s.in_polled s.in_pc.ended +
    stopRank s.stopped

theorem callsRank_set (cs : List Call) (c : Nat) (cl x : Call) (h : cs[c]? = some cl) :
    callsRank (cs.set c x) + cl.phase.rank = callsRank cs + x.phase.rank := by
  induction cs generalizing c with
  | nil => cases h
  | cons a cs ih =>
    cases c with
    | zero => cases h; simp only [List.set_cons_zero, callsRank]; omega
    | succ c => simp only [List.set_cons_succ, callsRank]; have := ih c (by simpa using h); omega

theorem pubsRank_set (cs : List Pub) (c : Nat) (cl x : Pub) (h : cs[c]? = some cl) :
    pubsRank (cs.set c x) + cl.rank = pubsRank cs + x.rank := by
  induction cs generalizing c with
  | nil => cases h
  | cons a cs ih =>
    cases c with
    | zero => cases h; simp only [List.set_cons_zero, pubsRank]; omega
    | succ c => simp only [List.set_cons_succ, pubsRank]; have := ih c (by simpa using h); omega

theorem callsRank_le (cs : List Call) : callsRank cs ≤ 7 * cs.length := by
  induction cs with
  | nil => exact Nat.le_refl _
  | cons a cs ih =>
    have : a.phase.rank ≤ 7 := by cases a.phase <;> simp [Phase.rank]
    simp only [callsRank, List.length_cons]; omega

theorem pubsRank_le (cs : List Pub) : pubsRank cs ≤ 3 * cs.length := by
  induction cs with
  | nil => exact Nat.le_refl _
  | cons a cs ih =>
    have : a.rank ≤ 3 := by unfold Pub.rank; split <;> omega
    simp only [pubsRank, List.length_cons]; omega

theorem rank_le (s : Client) : s.rank ≤ 7 * s.calls.length + 3 * s.pubs.length + 2 * s.outq.length + 13 := by
  have h1 := callsRank_le s.calls
  have h2 := pubsRank_le s.pubs
  have h3 : s.out_pc.rank ≤ 2 := by cases s.out_pc <;> simp [OutPc.rank]
  have h4 : s.in_pc.rank ≤ 5 := by cases s.in_pc <;> simp [InPc.rank]
  have h5 : ∀ a b c b' c', pollRank a b c + pollRank a b' c' + stopRank a ≤ 6 := by
    intro a b c b' c'; cases a <;> cases b <;> cases c <;> cases b' <;> cases c' <;> simp [pollRank, stopRank]
  have h6 := h5 s.stopped s.out_polled s.out_pc.ended s.in_polled s.in_pc.ended
  unfold Client.rank
  omega

theorem rank_phase {s : Client} {c : Nat} {cl : Call} {x : Call} {m : List (WaitId × VarHeader)} {w : List Woken} {k : VarKeyKind}
    (hc : s.calls[c]? = some cl) (hlt : x.phase.rank < cl.phase.rank) :
    { s with calls := s.calls.set c x, map := m, woken := w, kkind := k }.rank < s.rank := by
  have := callsRank_set s.calls c cl x hc
  simp only [Client.rank]
  omega

theorem rank_exited : OutPc.exited.rank = 0 := rfl

theorem rank_purge : InPc.purge.rank = 1 := rfl

theorem ended_exited : OutPc.exited.ended = true := rfl

theorem ended_purge : InPc.purge.ended = true := rfl

theorem pollRank_ended : pollRank true false true = 0 := rfl

theorem pollRank_waiting (e : Bool) : pollRank false false e = 1 := rfl

theorem pollRank_polled (e : Bool) : pollRank false true e = 0 := rfl

theorem poll_stop (p e q e' : Bool) : pollRank true p e ≤ pollRank false q e' + 2 := by
  cases p <;> cases e <;> cases q <;> cases e' <;> simp [pollRank]

theorem step_rank {cfg : Cfg} {s s' : Client} {l : Label} (ho : Own s l) (h : step cfg s l = some s') : s'.rank < s.rank := by
  cases l with
  | call_begin | call_begin_raw | call_drop | pub_begin | close | drop_handles | in_recv | sub_excl | sub_repl | sub_multi |
    recv_excl | recv_multi | drop_excl | drop_multi => cases ho
  | call_kind c =>
    simp only [step] at h
    split at h
    · rename_i cl hc
      split at h
      · rename_i hp
        cases h
        exact rank_phase hc (by rw [hp]; simp [Phase.rank])
      · cases h
    · cases h
  | call_reg_ok c =>
    simp only [step] at h
    split at h
    · rename_i cl hc
      split at h
      · rename_i k hp
        cases h
        unfold call_reg_ok
        split
        · exact rank_phase hc (by rw [hp]; simp [Phase.rank])
        · exact rank_phase hc (by rw [hp]; simp [Phase.rank])
      · cases h
    · cases h
  | call_reg_err c =>
    simp only [step] at h
    split at h
    · rename_i cl hc
      split at h
      · rename_i k hp
        cases h
        unfold call_reg_err
        split
        · exact rank_phase hc (by rw [hp]; simp [Phase.rank])
        · exact rank_phase hc (by rw [hp]; simp [Phase.rank])
      · cases h
    · cases h
  | call_send c =>
    simp only [step] at h
    split at h
    · rename_i cl hc
      split at h
      · rename_i k hp
        unfold call_send at h
        split at h
        · cases h
          exact rank_phase hc (by rw [hp]; simp [Phase.rank])
        · split at h
          · cases h
            have := callsRank_set s.calls c cl { cl with phase := .waiting k } hc
            simp only [hp, Phase.rank] at this
            simp only [Client.rank, Client.set_phase, List.length_append, List.length_singleton]
            omega
          · cases h
      · cases h
    · cases h
  | call_closed c =>
    simp only [step] at h
    split at h
    · rename_i cl hc
      split at h
      · rename_i k hp
        split at h
        · cases h
          exact rank_phase hc (by rw [hp]; simp [Phase.rank])
        · cases h
      · cases h
    · cases h
  | call_ok c =>
    simp only [step] at h
    split at h
    · rename_i cl hc
      split at h
      · rename_i k hp
        unfold call_take at h
        split at h
        · cases h
        · cases h
          exact rank_phase hc (by rw [hp]; simp [Phase.rank])
      · cases h
    · cases h
  | call_err c =>
    simp only [step] at h
    split at h
    · rename_i cl hc
      split at h
      · rename_i k hp
        unfold call_take at h
        split at h
        · cases h
        · cases h
          exact rank_phase hc (by rw [hp]; simp [Phase.rank])
      · cases h
    · cases h
  | pub_send p =>
    simp only [step] at h
    split at h
    · rename_i pb hp
      split at h
      · rename_i hn
        unfold pub_send at h
        split at h
        · cases h
          have := pubsRank_set s.pubs p pb { pb with res := some false } hp
          simp only [Pub.rank, hn, if_true] at this
          simp only [Client.rank]
          simp at this
          omega
        · split at h
          · cases h
            have := pubsRank_set s.pubs p pb { pb with res := some true } hp
            simp only [Pub.rank, hn, if_true] at this
            simp at this
            simp only [Client.rank, List.length_append, List.length_singleton]
            omega
          · cases h
      · cases h
    · cases h
  | pub_closed p =>
    simp only [step] at h
    split at h
    · rename_i pb hp
      split at h
      · rename_i hn
        cases h
        have := pubsRank_set s.pubs p pb { pb with res := some false } hp
        simp only [Pub.rank, hn.1, if_true] at this
        simp at this
        simp only [Client.rank]
        omega
      · cases h
    · cases h
  | out_poll =>
    simp only [step, out_poll] at h
    split at h
    · cases h
    · rename_i hn
      have hn1 : s.out_pc ≠ .exited := fun e => hn (.inl e)
      have hn2 : s.out_polled = false := by cases e : s.out_polled with
        | false => rfl
        | true => exact absurd (.inr e) hn
      split at h
      · rename_i hs
        cases h
        have hr : 1 ≤ s.out_pc.rank := by
          cases e : s.out_pc with
          | exited => exact absurd e hn1
          | recv => exact Nat.le_refl _
          | sending b => simp [OutPc.rank]
        simp only [Client.rank, hs, hn2, List.length_nil, rank_exited, ended_exited, pollRank_ended]
        omega
      · rename_i hs
        have hs : s.stopped = false := by simpa using hs
        cases h
        simp only [Client.rank, hs, hn2, pollRank_waiting, pollRank_polled]
        omega
  | out_yield =>
    have hs : s.stopped = true := ho
    simp only [step] at h
    split at h
    · rename_i hp
      cases h
      simp only [Client.rank, hs, hp]
      cases s.out_pc.ended <;> simp only [pollRank] <;> omega
    · cases h
  | in_yield =>
    have hs : s.stopped = true := ho
    simp only [step] at h
    split at h
    · rename_i hp
      cases h
      simp only [Client.rank, hs, hp]
      cases s.in_pc.ended <;> simp only [pollRank] <;> omega
    · cases h
  | out_recv =>
    simp only [step, out_recv] at h
    split at h
    · rename_i hp
      split at h
      · rename_i f q hq
        split at h
        · cases h
          simp only [Client.rank, hq, hp.1, hp.2, List.length_cons, OutPc.ended, OutPc.rank]
          omega
        · cases h
      · split at h
        · cases h
        · rename_i hq _ _
          cases h
          simp only [Client.rank, hp.1, hp.2, OutPc.ended, OutPc.rank]
          have h1 := poll_stop s.in_polled s.in_pc.ended s.in_polled s.in_pc.ended
          cases hs : s.stopped with
          | true => simp only [pollRank, if_true]; omega
          | false =>
            rw [hs] at *
            simp only [pollRank, if_true] at *
            simp only [stopRank]
            omega
    · cases h
  | out_done ok =>
    simp only [step, out_done] at h
    split at h
    · rename_i b hp1 hp2
      split at h
      · cases h
        simp only [Client.rank, hp1, hp2, OutPc.ended, OutPc.rank]
        omega
      · cases h
        simp only [Client.rank, hp1, hp2, OutPc.ended, OutPc.rank, List.length_nil]
        have h1 := poll_stop s.in_polled s.in_pc.ended s.in_polled s.in_pc.ended
        cases hs : s.stopped with
        | true => simp only [pollRank, if_true]; omega
        | false =>
          rw [hs] at *
          simp only [pollRank, if_true] at *
          simp only [stopRank]
          omega
    · cases h
  | in_poll =>
    simp only [step, in_poll] at h
    split at h
    · cases h
    · rename_i hn
      have hn2 : s.in_polled = false := by cases e : s.in_polled with
        | false => rfl
        | true => exact absurd (.inr (.inr e)) hn
      split at h
      · rename_i hs
        cases h
        have hr : 2 ≤ s.in_pc.rank := by
          cases e : s.in_pc with
          | exited => exact absurd (.inr (.inl e)) hn
          | purge => exact absurd (.inl e) hn
          | _ => simp [InPc.rank]
        simp only [Client.rank, hs, hn2, rank_purge, ended_purge, pollRank_ended]
        omega
      · rename_i hs
        have hs : s.stopped = false := by simpa using hs
        cases h
        simp only [Client.rank, hs, hn2, pollRank_waiting, pollRank_polled]
        omega
  | in_lookup =>
    simp only [step, in_lookup] at h
    split at h
    · rename_i f hp1 hp2
      split at h
      · rename_i handled subs _
        cases h
        simp only [Client.rank, after_lookup, hp1, hp2]
        cases handled <;> simp only [InPc.ended, InPc.rank, if_true, Bool.false_eq_true, if_false] <;> omega
      · cases h
        simp only [Client.rank, hp1, hp2, InPc.ended, InPc.rank]
        omega
    · cases h
  | in_full_send =>
    simp only [step, in_full_send] at h
    split at h
    · rename_i f id rm hp1 hp2
      split at h
      · cases h
        simp only [Client.rank, after_lookup, hp1, hp2, InPc.ended, InPc.rank, if_true]
        omega
      · cases h
      · cases h
        simp only [Client.rank, after_lookup, hp1, hp2, InPc.ended, InPc.rank, if_true]
        omega
    · cases h
  | in_full_timeout =>
    simp only [step, in_full_timeout] at h
    split at h
    · rename_i f id rm hp1 hp2
      cases h
      simp only [Client.rank, after_lookup, hp1, hp2, InPc.ended, InPc.rank, if_true]
      omega
    · cases h
  | in_wake w =>
    simp only [step, in_wake] at h
    split at h
    · rename_i f hp1 hp2
      split at h
      · split at h
        · cases h
          simp only [Client.rank, hp1, hp2, InPc.ended, InPc.rank]
          omega
        · cases h
      · split at h
        · cases h
        · cases h
          simp only [Client.rank, hp1, hp2, InPc.ended, InPc.rank]
          omega
    · cases h
  | in_purge =>
    simp only [step] at h
    split at h
    · rename_i hp
      cases h
      simp only [Client.rank, hp, InPc.ended, InPc.rank]
      omega
    · cases h

theorem ownRun_rank {cfg : Cfg} {s s' : Client} {ls : List Label} (h : OwnRun cfg s ls s') : ls.length + s'.rank ≤ s.rank := by
  induction h with
  | nil => simp
  | cons ho hs _ ih => have := step_rank ho hs; simp only [List.length_cons]; omega

theorem ownRun_run {cfg : Cfg} {s s' : Client} {ls : List Label} (h : OwnRun cfg s ls s') : run cfg ls s = some s' := by
  induction h with
  | nil => rfl
  | cons _ hs _ ih => simp only [run, hs]; exact ih

/-- Every client can run on by itself until it is stuck. -/
theorem ownRun_to_stuck {cfg : Cfg} (n : Nat) : ∀ (s : Client), s.rank ≤ n → ∃ ls s', OwnRun cfg s ls s' ∧ Stuck cfg s' := by
  induction n with
  | zero =>
    intro s hs
    refine ⟨[], s, .nil s, fun l ho => ?_⟩
    cases h : step cfg s l with
    | none => rfl
    | some t => have := step_rank ho h; omega
  | succ n ih =>
    intro s hs
    by_cases hst : Stuck cfg s
    · exact ⟨[], s, .nil s, hst⟩
    · obtain ⟨l, hl⟩ := Classical.not_forall.mp hst
      have ho : Own s l := Classical.byContradiction fun hn => hl fun h => absurd h hn
      cases h : step cfg s l with
      | none => exact absurd (fun _ => h) hl
      | some t =>
        have := step_rank ho h
        obtain ⟨ls, u, hr, hu⟩ := ih t (by omega)
        exact ⟨l :: ls, u, .cons ho h hr, hu⟩

end PRpc
