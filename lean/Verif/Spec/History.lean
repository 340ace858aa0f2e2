import Verif.Spec.Linear
import Verif.Spec.Session
import Verif.Spec.UsbNext
/-! Vocabulary for C107: what the context of a server's handlers goes through over the sessions of its clients. -/

namespace PRpc.Spec

variable {V E SC Ctx : Type}

/-- In the sessions that have led to the states `hs`, the context goes through one history: in each session it is recorded before
every byte string received and now, each of these turns it into what its handler makes of it, and the next session begins with what
the session before has left. -/
structure OneHistory (D : Dispatcher V E SC Ctx) (hs : List (Sys V E SC Ctx)) : Prop where
  recorded : ∀ s ∈ hs, (contexts s).length = s.taken + 1
  effects : ∀ s ∈ hs, ∀ j, j < s.taken →
    ∃ ctx ctx', (contexts s)[j]? = some ctx ∧ (contexts s)[j + 1]? = some ctx' ∧ Effect D s j ctx ctx'
  handed_on : ∀ (k : Nat) s s', hs[k]? = some s → hs[k + 1]? = some s' → (contexts s')[0]? = some s.srv.ctx

/-- No task spawned for an earlier process replies: tasks below `n` do nothing. -/
def UsbOwnTasks (n : Nat) (ls : List (ULabel V)) : Prop := ∀ i v, .task_reply i v ∈ ls → n ≤ i

end PRpc.Spec
