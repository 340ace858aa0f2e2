import Verif.Spec.Live
import Verif.Model.Bounded
/-!
Vocabulary for C76: the steps the composed system takes by itself over bounded channels.
-/

namespace PRpc.Spec

variable {V E SC Ctx : Type}

/-- A run of the system's own steps over channels of the given capacities. -/
inductive BndOwnRun (S : SysCfg V E SC Ctx) (up down : Nat) : Sys V E SC Ctx → List (SLabel V) → Sys V E SC Ctx → Prop where
  | nil (s : Sys V E SC Ctx) : BndOwnRun S up down s [] s
  | cons {s t u : Sys V E SC Ctx} {l : SLabel V} {ls : List (SLabel V)} (ho : SysOwn s l) (h : bnd_step S up down s l = some t)
    (hr : BndOwnRun S up down t ls u) : BndOwnRun S up down s (l :: ls) u

/-- No such step is possible. -/
def BndStuck (S : SysCfg V E SC Ctx) (up down : Nat) (s : Sys V E SC Ctx) : Prop := ∀ l, SysOwn s l → bnd_step S up down s l = none

/-- The messages in the channel to the server: those handed to the transport, without the one the transmit worker is still waiting
to put in, and without those the server has taken. -/
def Queued (s : Sys V E SC Ctx) (n : Nat) : Prop :=
  (∃ b, s.client.out_pc = .sending b ∧ s.client.tx.length = s.taken + n + 1) ∨
  ((∀ b, s.client.out_pc ≠ .sending b) ∧ s.client.tx.length = s.taken + n)

end PRpc.Spec
