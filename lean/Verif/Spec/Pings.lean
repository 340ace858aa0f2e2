import Verif.Model.Pings
import Verif.Spec.Live
import Verif.Spec.UsbSys
import Verif.Spec.Workbook
/-! Vocabulary for C96: a host that pings ten times. -/

namespace PRpc.Spec

variable {V E SC Ctx : Type}

/-- What is printed of the first `k` rounds. -/
def rounds (k : Nat) : List PgLine := (List.range k).flatMap fun i => [.pinging (BitVec.ofNat 32 i), .got (BitVec.ofNat 32 i)]

/-- What the host has printed, and where it stands. -/
inductive PgShows : PgPc → List PgLine → Prop where
  | between (k : Nat) (h : k < 10) : PgShows (.ticking k) (rounds k)
  | asks (k : Nat) (h : k < 10) : PgShows (.calling k) (rounds k ++ [.pinging (BitVec.ofNat 32 k)])
  | waits (k c : Nat) (h : k < 10) : PgShows (.waiting k c) (rounds k ++ [.pinging (BitVec.ofNat 32 k)])
  | fails (k : Nat) (h : k < 10) : PgShows .unwrapped (rounds k ++ [.pinging (BitVec.ofNat 32 k)])
  | closed (k : Nat) (h : k < 10) : PgShows .closed (rounds k ++ [.closed])
  | closed_asking (k : Nat) (h : k < 10) : PgShows .closed (rounds k ++ [.pinging (BitVec.ofNat 32 k), .closed])
  | done : PgShows .done (rounds 10 ++ [.done])

/-- The steps the system and the program take by themselves. -/
def PgOwn (y : PgSys V E SC Ctx) : PgLabel V → Prop
  | .sys (.client (.call_begin ..)) => True
  | .sys l => UsbOwn y.usb l
  | _ => True

/-- A run of such steps. -/
inductive PgOwnRun (std : StdKeys) (U : UsbCfg V E SC Ctx) : PgSys V E SC Ctx → List (PgLabel V) → PgSys V E SC Ctx → Prop where
  | nil (y : PgSys V E SC Ctx) : PgOwnRun std U y [] y
  | cons {y z w : PgSys V E SC Ctx} {l : PgLabel V} {ls : List (PgLabel V)} (ho : PgOwn y l) (h : pg_step std U y l = some z)
    (hr : PgOwnRun std U z ls w) : PgOwnRun std U y (l :: ls) w

/-- No such step is possible. -/
def PgStuck (std : StdKeys) (U : UsbCfg V E SC Ctx) (y : PgSys V E SC Ctx) : Prop := ∀ l, PgOwn y l → pg_step std U y l = none

/-- What else the firmware publishes is declared. -/
def PgUsed (a : App V E SC Ctx) (ls : List (PgLabel V)) : Prop := ∀ key seq v, .sys (.app_publish key seq v) ∈ ls → ∃ t ∈ a.topic_out_list.topics, t.key = key

/-- The connection was lost: a transfer to the board or one from it has failed. -/
def PgLost (ls : List (PgLabel V)) : Prop := .sys (.client (.out_done false)) ∈ ls ∨ .sys (.client (.in_recv none)) ∈ ls

end PRpc.Spec
