import Verif.Model.Listen
import Verif.Spec.System
/-! Vocabulary for C101: the accelerations that `accel listen` shows, and those that the sensor measured. -/

namespace PRpc.Spec

/-- The accelerations on the terminal since a line was last typed. -/
def latest (term : List Term) : List Acceleration :=
  term.foldl (fun accs t => match t with
    | .typed _ => []
    | .printed (.acc a) => accs ++ [a]
    | .printed _ => accs) []

/-- A line is typed. -/
def LsLabel.isLine : LsLabel → Bool
  | .line _ => true
  | _ => false

/-- What the sensor gives, in a run. -/
def measured : List LsLabel → List Acceleration
  | [] => []
  | .acc (.acc_sampled (some a)) :: ls => a :: measured ls
  | _ :: ls => measured ls

/-- A reading that the firmware publishes: what its stream was asked for, the acceleration, and whether `publish` returns `Ok`. -/
structure Sensed where
  rqst : StartAccel
  val : Acceleration
  ok : Bool
  deriving DecidableEq

/-- The one published in a step from `y` to `y'`, if any. -/
def sensedIn {E : Type} (y y' : LsSys E) : LsLabel → List Sensed
  | .publish =>
    match y.acc.task, y'.send with
    | some t, some s =>
      match t.pc with
      | .publishing a => [⟨t.rqst, a, s.ok⟩]
      | _ => []
    | _, _ => []
  | _ => []

/-- The readings published in a run. -/
def sensed {E : Type} (I : WbIcd) (U : UsbCfg WbVal E Unit WbCtx) : List LsLabel → LsSys E → List Sensed
  | [], _ => []
  | l :: ls, y =>
    match ls_step I U y l with
    | some y' => sensedIn y y' l ++ sensed I U ls y'
    | none => []

/-- The accelerations shown are those of the readings, in their order, with none of those missing that were published successfully: only
readings whose `publish` failed may be missing, and all of them are if a send that fails leaves nothing on the cable. -/
structure ShownOf {E : Type} (S : SysCfg WbVal E Unit WbCtx) (shown : List Acceleration) (qs : List Sensed) : Prop where
  among : shown.Sublist (qs.map (·.val))
  all : ((qs.filter (·.ok)).map (·.val)).Sublist shown
  these : Clean S → shown = (qs.filter (·.ok)).map (·.val)

end PRpc.Spec
