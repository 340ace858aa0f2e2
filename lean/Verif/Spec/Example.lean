import Verif.Model.Example
/-! Vocabulary for the properties of the example firmware, in terms of its requests and what it sends. -/

namespace PRpc.Spec

/-- The colour of LED `i` after the requests in `ls` (oldest first), if it had colour `c` before. -/
def ledAfter (i : Nat) : List FwLabel → Rgb8 → Rgb8
  | [], c => c
  | .set_led _ r :: ls, c => ledAfter i ls (if r.position.toNat = i then r.rgb else c)
  | .set_all _ r :: ls, c => ledAfter i ls (r[i]?.getD c)
  | _ :: ls, c => ledAfter i ls c

/-- What the acceleration streams sent: replies to starts and samples. -/
def streamed (log : List FwEv) : List FwEv :=
  log.filter fun e => match e with
    | .replied _ _ => true
    | .published _ _ _ => true
    | _ => false

/-- The samples of one stream, all sent but possibly the last, after `n` earlier ones: numbered `n`, `n + 1`, … modulo
256. -/
inductive Samples : Nat → List FwEv → Prop where
  | none (n) : Samples n []
  | failed (n a) : Samples n [.published (BitVec.ofNat 8 n) a false]
  | more (n a l) : Samples (n + 1) l → Samples n (.published (BitVec.ofNat 8 n) a true :: l)

/-- One stream after another: a reply, and if it was sent, samples. -/
inductive Streams : List FwEv → Prop where
  | none : Streams []
  | refused (l h) : Streams l → Streams (l ++ [.replied h false])
  | stream (l h m) : Streams l → Samples 0 m → Streams (l ++ .replied h true :: m)

/-- The replies to starts handed to the sender. -/
def replies (log : List FwEv) : List FwEv :=
  log.filter fun e => match e with
    | .replied _ _ => true
    | _ => false

/-- The number of samples handed to the sender. -/
def samples : List FwEv → Nat
  | [] => 0
  | .published _ _ _ :: l => samples l + 1
  | _ :: l => samples l

/-- What the sensor measured, in order. -/
def readings (ls : List FwLabel) : List Acceleration :=
  ls.filterMap fun l => match l with
    | .acc_sampled a => a
    | _ => none

/-- The values of the samples handed to the sender, in order. -/
def sentValues (log : List FwEv) : List Acceleration :=
  log.filterMap fun e => match e with
    | .published _ a _ => some a
    | _ => none

/-- A step of the acceleration task. -/
def isAcc : FwLabel → Bool
  | .acc_run | .acc_replied _ | .acc_ranged _ | .acc_tick | .acc_sampled _ | .acc_published _ => true
  | _ => false

/-- The step is a failure of a send of the acceleration task or of the sensor. -/
def Fails : FwLabel → Prop
  | .acc_replied ok => ok = false
  | .acc_ranged ok => ok = false
  | .acc_sampled a => a = none
  | .acc_published ok => ok = false
  | _ => False

/-- The step is the failure to send the reply to a start. -/
def ReplyFails : FwLabel → Prop
  | .acc_replied ok => ok = false
  | _ => False

/-- The step is a stop request. -/
def IsStop : FwLabel → Prop
  | .stop _ => True
  | _ => False

/-- The step is a start request. -/
def IsStart : FwLabel → Prop
  | .start _ _ => True
  | _ => False

end PRpc.Spec
