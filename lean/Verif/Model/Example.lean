import Verif.Model.Header
/-!
Model of the request handlers of the example firmware (`/repo/example/firmware/src/bin/comms-02.rs` 194-292; the same
functions are in `/repo/example/firmware-eusb-v0_3/src/main.rs` 190-288) with the message types of
`/repo/example/workbook-icd/src/lib.rs`, as a labelled transition system.

A label is a request handed to its handler by the dispatcher, or the completion of the operation the acceleration task is
waiting for, with its outcome.  Between two labels the code runs without waiting, and the executor is cooperative, so
each step is atomic.  The handlers' return values are put in frames by the dispatcher (`Verif.Model.Dispatch`).

Simplifications: time is not modelled (a tick may come at any moment); writing the LEDs, which cannot fail, is part of the
step of its request (the acceleration task does not touch the LEDs).  Contracts of `embassy`, which is external: a task
declared without a pool size has one instance, spawning it while it runs fails; `Mutex::try_lock` fails exactly when the
mutex is locked.  A failed `defmt::unwrap!` panics and ends the program.
-/

namespace PRpc

/-- `Rgb8`, workbook-icd lib.rs 46-51. -/
structure Rgb8 where
  r : Byte
  g : Byte
  b : Byte
  deriving DecidableEq, Repr

/-- `SingleLed`, workbook-icd lib.rs 40-44. -/
structure SingleLed where
  position : BitVec 32
  rgb : Rgb8
  deriving DecidableEq, Repr

/-- `Acceleration`, workbook-icd lib.rs 56-61. -/
structure Acceleration where
  x : BitVec 16
  y : BitVec 16
  z : BitVec 16
  deriving DecidableEq, Repr

/-- `AccelRange`, workbook-icd lib.rs 63-69. -/
inductive AccelRange where
  | G2
  | G4
  | G8
  | G16
  deriving DecidableEq, Repr

/-- `StartAccel`, workbook-icd lib.rs 71-75. -/
structure StartAccel where
  interval_ms : BitVec 32
  range : AccelRange
  deriving DecidableEq, Repr

/-- What the acceleration task waits for, comms-02.rs 242-283: to be run for the first time, for the reply to be sent
(249-252), for the sensor's range to be set (258), for the ticker (263), for a sample (264), for the sample to be sent
(271-274). -/
inductive AccPc where
  | spawned
  | replying
  | ranging
  | ticking
  | sampling
  | publishing (a : Acceleration)
  deriving DecidableEq, Repr

/-- The instance of `accelerometer_handler`, comms-02.rs 242-283: its arguments, its counter and where it stands. -/
structure AccTask where
  hdr : VarHeader
  rqst : StartAccel
  seq : BitVec 8
  pc : AccPc
  deriving DecidableEq, Repr

/-- What a request is answered with, comms-02.rs 196-237, 285-292 and, for a start whose task cannot be spawned,
dispatch_macro.rs 83-93. -/
inductive FwAns where
  | pong (v : BitVec 32)
  | id (v : BitVec 64)
  | led (ok : Bool)
  | all
  | stopped (was_busy : Bool)
  | failed_to_spawn
  deriving DecidableEq, Repr

/-- What happens at the firmware's interfaces: a request is answered; the acceleration task's reply to its start and its
samples are handed to the sender, which succeeds or fails; the program panics. -/
inductive FwEv where
  | answered (hdr : VarHeader) (a : FwAns)
  | replied (hdr : VarHeader) (ok : Bool)
  | published (seq : BitVec 8) (a : Acceleration) (ok : Bool)
  | panicked
  deriving DecidableEq, Repr

/-- The state: `Context` (comms-02.rs 50-55), what the LEDs were last told to show, the `STOP` flag (239), the mutex of the
accelerometer, its range setting, the one instance of the acceleration task; whether the program panicked.  `log` is
bookkeeping of the model. -/
structure Fw where
  unique_id : BitVec 64
  ws2812_state : Vector Rgb8 24
  shown : Vector Rgb8 24
  stop : Bool
  locked : Bool
  range : Option AccelRange
  task : Option AccTask
  halted : Bool
  log : List FwEv
  deriving DecidableEq

/-- The state after `main` has set everything up, comms-02.rs 124-179, 239; `BLACK` is all zero.  The LEDs have not been
written yet; they are taken to be dark. -/
def Fw.new (unique_id : BitVec 64) : Fw where
  unique_id := unique_id
  ws2812_state := Vector.replicate 24 ⟨0#8, 0#8, 0#8⟩
  shown := Vector.replicate 24 ⟨0#8, 0#8, 0#8⟩
  stop := false
  locked := false
  range := none
  task := none
  halted := false
  log := []

/-- The steps: the requests with their headers, and the completions of what the acceleration task waits for. -/
inductive FwLabel where
  | ping (hdr : VarHeader) (rqst : BitVec 32)
  | get_id (hdr : VarHeader)
  | set_led (hdr : VarHeader) (rqst : SingleLed)
  | set_all (hdr : VarHeader) (rqst : Vector Rgb8 24)
  | start (hdr : VarHeader) (rqst : StartAccel)
  | stop (hdr : VarHeader)
  | acc_run
  | acc_replied (ok : Bool)
  | acc_ranged (ok : Bool)
  | acc_tick
  | acc_sampled (a : Option Acceleration)
  | acc_published (ok : Bool)
  deriving DecidableEq

/-- Append an event. -/
def Fw.note (s : Fw) (e : FwEv) : Fw := { s with log := s.log ++ [e] }

/-- `set_led_handler`, comms-02.rs 206-223. -/
def set_led_handler (s : Fw) (rqst : SingleLed) : Bool × Fw :=
  if h : rqst.position.toNat ≥ 24 then (false, s)
  else
    let st := s.ws2812_state.set rqst.position.toNat rqst.rgb (Nat.lt_of_not_le h)
    (true, { s with ws2812_state := st, shown := st })

/-- `set_all_led_handler`, comms-02.rs 225-237. -/
def set_all_led_handler (s : Fw) (rqst : Vector Rgb8 24) : Fw :=
  let st := Vector.zipWith (fun _ rgb => ⟨rgb.r, rgb.g, rgb.b⟩) s.ws2812_state rqst
  { s with ws2812_state := st, shown := st }

/-- The spawn of `accelerometer_handler` (dispatch_macro.rs 83-93): it fails while the one instance is in use. -/
def start_handler (s : Fw) (hdr : VarHeader) (rqst : StartAccel) : Fw :=
  match s.task with
  | some _ => s.note (.answered hdr .failed_to_spawn)
  | none => { s with task := some ⟨hdr, rqst, 0#8, .spawned⟩ }

/-- `accelerometer_stop_handler`, comms-02.rs 285-292.  The guard of a successful `try_lock` is dropped at once. -/
def accelerometer_stop_handler (s : Fw) : Bool × Fw :=
  let was_busy := s.locked
  (was_busy, if was_busy then { s with stop := true } else s)

/-- The end of `accelerometer_handler` after the loop, comms-02.rs 281-283: the flag is cleared, the guard dropped, the
instance free again. -/
def acc_end (s : Fw) : Fw := { s with stop := false, locked := false, task := none }

/-- The loop condition, comms-02.rs 262. -/
def acc_check (s : Fw) (t : AccTask) : Fw :=
  if s.stop then acc_end s else { s with task := some { t with pc := .ticking } }

/-- One step of the acceleration task, comms-02.rs 242-283; `none` when it does not wait for that. -/
def acc_step (s : Fw) (t : AccTask) : FwLabel → Option Fw
  | .acc_run =>
    match t.pc with
    | .spawned => if s.locked then none else some { s with locked := true, task := some { t with pc := .replying } }
    | _ => none
  | .acc_replied ok =>
    match t.pc with
    | .replying =>
      let s := s.note (.replied t.hdr ok)
      if ok then some { s with task := some { t with pc := .ranging } }
      else some { s with locked := false, task := none }
    | _ => none
  | .acc_ranged ok =>
    match t.pc with
    | .ranging =>
      if ok then some (acc_check { s with range := some .G8 } t) else some { s.note .panicked with halted := true }
    | _ => none
  | .acc_tick =>
    match t.pc with
    | .ticking => some { s with task := some { t with pc := .sampling } }
    | _ => none
  | .acc_sampled a =>
    match t.pc, a with
    | .sampling, some a => some { s with task := some { t with pc := .publishing a } }
    | .sampling, none => some { s.note .panicked with halted := true }
    | _, _ => none
  | .acc_published ok =>
    match t.pc with
    | .publishing a =>
      let s := s.note (.published t.seq a ok)
      if ok then some (acc_check s { t with seq := t.seq + 1#8 }) else some (acc_end s)
    | _ => none
  | _ => none

/-- One step.  `ping_handler` is comms-02.rs 196-199, `unique_id_handler` 201-204. -/
def fw_step (s : Fw) (l : FwLabel) : Option Fw :=
  if s.halted then none
  else match l with
  | .ping hdr rqst => some (s.note (.answered hdr (.pong rqst)))
  | .get_id hdr => some (s.note (.answered hdr (.id s.unique_id)))
  | .set_led hdr rqst =>
    let (ok, s) := set_led_handler s rqst
    some (s.note (.answered hdr (.led ok)))
  | .set_all hdr rqst => some ((set_all_led_handler s rqst).note (.answered hdr .all))
  | .start hdr rqst => some (start_handler s hdr rqst)
  | .stop hdr =>
    let (was_busy, s) := accelerometer_stop_handler s
    some (s.note (.answered hdr (.stopped was_busy)))
  | l =>
    match s.task with
    | some t => acc_step s t l
    | none => none

/-- A run: the labels in order. -/
def fw_run : List FwLabel → Fw → Option Fw
  | [], s => some s
  | l :: ls, s =>
    match fw_step s l with
    | some s => fw_run ls s
    | none => none

end PRpc
