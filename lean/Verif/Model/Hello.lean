import Verif.Model.Ws2812
/-!
Model of the programs of the example firmware that do not use the network: `/repo/example/firmware/src/bin/hello-01.rs`,
`hello-02.rs`, `hello-03.rs` and `uhoh-00.rs`, with the drivers of `/repo/example/firmware/src/lib.rs` they use.

The tasks run on one cooperative executor and share nothing, so a run of a program is a sequence of labels, each of which is one
round of the loop of one task, with what the hardware gave it.  `hello-03.rs` has all four tasks; in `hello-01.rs` and
`hello-02.rs` those of the missing tasks do not occur, and the colour is another one.

Simplifications: time is not modelled except where `Verif.Model.Ws2812` does (a tick may come at any moment); the round of a
task that waits for its hardware is one step.  External: `smart_leds::colors` (the colour is a parameter), division of an `RGB`
by a number is that of its components, rounding down; `Input::is_low`.  A panic ends the program.
-/

namespace PRpc

/-- `NUM_SMARTLEDS`, firmware lib.rs 30. -/
def NUM_SMARTLEDS : Nat := 24

/-- `get_unique_id`, firmware lib.rs 33-46, from what the flash answers: a failed read is unwrapped (44). -/
def get_unique_id (flash : Option (Vector Byte 8)) : Exec (Option (BitVec 64)) :=
  match flash with
  | none => .panic
  | some id => .ok (some (id.foldl (fun n b => (n <<< 8) ||| b.setWidth 64) 0#64))

/-- The pins of `Buttons::new`, firmware lib.rs 66-88, as the programs pass them (hello-02.rs 49-51, hello-03.rs 53-55). -/
def button_pins : List Nat := [0, 1, 2, 3, 18, 19, 20, 21]

/-- `Buttons::read_all`, firmware lib.rs 91-97, from the level each pin has when it is read. -/
def read_all (high : Nat → Bool) : List Bool :=
  List.zipWith (fun _ pin => !high pin) (List.replicate 8 false) button_pins

/-- `AccelReading`, firmware lib.rs 139-144. -/
structure AccelReading where
  x : BitVec 16
  y : BitVec 16
  z : BitVec 16
  deriving DecidableEq, Repr

/-- `Potentiometer::read` (firmware lib.rs 118-123) and `Accelerometer::read` (169-178): a failed read panics. -/
def sensor_read {α : Type} (r : Option α) : Exec α :=
  match r with
  | none => .panic
  | some v => .ok v

/-- What one round of the LED task writes, hello-01.rs 55-67 (hello-02.rs 104-116, hello-03.rs 126-138): `split_at_mut` panics
beyond the end. -/
def led_colors (color : Rgb8) (idx : Nat) : Exec (List Rgb8) :=
  let colors := List.replicate NUM_SMARTLEDS (⟨0#8, 0#8, 0#8⟩ : Rgb8)
  if idx ≤ colors.length then
    let before := List.range idx
    let after := List.range' idx (colors.length - idx)
    .ok (((after ++ before).take 4).foldl (fun cs i => cs.set i ⟨color.r / 16, color.g / 16, color.b / 16⟩) colors)
  else .panic

/-- What the programs log. -/
inductive HelloLog where
  | buttons (now : List Bool)
  | potentiometer (now : BitVec 16)
  | accelerometer (reading : AccelReading)
  deriving DecidableEq, Repr

/-- The local variables of the tasks: `idx` of the LED task, `last` of the button and potentiometer tasks (the latter is set by
the read before the loop); whether the program has panicked.  `writes` and `log` are what was written to the LEDs and logged. -/
structure Hello where
  idx : Nat
  last : List Bool
  pot : Option (BitVec 16)
  writes : List (List Rgb8)
  log : List HelloLog
  halted : Bool
  deriving DecidableEq, Repr

/-- After `main`, hello-03.rs 36-73: the variables are those of the tasks' first lines (hello-01.rs 50, hello-02.rs 67). -/
def Hello.new : Hello := ⟨0, List.replicate 8 false, none, [], [], false⟩

/-- The rounds of the tasks: that of the LEDs; of the buttons, with the levels of the pins; the first read of the potentiometer and
its further rounds, with the outcome of the read; of the accelerometer. -/
inductive HelloLabel where
  | led
  | button (high : Nat → Bool)
  | pot_first (r : Option (BitVec 16))
  | pot (r : Option (BitVec 16))
  | accel (r : Option AccelReading)

/-- `led_task`, hello-01.rs 47-75 (hello-02.rs 96-124, hello-03.rs 118-146). -/
def hello_led (color : Rgb8) (s : Hello) : Hello :=
  match led_colors color s.idx with
  | .panic => { s with halted := true }
  | .ok cs =>
    let idx := s.idx + 1
    { s with writes := s.writes ++ [cs], idx := if idx ≥ NUM_SMARTLEDS then 0 else idx }

/-- `button_task`, hello-02.rs 66-77, hello-03.rs 88-99. -/
def hello_button (high : Nat → Bool) (s : Hello) : Hello :=
  let now := read_all high
  if now ≠ s.last then { s with log := s.log ++ [.buttons now], last := now } else s

/-- `u16::abs_diff`. -/
def abs_diff (a b : BitVec 16) : Nat := if a.toNat < b.toNat then b.toNat - a.toNat else a.toNat - b.toNat

/-- The loop of `pot_task`, hello-02.rs 84-91, hello-03.rs 106-113. -/
def hello_pot (r : Option (BitVec 16)) (last : BitVec 16) (s : Hello) : Hello :=
  match sensor_read r with
  | .panic => { s with halted := true }
  | .ok now =>
    if abs_diff now last > 64 then { s with log := s.log ++ [.potentiometer now], pot := some now } else s

/-- The first line of `pot_task`, hello-02.rs 82, hello-03.rs 104. -/
def hello_pot_first (r : Option (BitVec 16)) (s : Hello) : Hello :=
  match sensor_read r with
  | .panic => { s with halted := true }
  | .ok now => { s with pot := some now }

/-- `accel_task`, hello-03.rs 77-84. -/
def hello_accel (r : Option AccelReading) (s : Hello) : Hello :=
  match sensor_read r with
  | .panic => { s with halted := true }
  | .ok v => { s with log := s.log ++ [.accelerometer v] }

/-- One round of one task; `none` after a panic, or if the task is not there yet. -/
def hello_step (color : Rgb8) (s : Hello) (l : HelloLabel) : Option Hello :=
  if s.halted then none
  else
    match l with
    | .led => some (hello_led color s)
    | .button high => some (hello_button high s)
    | .pot_first r => if s.pot.isNone then some (hello_pot_first r s) else none
    | .pot r =>
      match s.pot with
      | none => none
      | some last => some (hello_pot r last s)
    | .accel r => some (hello_accel r s)

/-- Rounds one after the other. -/
def hello_run (color : Rgb8) : List HelloLabel → Hello → Option Hello
  | [], s => some s
  | l :: ls, s =>
    match hello_step color s l with
    | none => none
    | some s => hello_run color ls s

/-- Where the LED task of `uhoh-00.rs` stands (52-73): in which of its loops, and with which `i`. -/
inductive FadePc where
  | up (i : Nat)
  | down (i : Nat)
  | wait (i : Nat)
  deriving DecidableEq, Repr

/-- One tick of `led_task`, uhoh-00.rs 49-74: what is written, and where it then stands.  `i` is a `u8`; it does not exceed 32. -/
def fade_tick : FadePc → Option (List Rgb8) × FadePc
  | .up i => (some (List.replicate NUM_SMARTLEDS ⟨BitVec.ofNat 8 i, 0#8, 0#8⟩), if i = 32 then .down 32 else .up (i + 1))
  | .down i => (some (List.replicate NUM_SMARTLEDS ⟨BitVec.ofNat 8 i, 0#8, 0#8⟩), if i = 0 then .wait 0 else .down (i - 1))
  | .wait i => (none, if i = 32 then .up 0 else .wait (i + 1))

/-- What each of `n` ticks writes. -/
def fade_run : Nat → FadePc → List (Option (List Rgb8))
  | 0, _ => []
  | n + 1, pc => (fade_tick pc).1 :: fade_run n (fade_tick pc).2

end PRpc
