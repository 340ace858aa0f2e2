import Verif.Model.Hello
/-! Vocabulary for C99: what the programs without a network show and log. -/

namespace PRpc.Spec

/-- The LED at position `p` of the 24 is one of the four that are lit after the `k`-th write: the pattern starts at position `k`,
going round. -/
def Lit (k p : Nat) : Prop := ∃ d < 4, p = (k + d) % 24

/-- The pin of a button, from the table of the board, and what pressing it does: the buttons are active low. -/
def buttonPin : Nat → Option Nat
  | 1 => some 0 | 2 => some 1 | 3 => some 2 | 4 => some 3 | 5 => some 18 | 6 => some 19 | 7 => some 20 | 8 => some 21
  | _ => none

/-- The levels at the rounds of the button task. -/
def buttonRounds : List HelloLabel → List (Nat → Bool)
  | [] => []
  | .button high :: ls => high :: buttonRounds ls
  | _ :: ls => buttonRounds ls

/-- The values the potentiometer gave in the rounds of its task. -/
def potRounds : List HelloLabel → List (BitVec 16)
  | [] => []
  | .pot (some v) :: ls => v :: potRounds ls
  | _ :: ls => potRounds ls

/-- The first value of the potentiometer. -/
def potFirst : List HelloLabel → Option (BitVec 16)
  | [] => none
  | .pot_first (some v) :: _ => some v
  | _ :: ls => potFirst ls

/-- The readings of the accelerometer. -/
def accelRounds : List HelloLabel → List AccelReading
  | [] => []
  | .accel (some v) :: ls => v :: accelRounds ls
  | _ :: ls => accelRounds ls

/-- The rounds of the LED task. -/
def ledRounds : List HelloLabel → Nat
  | [] => 0
  | .led :: ls => ledRounds ls + 1
  | _ :: ls => ledRounds ls

/-- A sensor could not be read. -/
def ReadFails (l : HelloLabel) : Prop := l = .pot_first none ∨ l = .pot none ∨ l = .accel none

/-- What was logged of the buttons, of the potentiometer and of the accelerometer. -/
def buttonLog (log : List HelloLog) : List (List Bool) := log.filterMap fun | .buttons v => some v | _ => none
/-- See `buttonLog`. -/
def potLog (log : List HelloLog) : List (BitVec 16) := log.filterMap fun | .potentiometer v => some v | _ => none
/-- See `buttonLog`. -/
def accelLog (log : List HelloLog) : List AccelReading := log.filterMap fun | .accelerometer v => some v | _ => none

/-- The values of `now` that differ from the one before; the first is compared with `prev`. -/
def changed {α : Type} [DecidableEq α] (prev : α) (now : List α) : List α :=
  (List.zip (prev :: now) now).filterMap fun (p, n) => if n ≠ p then some n else none

/-- Two values of the potentiometer are more than 64 apart. -/
def FarApart (a b : BitVec 16) : Prop := a.toNat + 64 < b.toNat ∨ b.toNat + 64 < a.toNat

/-- The brightness of the fading LEDs at a tick: up to 32, down to 0, then nothing is written for a while. -/
def fadeAt (t : Nat) : Option Nat :=
  if t % 99 < 33 then some (t % 99) else if t % 99 < 66 then some (65 - t % 99) else none

end PRpc.Spec
