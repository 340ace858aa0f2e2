import Verif.Model.Ws2812
/-! Vocabulary for C87: a strip of WS2812 LEDs, as their data sheet describes it, at eight cycles per microsecond. -/

namespace PRpc.Spec

/-- The bits of a byte, most significant first. -/
def bits8 (x : Byte) : List Bool := (List.range 8).map fun i => x.getLsbD (7 - i)

/-- The 24 bits an LED needs for a colour: green, red, blue. -/
def colourBits (c : Rgb8) : List Bool := bits8 c.g ++ bits8 c.r ++ bits8 c.b

/-- A strip: the level of the line and for how many cycles it has been there, the bits received since the line was last quiet for
50 µs, and the bits each LED shows, the first LED first. -/
structure Strip where
  level : Bool
  len : Nat
  bits : List Bool
  leds : List (List Bool)

/-- Cycles the line has to be low for the LEDs to take over what they received (50 µs). -/
def RESET : Nat := 400

/-- Each LED keeps the first 24 bits it gets and passes on the rest; one that did not get 24 stays as it is. -/
def latch : List Bool → List (List Bool) → List (List Bool)
  | _, [] => []
  | bs, l :: ls => if 24 ≤ bs.length then bs.take 24 :: latch (bs.drop 24) ls else l :: ls

/-- The line's level in one more cycle: a high pulse is a bit, 1 if it lasts 0.5 µs or more. -/
def Strip.sees (s : Strip) (level : Bool) : Strip :=
  match s.level, level with
  | true, true => { s with len := s.len + 1 }
  | false, true => { s with level := true, len := 1 }
  | true, false => { s with level := false, len := 1, bits := s.bits ++ [decide (4 ≤ s.len)] }
  | false, false =>
    if s.len + 1 = RESET then { s with len := s.len + 1, bits := [], leds := latch s.bits s.leds }
    else { s with len := s.len + 1 }

def Strip.watches (s : Strip) (levels : List Bool) : Strip := levels.foldl Strip.sees s

/-- `s` shows these colours. -/
def Strip.Shows (s : Strip) (cs : List Rgb8) : Prop := s.leds = cs.map colourBits

/-- A line on which nothing has happened since the last reset. -/
def Strip.Quiet (s : Strip) : Prop := s.level = false ∧ s.bits = []

end PRpc.Spec
