import Verif.Model.Basic
/-! COBS as a grammar, and streams of delimited frames. -/

namespace PRpc.Spec

/-- No zero byte. -/
def NoZero (b : Bytes) : Prop := 0#8 ∉ b

instance (b : Bytes) : Decidable (NoZero b) := inferInstanceAs (Decidable (0#8 ∉ b))

/-- `Cobs data enc`: `enc` is a COBS encoding of `data` (without the final delimiter).  A block is a code byte followed
by fewer than 255 non-zero bytes; a code below 255 stands for the block's bytes and a zero, code 255 for its 254 bytes
only; the zero of the last block is not part of the data.  (Data ending in a full block has two encodings, with and
without a trailing empty block; both are covered.) -/
inductive Cobs : Bytes → Bytes → Prop where
  | last {run : Bytes} {code : Byte} : NoZero run → code.toNat = run.length + 1 → Cobs run (code :: run)
  | zero {run data enc : Bytes} {code : Byte} : NoZero run → code.toNat = run.length + 1 → run.length < 254 →
      Cobs data enc → Cobs (run ++ 0#8 :: data) (code :: run ++ enc)
  | full {run data enc : Bytes} : NoZero run → run.length = 254 → Cobs data enc →
      Cobs (run ++ data) (255#8 :: run ++ enc)

/-- A stream of delimited encodings. -/
def stream : List Bytes → Bytes
  | [] => []
  | e :: es => e ++ 0#8 :: stream es

/-- `es` are encodings of `ds`, each fitting a buffer of `N` bytes together with its delimiter. -/
inductive Encodings (N : Nat) : List Bytes → List Bytes → Prop where
  | nil : Encodings N [] []
  | cons {d e ds es} : Cobs d e → e.length + 1 ≤ N → Encodings N ds es → Encodings N (d :: ds) (e :: es)

end PRpc.Spec
