import Verif.Spec.Lossy
import Verif.Model.Wire
/-! Vocabulary for C85: the bytes of the standard messages, as numbers. -/

namespace PRpc.Spec

/-- A number in groups of seven bits, lowest first; all but the last have 128 added. -/
def digits (n : Nat) : List Nat := if n < 128 then [n] else (n % 128 + 128) :: digits (n / 128)

/-- A text: its length, its bytes. -/
def textLayout (s : Bytes) : List Nat := digits s.length ++ s.map BitVec.toNat

def key8Layout (k : Key) : List Nat := [k.a, k.b, k.c, k.d, k.e, k.f, k.g, k.h].map BitVec.toNat

/-- The bytes of an error. -/
def errorLayout : WireError → List Nat
  | .FrameTooLong len max => 0 :: digits len.toNat ++ digits max.toNat
  | .FrameTooShort len => 1 :: digits len.toNat
  | .DeserFailed => [2]
  | .SerFailed => [3]
  | .UnknownKey => [4]
  | .FailedToSpawn => [5]
  | .KeyTooSmall => [6]

/-- The bytes of an item of the schema report, given those of types. -/
def itemLayout (ofType : Nty → Bytes) : SchemaData → List Nat
  | .Type t => 0 :: (ofType t).map BitVec.toNat
  | .Endpoint path rq rs => 1 :: textLayout path ++ key8Layout rq ++ key8Layout rs
  | .Topic path k .ToServer => 2 :: textLayout path ++ key8Layout k ++ [0]
  | .Topic path k .ToClient => 2 :: textLayout path ++ key8Layout k ++ [1]

/-- The bytes of the totals of a schema report. -/
def totalsLayout (t : SchemaTotals) : List Nat :=
  digits t.types_sent.toNat ++ digits t.endpoints_sent.toNat ++ digits t.topics_in_sent.toNat ++ digits t.topics_out_sent.toNat ++
    digits t.errors.toNat

/-- The receiver takes the message for this value, whatever comes after it, and takes no proper beginning of it for anything. -/
def Understood {R : Type} (decode : Bytes → Option R) (bs : Bytes) (v : R) : Prop :=
  (∀ rest, decode (bs ++ rest) = some v) ∧ RejectsCut decode bs

/-- The path of the item is text and its length is a `usize` of the host and of the device; a type is understood by the host. -/
def ItemOk (utf8 : Bytes → Bool) (wd wh : Nat) (typeOk : Nty → Prop) : SchemaData → Prop
  | .Type t => typeOk t
  | .Endpoint path _ _ => utf8 path = true ∧ path.length < 2 ^ (8 * wd) ∧ path.length < 2 ^ (8 * wh)
  | .Topic path _ _ => utf8 path = true ∧ path.length < 2 ^ (8 * wd) ∧ path.length < 2 ^ (8 * wh)

end PRpc.Spec
