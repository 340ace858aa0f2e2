import Verif.Model.Key
/-! Vocabulary for C74. -/

namespace PRpc.Spec

/-- The decoder rejects everything that is cut off the end of these bytes, as `postcard::from_bytes` does with the encoding of
a value of the type it decodes. -/
def RejectsCut {R : Type} (decode : Bytes → Option R) (bs : Bytes) : Prop := ∀ n, n < bs.length → decode (bs.take n) = none

end PRpc.Spec
