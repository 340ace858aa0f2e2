import Verif.Spec.Header
import Verif.Model.MinKey
/-! Specification of collision-freedom of keys. -/

namespace PRpc.Spec

/-- The short form of a key at `n` bytes (as bytes). -/
def short (n : Nat) (k : Key) : Bytes := fold n [k.a, k.b, k.c, k.d, k.e, k.f, k.g, k.h]

/-- All keys of the list have pairwise different short forms at `n` bytes. -/
def DistinctAt (n : Nat) (ks : List Key) : Prop :=
  ∀ i j (hi : i < ks.length) (hj : j < ks.length), i ≠ j → short n ks[i] ≠ short n ks[j]

/-- The legal key lengths. -/
def KeySize (n : Nat) : Prop := n = 1 ∨ n = 2 ∨ n = 4 ∨ n = 8

end PRpc.Spec
