import Verif.Model.Schema
/-! Specification for the unique-type lists: occurrence of a type inside another, and first occurrences in a list. -/

namespace PRpc.Spec

/-- A primitive type needs no entry in the list. -/
def IsPrim (t : Nty) : Prop :=
  match t with
  | .mk _ (.Prim _) => True
  | .mk _ _ => False

/-- The types directly mentioned by a variant. -/
def varKids : Dmv → List Nty
  | .UnitVariant => []
  | .NewtypeVariant t => [t]
  | .TupleVariant ts => ts
  | .StructVariant vs => vs.map (fun | .mk _ t => t)

/-- The types directly mentioned by a type. -/
def kids : Nty → List Nty
  | .mk _ (.Prim _) => []
  | .mk _ .UnitStruct => []
  | .mk _ (.Option t) => [t]
  | .mk _ (.NewtypeStruct t) => [t]
  | .mk _ (.Seq t) => [t]
  | .mk _ (.Tuple ts) => ts
  | .mk _ (.TupleStruct ts) => ts
  | .mk _ (.Map k v) => [k, v]
  | .mk _ (.Struct vs) => vs.map (fun | .mk _ t => t)
  | .mk _ (.Enum vs) => vs.flatMap (fun | .mk _ v => varKids v)

/-- `Occurs x t`: the type `x` is `t` or occurs somewhere inside it. -/
inductive Occurs (x : Nty) : Nty → Prop where
  | self : Occurs x x
  | inside {t c : Nty} : c ∈ kids t → Occurs x c → Occurs x t

/-- The payload types of the newtype variants of an enum. -/
def newtypePayloads : Nty → List Nty
  | .mk _ (.Enum vs) => vs.flatMap (fun | .mk _ (.NewtypeVariant t) => [t] | _ => [])
  | _ => []

/-- The directly mentioned types other than newtype-variant payloads. -/
def otherKids : Nty → List Nty
  | .mk _ (.Enum vs) => vs.flatMap (fun | .mk _ (.NewtypeVariant _) => [] | .mk _ v => varKids v)
  | t => kids t

/-- `Listed x t`: `x` occurs in `t` without being strictly inside the payload of a newtype variant. -/
inductive Listed (x : Nty) : Nty → Prop where
  | self : Listed x x
  | inside {t c : Nty} : c ∈ otherKids t → Listed x c → Listed x t
  | payload {t : Nty} : x ∈ newtypePayloads t → Listed x t

/-- Keep the first occurrence of every element. -/
def firstOcc {α : Type} [DecidableEq α] : List α → List α
  | [] => []
  | x :: xs => x :: (firstOcc xs).filter (fun y => decide (y ≠ x))

end PRpc.Spec
