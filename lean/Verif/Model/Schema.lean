import Verif.Model.Basic
/-!
Model of the schema types of `postcard_schema::schema` (imported at `/repo/source/postcard-rpc/src/uniques.rs` 34-37)
as far as postcard-rpc inspects them.  Names are byte strings (`&str` as its UTF-8 bytes; `str_eq` compares bytes).
The owned variants (`OwnedNamedType`, used on the host) are the same trees.
-/

namespace PRpc

/-- The twenty childless primitive variants of `DataModelType`, in the order of uniques.rs 47-66. -/
inductive Prim where
  | Bool | I8 | U8 | I16 | I32 | I64 | I128 | U16 | U32 | U64 | U128 | Usize | Isize | F32 | F64 | Char | String
  | ByteArray | Unit | Schema
  deriving DecidableEq, Repr

mutual
/-- `NamedType`: fields `name`, `ty` (uniques.rs 100, 239). -/
inductive Nty where
  | mk (name : Bytes) (ty : Dmt)
/-- `DataModelType` (uniques.rs 45-78).  Simplification: the twenty primitives share one constructor `Prim`. -/
inductive Dmt where
  | Prim (p : PRpc.Prim)
  | UnitStruct
  | Option (t : Nty)
  | NewtypeStruct (t : Nty)
  | Seq (t : Nty)
  | Tuple (ts : List Nty)
  | TupleStruct (ts : List Nty)
  | Map (key val : Nty)
  | Struct (vals : List Nval)
  | Enum (vars : List Nvar)
/-- `NamedValue`: fields `name`, `ty` (uniques.rs 198-201). -/
inductive Nval where
  | mk (name : Bytes) (ty : Nty)
/-- `NamedVariant`: fields `name`, `ty` (uniques.rs 173). -/
inductive Nvar where
  | mk (name : Bytes) (ty : Dmv)
/-- `DataModelVariant` (uniques.rs 211-225). -/
inductive Dmv where
  | UnitVariant
  | NewtypeVariant (t : Nty)
  | TupleVariant (ts : List Nty)
  | StructVariant (vals : List Nval)
end

/-- Field `name` of `NamedType`. -/
def Nty.name : Nty → Bytes | .mk n _ => n
/-- Field `ty` of `NamedType`. -/
def Nty.ty : Nty → Dmt | .mk _ t => t
/-- Field `ty` of `NamedValue`. -/
def Nval.ty : Nval → Nty | .mk _ t => t
/-- Field `ty` of `NamedVariant`. -/
def Nvar.ty : Nvar → Dmv | .mk _ t => t

end PRpc
