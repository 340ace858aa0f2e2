import Verif.Model.Basic
/-!
Model of the key types (`/repo/source/postcard-rpc/src/lib.rs` 140-365) and of `VarKey`, `VarKeyKind`,
`VarSeq`, `VarSeqKind` (`/repo/source/postcard-rpc/src/header.rs` 67-349).
-/

namespace PRpc

/-- `Key` (re-exported from `postcard_schema::key`, lib.rs 140): eight bytes.
Simplification: a Rust array `[u8; 8]` is a structure with eight fields; `to_bytes` gives the list. -/
structure Key where
  a : Byte
  b : Byte
  c : Byte
  d : Byte
  e : Byte
  f : Byte
  g : Byte
  h : Byte
  deriving DecidableEq, Repr

/-- `Key::to_bytes` (postcard_schema), used at lib.rs 193, 233, 263 and header.rs 99, 420, 480. -/
def Key.to_bytes (k : Key) : Bytes := [k.a, k.b, k.c, k.d, k.e, k.f, k.g, k.h]

/-- `Key1`, lib.rs 148-149. -/
structure Key1 where
  v : Byte
  deriving DecidableEq, Repr

/-- `Key2`, lib.rs 157-158. -/
structure Key2 where
  a : Byte
  b : Byte
  deriving DecidableEq, Repr

/-- `Key4`, lib.rs 166-167. -/
structure Key4 where
  a : Byte
  b : Byte
  c : Byte
  d : Byte
  deriving DecidableEq, Repr

/-- The bytes of a `Key1` (`.0`; `to_bytes` at lib.rs 199-201). -/
def Key1.to_bytes (k : Key1) : Bytes := [k.v]
/-- The bytes of a `Key2` (`.0`; `to_bytes` at lib.rs 239-241). -/
def Key2.to_bytes (k : Key2) : Bytes := [k.a, k.b]
/-- The bytes of a `Key4` (`.0`; `to_bytes` at lib.rs 269-271). -/
def Key4.to_bytes (k : Key4) : Bytes := [k.a, k.b, k.c, k.d]

/-- `Key1::from_key2`, lib.rs 174-177. -/
def Key1.from_key2 (k : Key2) : Key1 := ⟨k.a ^^^ k.b⟩

/-- `Key1::from_key4`, lib.rs 183-186. -/
def Key1.from_key4 (k : Key4) : Key1 := ⟨k.a ^^^ k.b ^^^ k.c ^^^ k.d⟩

/-- `Key1::from_key8`, lib.rs 192-195. -/
def Key1.from_key8 (k : Key) : Key1 :=
  ⟨k.a ^^^ k.b ^^^ k.c ^^^ k.d ^^^ k.e ^^^ k.f ^^^ k.g ^^^ k.h⟩

/-- `Key2::from_key4`, lib.rs 223-226. -/
def Key2.from_key4 (k : Key4) : Key2 := ⟨k.a ^^^ k.b, k.c ^^^ k.d⟩

/-- `Key2::from_key8`, lib.rs 232-235. -/
def Key2.from_key8 (k : Key) : Key2 :=
  ⟨k.a ^^^ k.b ^^^ k.c ^^^ k.d, k.e ^^^ k.f ^^^ k.g ^^^ k.h⟩

/-- `Key4::from_key8`, lib.rs 262-265. -/
def Key4.from_key8 (k : Key) : Key4 :=
  ⟨k.a ^^^ k.b, k.c ^^^ k.d, k.e ^^^ k.f, k.g ^^^ k.h⟩

/-- `VarKey`, header.rs 76-86. -/
inductive VarKey where
  | Key1 (k : PRpc.Key1)
  | Key2 (k : PRpc.Key2)
  | Key4 (k : PRpc.Key4)
  | Key8 (k : PRpc.Key)
  deriving DecidableEq, Repr

/-- `VarKeyKind`, header.rs 214-224. -/
inductive VarKeyKind where
  | Key1
  | Key2
  | Key4
  | Key8
  deriving DecidableEq, Repr

/-- `VarKey::kind`, header.rs 199-206. -/
def VarKey.kind : VarKey → VarKeyKind
  | .Key1 _ => .Key1
  | .Key2 _ => .Key2
  | .Key4 _ => .Key4
  | .Key8 _ => .Key8

/-- `VarKey::shrink_to`, header.rs 163-196 (arms in source order; `&mut self` becomes the returned value). -/
def VarKey.shrink_to (self : VarKey) (kind : VarKeyKind) : VarKey :=
  match self, kind with
  | .Key1 k, _ => .Key1 k
  | .Key2 k, .Key1 => .Key1 (Key1.from_key2 k)
  | .Key2 k, _ => .Key2 k
  | .Key4 k, .Key1 => .Key1 (Key1.from_key4 k)
  | .Key4 k, .Key2 => .Key2 (Key2.from_key4 k)
  | .Key4 k, _ => .Key4 k
  | .Key8 k, .Key1 => .Key1 (Key1.from_key8 k)
  | .Key8 k, .Key2 => .Key2 (Key2.from_key8 k)
  | .Key8 k, .Key4 => .Key4 (Key4.from_key8 k)
  | .Key8 k, .Key8 => .Key8 k

/-- `impl PartialEq for VarKey`, header.rs 90-154 (the Rust `==` on `VarKey`, all sixteen arms). -/
def VarKey.eq (self other : VarKey) : Bool :=
  match self, other with
  | .Key1 s, .Key1 o => s.v == o.v
  | .Key2 s, .Key2 o => s.to_bytes == o.to_bytes
  | .Key4 s, .Key4 o => s.to_bytes == o.to_bytes
  | .Key8 s, .Key8 o => s.to_bytes == o.to_bytes
  | .Key1 t, .Key2 o => t.v == (Key1.from_key2 o).v
  | .Key1 t, .Key4 o => t.v == (Key1.from_key4 o).v
  | .Key1 t, .Key8 o => t.v == (Key1.from_key8 o).v
  | .Key2 t, .Key1 o => (Key1.from_key2 t).v == o.v
  | .Key2 t, .Key4 o => t.to_bytes == (Key2.from_key4 o).to_bytes
  | .Key2 t, .Key8 o => t.to_bytes == (Key2.from_key8 o).to_bytes
  | .Key4 t, .Key1 o => (Key1.from_key4 t).v == o.v
  | .Key4 t, .Key2 o => (Key2.from_key4 t).to_bytes == o.to_bytes
  | .Key4 t, .Key8 o => t.to_bytes == (Key4.from_key8 o).to_bytes
  | .Key8 t, .Key1 o => (Key1.from_key8 t).v == o.v
  | .Key8 t, .Key2 o => (Key2.from_key8 t).to_bytes == o.to_bytes
  | .Key8 t, .Key4 o => (Key4.from_key8 t).to_bytes == o.to_bytes

/-- `Key1::try_from_varkey`, lib.rs 208-215 (also `TryFrom<&VarKey> for Key1`, lib.rs 291-298). -/
def Key1.try_from_varkey : VarKey → Option Key1
  | .Key1 k => some k
  | .Key2 k => some (Key1.from_key2 k)
  | .Key4 k => some (Key1.from_key4 k)
  | .Key8 k => some (Key1.from_key8 k)

/-- `Key2::try_from_varkey`, lib.rs 247-254 (also lib.rs 300-307). -/
def Key2.try_from_varkey : VarKey → Option Key2
  | .Key1 _ => none
  | .Key2 k => some k
  | .Key4 k => some (Key2.from_key4 k)
  | .Key8 k => some (Key2.from_key8 k)

/-- `Key4::try_from_varkey`, lib.rs 277-284 (also lib.rs 309-316). -/
def Key4.try_from_varkey : VarKey → Option Key4
  | .Key1 _ => none
  | .Key2 _ => none
  | .Key4 k => some k
  | .Key8 k => some (Key4.from_key8 k)

/-- `TryFrom<&VarKey> for Key`, lib.rs 318-329 (`Err(TooSmall)` is `none`). -/
def Key.try_from_varkey : VarKey → Option Key
  | .Key8 k => some k
  | _ => none

/-- `VarSeq`, header.rs 237-245. -/
inductive VarSeq where
  | Seq1 (v : BitVec 8)
  | Seq2 (v : BitVec 16)
  | Seq4 (v : BitVec 32)
  deriving DecidableEq, Repr

/-- `VarSeqKind`, header.rs 341-349. -/
inductive VarSeqKind where
  | Seq1
  | Seq2
  | Seq4
  deriving DecidableEq, Repr

/-- The kind of a `VarSeq` (the Rust type has no `kind` method; the variant tag is observable by matching). -/
def VarSeq.kind : VarSeq → VarSeqKind
  | .Seq1 _ => .Seq1
  | .Seq2 _ => .Seq2
  | .Seq4 _ => .Seq4

/-- `Into<u8> for VarSeq`, header.rs 265-273. -/
def VarSeq.into_u8 : VarSeq → BitVec 8
  | .Seq1 v => v
  | .Seq2 v => v.setWidth 8
  | .Seq4 v => v.setWidth 8

/-- `Into<u16> for VarSeq`, header.rs 275-283. -/
def VarSeq.into_u16 : VarSeq → BitVec 16
  | .Seq1 v => v.setWidth 16
  | .Seq2 v => v
  | .Seq4 v => v.setWidth 16

/-- `Into<u32> for VarSeq`, header.rs 285-293. -/
def VarSeq.into_u32 : VarSeq → BitVec 32
  | .Seq1 v => v.setWidth 32
  | .Seq2 v => v.setWidth 32
  | .Seq4 v => v

/-- `impl PartialEq for VarSeq`, header.rs 295-299. -/
def VarSeq.eq (self other : VarSeq) : Bool := self.into_u32 == other.into_u32

/-- `VarSeq::resize`, header.rs 309-333. -/
def VarSeq.resize (self : VarSeq) (kind : VarSeqKind) : VarSeq :=
  match self, kind with
  | .Seq1 s, .Seq1 => .Seq1 s
  | .Seq2 s, .Seq2 => .Seq2 s
  | .Seq4 s, .Seq4 => .Seq4 s
  | .Seq1 s, .Seq2 => .Seq2 (s.setWidth 16)
  | .Seq1 s, .Seq4 => .Seq4 (s.setWidth 32)
  | .Seq2 s, .Seq1 => .Seq1 (s.setWidth 8)
  | .Seq2 s, .Seq4 => .Seq4 (s.setWidth 32)
  | .Seq4 s, .Seq1 => .Seq1 (s.setWidth 8)
  | .Seq4 s, .Seq2 => .Seq2 (s.setWidth 16)

end PRpc
