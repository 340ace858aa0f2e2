import Verif.Model.Wire
import Verif.Model.EUsb
/-!
The standard messages (`/repo/source/postcard-rpc/src/standard_icd.rs` 20-125, `/repo/source/postcard-rpc/src/lib.rs` 417-424)
as bytes: what their derived `Serialize` and `Deserialize` make of them with `postcard` (external, version 1 of its wire format):

* an unsigned integer is a variable-length integer, lowest seven bits first; a `u8` is a byte;
* a `str` or `String` is its length and its bytes; reading it checks that it is UTF-8 (`utf8`, external);
* a struct is its fields in the order of their declaration; `()` is nothing; `Key` is its eight bytes (`postcard_schema`,
  external);
* an enum is the position of the variant in its declaration, as a `u32`, and the variant's fields.

`NamedType` and `OwnedNamedType` are external; how they are written and read is a parameter.
-/

namespace PRpc

/-- Reading from the front of a byte string (`postcard`, external): the value and what is left, or an error. -/
def Dec (α : Type) := Bytes → Option (α × Bytes)

instance : Monad Dec where
  pure a := fun b => some (a, b)
  bind p f := fun b => match p b with
    | none => none
    | some (a, r) => f a r

/-- An error. -/
def dec_fail {α : Type} : Dec α := fun _ => none

/-- `postcard::from_bytes` (external; host_client/mod.rs 348, 423, server/dispatch_macro.rs 153, 167, 188): what is left after
the value is ignored. -/
def from_bytes {α : Type} (p : Dec α) (b : Bytes) : Option α := (p b).map Prod.fst

/-- Reading a variable-length integer of at most `fuel` bytes, whose last possible byte is at most `last` (external). -/
def take_varint : Nat → Nat → Dec Nat
  | 0, _ => dec_fail
  | fuel + 1, last => fun b => match b with
    | [] => none
    | x :: xs =>
      if x.toNat < 128 then (if fuel = 0 ∧ last < x.toNat then none else some (x.toNat, xs))
      else match take_varint fuel last xs with
        | none => none
        | some (n, r) => some (x.toNat - 128 + 128 * n, r)

/-- Reading `n` bytes (external). -/
def take_n (n : Nat) : Dec Bytes := fun b => if n ≤ b.length then some (b.take n, b.drop n) else none

/-- Writing a `u32` (external): at most five bytes. -/
def enc_u32 (n : BitVec 32) : Bytes := varint_loop (varint_max 4) n.toNat

/-- Reading a `u32` (external): of the fifth byte four bits count. -/
def take_u32 : Dec (BitVec 32) := do
  let n ← take_varint (varint_max 4) 15
  pure (BitVec.ofNat 32 n)

/-- Writing a `str` or `String` on a machine whose `usize` has `w` bytes (external). -/
def enc_str (w : Nat) (s : Bytes) : Bytes := varint_usize w s.length ++ s

/-- Reading a `String` on a machine whose `usize` has `w` bytes (external). -/
def take_str (utf8 : Bytes → Bool) (w : Nat) : Dec Bytes := do
  let n ← take_varint (varint_max w) (2 ^ (8 * w % 7) - 1)
  let s ← take_n n
  if utf8 s then pure s else dec_fail

/-- Writing a `Key` (external): its bytes. -/
def enc_key (k : Key) : Bytes := k.to_bytes

/-- Reading a `u8` (external). -/
def take_u8 : Dec Byte := fun b => match b with
  | [] => none
  | x :: xs => some (x, xs)

/-- Reading a `Key` (external): eight bytes. -/
def take_key8 : Dec Key := do
  let a ← take_u8; let b ← take_u8; let c ← take_u8; let d ← take_u8
  let e ← take_u8; let f ← take_u8; let g ← take_u8; let h ← take_u8
  pure ⟨a, b, c, d, e, f, g, h⟩

/-- `WireError` (with `FrameTooLong` and `FrameTooShort`) as written, standard_icd.rs 22-58. -/
def enc_wire_error : WireError → Bytes
  | .FrameTooLong len max => enc_u32 0#32 ++ (enc_u32 len ++ enc_u32 max)
  | .FrameTooShort len => enc_u32 1#32 ++ enc_u32 len
  | .DeserFailed => enc_u32 2#32
  | .SerFailed => enc_u32 3#32
  | .UnknownKey => enc_u32 4#32
  | .FailedToSpawn => enc_u32 5#32
  | .KeyTooSmall => enc_u32 6#32

/-- `WireError` as read, standard_icd.rs 22-58. -/
def take_wire_error : Dec WireError := do
  let v ← take_u32
  if v = 0#32 then do
    let len ← take_u32
    let max ← take_u32
    pure (.FrameTooLong len max)
  else if v = 1#32 then do
    let len ← take_u32
    pure (.FrameTooShort len)
  else if v = 2#32 then pure .DeserFailed
  else if v = 3#32 then pure .SerFailed
  else if v = 4#32 then pure .UnknownKey
  else if v = 5#32 then pure .FailedToSpawn
  else if v = 6#32 then pure .KeyTooSmall
  else dec_fail

/-- `TopicDirection` as written, lib.rs 417-424. -/
def enc_direction : TopicDirection → Bytes
  | .ToServer => enc_u32 0#32
  | .ToClient => enc_u32 1#32

/-- `TopicDirection` as read, lib.rs 417-424. -/
def take_direction : Dec TopicDirection := do
  let v ← take_u32
  if v = 0#32 then pure .ToServer
  else if v = 1#32 then pure .ToClient
  else dec_fail

/-- `SchemaData` as written by a device without the standard library, standard_icd.rs 60-83. -/
def enc_schema_data (encN : Nty → Bytes) (w : Nat) : SchemaData → Bytes
  | .Type t => enc_u32 0#32 ++ encN t
  | .Endpoint path rq rs => enc_u32 1#32 ++ (enc_str w path ++ (enc_key rq ++ enc_key rs))
  | .Topic path key d => enc_u32 2#32 ++ (enc_str w path ++ (enc_key key ++ enc_direction d))

/-- `OwnedSchemaData` as written by a device with the standard library, standard_icd.rs 85-110. -/
def enc_owned_schema_data (encN : Nty → Bytes) (w : Nat) : SchemaData → Bytes
  | .Type t => enc_u32 0#32 ++ encN t
  | .Endpoint path rq rs => enc_u32 1#32 ++ (enc_str w path ++ (enc_key rq ++ enc_key rs))
  | .Topic path key d => enc_u32 2#32 ++ (enc_str w path ++ (enc_key key ++ enc_direction d))

/-- `OwnedSchemaData` as read by the host, standard_icd.rs 85-110. -/
def take_owned_schema_data (takeN : Dec Nty) (utf8 : Bytes → Bool) (w : Nat) : Dec SchemaData := do
  let v ← take_u32
  if v = 0#32 then do
    let t ← takeN
    pure (.Type t)
  else if v = 1#32 then do
    let path ← take_str utf8 w
    let request_key ← take_key8
    let response_key ← take_key8
    pure (.Endpoint path request_key response_key)
  else if v = 2#32 then do
    let path ← take_str utf8 w
    let key ← take_key8
    let direction ← take_direction
    pure (.Topic path key direction)
  else dec_fail

/-- `SchemaTotals` as written, standard_icd.rs 112-125. -/
def enc_totals (t : SchemaTotals) : Bytes :=
  enc_u32 t.types_sent ++ (enc_u32 t.endpoints_sent ++ (enc_u32 t.topics_in_sent ++ (enc_u32 t.topics_out_sent ++ enc_u32 t.errors)))

/-- `SchemaTotals` as read, standard_icd.rs 112-125. -/
def take_totals : Dec SchemaTotals := do
  let types_sent ← take_u32
  let endpoints_sent ← take_u32
  let topics_in_sent ← take_u32
  let topics_out_sent ← take_u32
  let errors ← take_u32
  pure ⟨types_sent, endpoints_sent, topics_in_sent, topics_out_sent, errors⟩

/-- Whatever the server hands to `WireTx::send`, as written: `std` says whether it was built with the standard library
(server/mod.rs 263-266), `encV` is the serializer of the application's messages. -/
def enc_body {V : Type} (encV : V → Bytes) (encN : Nty → Bytes) (w : Nat) (std : Bool) : Body V → Bytes
  | .val v => encV v
  | .err e => enc_wire_error e
  | .schema d => if std then enc_owned_schema_data encN w d else enc_schema_data encN w d
  | .totals t => enc_totals t

end PRpc
