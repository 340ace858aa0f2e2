import Verif.Model.Icd
/-!
The unit tests of `/repo/source/postcard-rpc/src` replayed on the model: what the repository asserts of the code, the model
computes too.  These are checks of the model on the given inputs, not proofs of properties.
-/

namespace PRpc.Conform

/-- A name of the tests, as bytes. -/
def nm (s : String) : Bytes := s.toList.map fun c => BitVec.ofNat 8 c.toNat

/-! ### header.rs 584-668, `wire_format` -/

/-- The values and bytes of the test, header.rs 585-653. -/
def checks : List (VarHeader × Bytes) :=
  [(⟨.Key1 ⟨0⟩, .Seq1 0x00⟩, [KEY_ONE_BITS ||| SEQ_ONE_BITS, 0x00, 0x00]),
   (⟨.Key1 ⟨1⟩, .Seq1 0x02⟩, [KEY_ONE_BITS ||| SEQ_ONE_BITS, 0x01, 0x02]),
   (⟨.Key2 ⟨0x42, 0xAF⟩, .Seq1 0x02⟩, [KEY_TWO_BITS ||| SEQ_ONE_BITS, 0x42, 0xAF, 0x02]),
   (⟨.Key1 ⟨1⟩, .Seq2 0x42AF⟩, [KEY_ONE_BITS ||| SEQ_TWO_BITS, 0x01, 0xAF, 0x42]),
   (⟨.Key8 ⟨0x12, 0x23, 0x34, 0x45, 0x56, 0x67, 0x78, 0x89⟩, .Seq4 0x42AFAABB⟩,
    [KEY_EIGHT_BITS ||| SEQ_FOUR_BITS, 0x12, 0x23, 0x34, 0x45, 0x56, 0x67, 0x78, 0x89, 0xBB, 0xAA, 0xAF, 0x42])]

/-- What the test does with one of them, header.rs 657-665: writes it into the front of `buf` and to a vector, and reads it
back; the result says whether all its assertions hold, and the buffer for the next. -/
def wire_format_one (buf : Bytes) (c : VarHeader × Bytes) : Bool × Bytes :=
  match c.1.write_to_slice buf with
  | .ok ⟨some (used, _), buf⟩ =>
    (used == c.2 && decide (c.1.write_to_vec = .ok c.2) && decide (VarHeader.take_from_slice used = .ok (some (c.1, []))), buf)
  | _ => (false, buf)

/-- The loop, header.rs 655-666. -/
def wire_format (buf : Bytes) : List (VarHeader × Bytes) → Bool
  | [] => true
  | c :: cs => (wire_format_one buf c).1 && wire_format (wire_format_one buf c).2 cs

example : wire_format (List.replicate 13 0) checks = true := by decide +kernel

/-! ### header.rs 670-685, `var_seq_equality` -/

example :
    let val32 : BitVec 32 := 0x12345678
    let val16 : BitVec 16 := 0x9abc
    let val8 : BitVec 8 := 0xde
    VarSeq.eq (.Seq1 val8) (.Seq1 val8) = true ∧ VarSeq.eq (.Seq1 val8) (.Seq2 (val8.setWidth 16)) = true ∧
    VarSeq.eq (.Seq1 val8) (.Seq4 (val8.setWidth 32)) = true ∧ VarSeq.eq (.Seq2 val16) (.Seq1 (val16.setWidth 8)) = false ∧
    VarSeq.eq (.Seq2 val16) (.Seq2 val16) = true ∧ VarSeq.eq (.Seq2 val16) (.Seq4 (val16.setWidth 32)) = true ∧
    VarSeq.eq (.Seq4 val32) (.Seq1 (val32.setWidth 8)) = false ∧ VarSeq.eq (.Seq4 val32) (.Seq2 (val32.setWidth 16)) = false ∧
    VarSeq.eq (.Seq4 val32) (.Seq4 val32) = true := by decide +kernel

/-! ### server/mod.rs 604-661, `min_test_1` … `min_test_8` -/

/-- The all-zero key of the tests. -/
def zeroKey : Key := ⟨0, 0, 0, 0, 0, 0, 0, 0⟩

example : min_key_needed [[zeroKey, ⟨0, 0, 0, 0, 0, 0, 0, 1⟩]] = .ok 1 ∧
    min_key_needed [[zeroKey], [⟨0, 0, 0, 0, 0, 0, 0, 1⟩]] = .ok 1 := by decide +kernel

example : min_key_needed [[zeroKey, ⟨0, 0, 0, 1, 0, 0, 0, 1⟩]] = .ok 2 ∧
    min_key_needed [[zeroKey], [⟨0, 0, 0, 1, 0, 0, 0, 1⟩]] = .ok 2 := by decide +kernel

example : min_key_needed [[zeroKey, ⟨0, 1, 0, 1, 0, 1, 0, 1⟩]] = .ok 4 ∧
    min_key_needed [[zeroKey], [⟨0, 1, 0, 1, 0, 1, 0, 1⟩]] = .ok 4 := by decide +kernel

example : min_key_needed [[zeroKey, ⟨1, 1, 1, 1, 1, 1, 1, 1⟩]] = .ok 8 ∧
    min_key_needed [[zeroKey], [⟨1, 1, 1, 1, 1, 1, 1, 1⟩]] = .ok 8 := by decide +kernel

/-! ### macros.rs 407-420, `concats` -/

example : concat_arrays (0xFFFFFFFF : BitVec 32) [[1, 2, 3], [4, 5, 6]] = .ok [1, 2, 3, 4, 5, 6] := by decide +kernel

/-! ### uniques.rs 776-986, `subpar_arrs` and `uniqlo`

The schemas as `postcard_schema` makes them (external): the derive macro names a type after its identifier. -/

/-- A primitive type. -/
def prim (name : String) (p : Prim) : Nty := .mk (nm name) (.Prim p)
/-- `u8`. -/
def u8T : Nty := prim "u8" .U8
/-- `u16`. -/
def u16T : Nty := prim "u16" .U16
/-- `u32`. -/
def u32T : Nty := prim "u32" .U32
/-- `u64`. -/
def u64T : Nty := prim "u64" .U64
/-- `i8`. -/
def i8T : Nty := prim "i8" .I8
/-- `i16`. -/
def i16T : Nty := prim "i16" .I16
/-- `i32`. -/
def i32T : Nty := prim "i32" .I32
/-- `i64`. -/
def i64T : Nty := prim "i64" .I64
/-- `String`. -/
def stringT : Nty := prim "String" .String
/-- `Option<T>`. -/
def optT (t : Nty) : Nty := .mk (nm "Option<T>") (.Option t)
/-- A struct with named fields. -/
def structT (name : String) (fields : List (String × Nty)) : Nty := .mk (nm name) (.Struct (fields.map fun f => .mk (nm f.1) f.2))

/-- uniques.rs 788-789. -/
def Example0 : Nty := .mk (nm "Example0") .UnitStruct
/-- uniques.rs 791-794. -/
def ExampleA : Nty := structT "ExampleA" [("a", u32T)]
/-- uniques.rs 796-800. -/
def Example1 : Nty := structT "Example1" [("a", u32T), ("b", optT u16T)]
/-- uniques.rs 802-807. -/
def Example2 : Nty := structT "Example2" [("x", i32T), ("y", optT i16T), ("c", Example1)]
/-- uniques.rs 809-816. -/
def Example3 : Nty := structT "Example3" [("a", u32T), ("b", optT u16T), ("c", Example2), ("d", Example2), ("e", Example2)]
/-- uniques.rs 818-824. -/
def Example4 : Nty := .mk (nm "Example4") (.Enum
  [.mk (nm "A") .UnitVariant, .mk (nm "B") (.NewtypeVariant stringT), .mk (nm "C") (.TupleVariant [u32T, u64T]),
   .mk (nm "D") (.StructVariant [.mk (nm "x") i8T, .mk (nm "y") i16T, .mk (nm "z") i32T, .mk (nm "a") i64T])])

/-- The length of a computed list, or that computing it panics. -/
def len {α : Type} : Exec (List α) → Option Nat
  | .ok l => some l.length
  | .panic => none

/-- The number of entries used. -/
def used : Exec (TyArr × Nat) → Option Nat
  | .ok r => some r.2
  | .panic => none

/-- `subpar_arrs`: an array of 32 is a tuple of 32. -/
example : nty_upper (.mk (nm "[T; N]") (.Tuple (List.replicate 32 Example0))) = 33 := by decide +kernel

/-- The upper bounds, uniques.rs 836-847, and `child_ct`, 896-897. -/
example : nty_upper Example0 = 1 ∧ nty_upper ExampleA = 1 ∧ nty_upper Example1 = 2 ∧ nty_upper Example2 = 4 ∧
    nty_upper Example3 = 14 ∧ nty_upper Example4 = 1 ∧ is_prim Example1.ty = false ∧ dmt_upper Example1.ty = 1 := by decide +kernel

/-- The numbers of types found, uniques.rs 849-898. -/
example : used (chew_nty 1 Example0) = some 1 ∧ used (chew_nty 1 ExampleA) = some 1 ∧ used (chew_nty 1 (optT u16T)) = some 1 ∧
    used (chew_nty 2 Example1) = some 2 := by decide +kernel

/-- The rest of the test only has to run, uniques.rs 905-975. -/
example : (used (chew_nty 4 Example2)).isSome ∧ (used (chew_nty 14 Example3)).isSome ∧ (used (chew_nty 1 Example4)).isSome ∧
    (used (chew_dmt 1 Example4.ty)).isSome ∧ (len (unique_types Example0)).isSome ∧ (len (unique_types ExampleA)).isSome ∧
    (len (unique_types Example1)).isSome ∧ (len (unique_types Example2)).isSome ∧ (len (unique_types Example3)).isSome := by
  decide +kernel

/-! ### macros.rs 432-502, `eps` and `tps` -/

/-- A newtype. -/
def newT (name : String) (t : Nty) : Nty := .mk (nm name) (.NewtypeStruct t)
/-- macros.rs 438. -/
def AReq : Nty := newT "AReq" u8T
/-- macros.rs 440. -/
def AResp : Nty := newT "AResp" u16T
/-- macros.rs 442. -/
def BTopic : Nty := newT "BTopic" u32T

/-- `Key`, a newtype around `[u8; 8]`. -/
def keyT : Nty := newT "Key" (.mk (nm "[T; N]") (.Tuple (List.replicate 8 u8T)))

/-- `OwnedSchemaData`, standard_icd.rs 85-110; `OwnedNamedType` is the primitive `Schema`. -/
def ownedSchemaData : Nty := .mk (nm "OwnedSchemaData") (.Enum
  [.mk (nm "Type") (.NewtypeVariant (prim "OwnedNamedType" .Schema)),
   .mk (nm "Endpoint") (.StructVariant [.mk (nm "path") stringT, .mk (nm "request_key") keyT, .mk (nm "response_key") keyT]),
   .mk (nm "Topic") (.StructVariant [.mk (nm "path") stringT, .mk (nm "key") keyT,
     .mk (nm "direction") (.mk (nm "TopicDirection") (.Enum [.mk (nm "ToServer") .UnitVariant, .mk (nm "ToClient") .UnitVariant]))])])

/-- The standard interface (the types without `use-std`, and `WireError`, do not matter here). -/
def stdDecls : StdDecls where
  u32_ty := u32T
  unit_ty := prim "()" .Unit
  totals_ty := structT "SchemaTotals" [("types_sent", u32T), ("endpoints_sent", u32T), ("topics_in_sent", u32T),
    ("topics_out_sent", u32T), ("errors", u32T)]
  schema_ty := fun _ => ownedSchemaData
  log_ty := fun _ => stringT
  ping_path := nm "postcard-rpc/ping"
  schemas_path := nm "postcard-rpc/schemas/get"
  data_path := nm "postcard-rpc/schema/data"
  log_path := nm "postcard-rpc/logging"
  error_ty := Example0
  error_path := nm "error"

/-- Some key for every type and path. -/
def anyKey : Nty → Bytes → Key := fun _ _ => zeroKey

/-- The lengths of the two lists of an endpoint map. -/
def lens : Exec EndpointMap → Option (Nat × Nat)
  | .ok m => some (m.types.length, m.endpoints.length)
  | .panic => none

/-- The lengths of the two lists of a topic map. -/
def tlens : Exec TopicMap → Option (Nat × Nat)
  | .ok m => some (m.types.length, m.topics.length)
  | .panic => none

/-- `eps`: 3 types, 5 endpoints. -/
example : lens (endpoints_macro anyKey stdDecls false
    [⟨true, AReq, AResp, nm "test/alpha1"⟩, ⟨true, AReq, AResp, nm "test/alpha2"⟩, ⟨true, AReq, AResp, nm "test/alpha3"⟩]) =
    some (3, 5) := by decide +kernel

/-- `tps`: 1 type and 3 topics in, 5 types and 3 topics out. -/
example : tlens (topics_macro anyKey stdDecls true .ToServer false
      [⟨true, BTopic, nm "test/in/beta1"⟩, ⟨true, BTopic, nm "test/in/beta2"⟩, ⟨true, BTopic, nm "test/in/beta3"⟩]) = some (1, 3) ∧
    tlens (topics_macro anyKey stdDecls true .ToClient false [⟨true, BTopic, nm "test/out/beta1"⟩]) = some (5, 3) := by decide +kernel

end PRpc.Conform
