import Verif.Model.Header
/-!
Model of `min_key_needed` and `keycheck!` (`/repo/source/postcard-rpc/src/server/mod.rs` 509-601) and of the `sizer`
module generated by `define_dispatch!` (`/repo/source/postcard-rpc/src/server/dispatch_macro.rs` 255-375).
-/

namespace PRpc

/-- `u64::from_le_bytes` (core library), used at server/mod.rs 589 and dispatch_macro.rs 328, 332. -/
def u64_from_le_bytes (b0 b1 b2 b3 b4 b5 b6 b7 : Byte) : BitVec 64 :=
  b7 ++ b6 ++ b5 ++ b4 ++ b3 ++ b2 ++ b1 ++ b0

/-- `u64::from_le_bytes(key.to_bytes())`, server/mod.rs 588-590 (`eight`) and dispatch_macro.rs 328. -/
def Key.to_u64 (k : Key) : BitVec 64 := u64_from_le_bytes k.a k.b k.c k.d k.e k.f k.g k.h

/-- `one`, server/mod.rs 579-581. -/
def mk_one (key : Key) : BitVec 8 := (Key1.from_key8 key).v
/-- `two`, server/mod.rs 582-584. -/
def mk_two (key : Key) : BitVec 16 := u16_from_le_bytes (Key2.from_key8 key).a (Key2.from_key8 key).b
/-- `four`, server/mod.rs 585-587. -/
def mk_four (key : Key) : BitVec 32 :=
  u32_from_le_bytes (Key4.from_key8 key).a (Key4.from_key8 key).b (Key4.from_key8 key).c (Key4.from_key8 key).d
/-- `eight`, server/mod.rs 588-590. -/
def mk_eight (key : Key) : BitVec 64 := key.to_u64

section
variable {α : Type} [DecidableEq α]

/-- The `while y < xlist.len()` loop of `keycheck!`, server/mod.rs 545-554.  `false` is `good = false; break 'dupe`. -/
def kc_y (func : Key → α) (akey : α) (xlist : List Key) (y : Nat) : Bool :=
  if h : y < xlist.length then
    let ykey := xlist[y]
    let bkey := func ykey
    if akey = bkey then false else kc_y func akey xlist (y + 1)
  else true
termination_by xlist.length - y

/-- The `while x < lists.len()` loop of `keycheck!`, server/mod.rs 532-556. -/
def kc_x (func : Key → α) (lists : List (List Key)) (akey : α) (i j x : Nat) : Bool :=
  if h : x < lists.length then
    let xlist := lists[x]
    let y := if x = i then j + 1 else 0
    if kc_y func akey xlist y then kc_x func lists akey i j (x + 1) else false
  else true
termination_by lists.length - x

/-- The `while j < ilist.len()` loop of `keycheck!`, server/mod.rs 523-558. -/
def kc_j (func : Key → α) (lists : List (List Key)) (i : Nat) (ilist : List Key) (j : Nat) : Bool :=
  if h : j < ilist.length then
    let jkey := ilist[j]
    let akey := func jkey
    if kc_x func lists akey i j i then kc_j func lists i ilist (j + 1) else false
  else true
termination_by ilist.length - j

/-- The `'dupe: while i < lists.len()` loop of `keycheck!`, server/mod.rs 519-560; the result is `good`. -/
def kc_i (func : Key → α) (lists : List (List Key)) (i : Nat) : Bool :=
  if h : i < lists.length then
    let ilist := lists[i]
    if kc_j func lists i ilist 0 then kc_i func lists (i + 1) else false
  else true
termination_by lists.length - i

end

/-- `min_key_needed`, server/mod.rs 578-601; the final `panic!` (line 600) is `Exec.panic`. -/
def min_key_needed (lists : List (List Key)) : Exec Nat :=
  if kc_i mk_one lists 0 then .ok 1
  else if kc_i mk_two lists 0 then .ok 2
  else if kc_i mk_four lists 0 then .ok 4
  else if kc_i mk_eight lists 0 then .ok 8
  else .panic

/-- Inner loop of `a_is_subset_of_b`, dispatch_macro.rs 329-338 (`matched`). -/
def subset_inner (x : BitVec 64) (b : List Key) (j : Nat) : Bool :=
  if h : j < b.length then
    let y := b[j].to_u64
    if x = y then true else subset_inner x b (j + 1)
  else false
termination_by b.length - j

/-- Outer loop of `a_is_subset_of_b`, dispatch_macro.rs 325-345, from index `i`. -/
def subset_outer (a b : List Key) (i : Nat) : Bool :=
  if h : i < a.length then
    let x := a[i].to_u64
    let matched := subset_inner x b 0
    if !matched then false else subset_outer a b (i + 1)
  else true
termination_by a.length - i

/-- `a_is_subset_of_b`, dispatch_macro.rs 325-345. -/
def a_is_subset_of_b (a b : List Key) : Bool := subset_outer a b 0

/-- One row of an endpoint list: path, request key, response key (lib.rs 437, 456; built at macros.rs 137-141). -/
structure EpRow where
  path : Bytes
  req : Key
  resp : Key
  deriving DecidableEq, Repr

/-- One row of a topic list: path and key (lib.rs 439-441, 471). -/
structure TpRow where
  path : Bytes
  key : Key
  deriving DecidableEq, Repr

/-- The inputs of the `sizer` module: the three declared lists and the keys of the handler table
(dispatch_macro.rs 227-243, 259-323). -/
structure SizerIn where
  endpoints : List EpRow
  topics_in : List TpRow
  topics_out : List TpRow
  /-- `EP_HANDLER_IN_KEYS` and `EP_HANDLER_OUT_KEYS`, dispatch_macro.rs 307-315. -/
  handler_eps : List (Key × Key)
  /-- `TP_HANDLER_IN_KEYS`, dispatch_macro.rs 321-323. -/
  handler_tps : List Key

/-- `NEEDED_SZ_IN`, dispatch_macro.rs 348-351.  The `while`-copied key arrays (lines 260-302) are `List.map`. -/
def needed_sz_in (s : SizerIn) : Exec Nat :=
  min_key_needed [s.endpoints.map (·.req), s.topics_in.map (·.key)]

/-- `NEEDED_SZ_OUT`, dispatch_macro.rs 352-355. -/
def needed_sz_out (s : SizerIn) : Exec Nat :=
  min_key_needed [s.endpoints.map (·.resp), s.topics_out.map (·.key)]

/-- `NEEDED_SZ`, dispatch_macro.rs 356-374: the three asserts (a failing one is a compile error, here `panic`), then
the larger of the two sizes. -/
def needed_sz (s : SizerIn) : Exec Nat := do
  if !a_is_subset_of_b (s.handler_eps.map (·.1)) (s.endpoints.map (·.req)) then Exec.panic
  else if !a_is_subset_of_b (s.handler_eps.map (·.2)) (s.endpoints.map (·.resp)) then Exec.panic
  else if !a_is_subset_of_b s.handler_tps (s.topics_in.map (·.key)) then Exec.panic
  else do
    let i ← needed_sz_in s
    let o ← needed_sz_out s
    if i > o then .ok i else .ok o

/-- The `match sizer::NEEDED_SZ` of the device map, dispatch_macro.rs 424-430 (`_ => unreachable!()` is `panic`). -/
def kind_of_sz (n : Nat) : Exec VarKeyKind :=
  if n = 1 then .ok .Key1
  else if n = 2 then .ok .Key2
  else if n = 4 then .ok .Key4
  else if n = 8 then .ok .Key8
  else .panic

end PRpc
