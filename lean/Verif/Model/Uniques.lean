import Verif.Model.Schema
/-!
Model of the compile-time type-list computation, `/repo/source/postcard-rpc/src/uniques.rs`.

Arrays `[Option<&NamedType>; MAX]` are lists of length `MAX`; indexing outside them, the `else { panic!() }` of the
`let Some(..) = .. else` statements, and failing asserts are `Exec.panic`.  `while i < xs.len()` loops over a slice are
recursions on the list.  `usize` arithmetic is on `Nat` (no overflow: the counts are sizes of `'static` data).
-/

namespace PRpc

/-- `is_prim` on the primitive variants, uniques.rs 47-66. -/
def prim_is_prim : Prim → Bool
  | .Bool => true
  | .I8 => true
  | .U8 => true
  | .I16 => true
  | .I32 => true
  | .I64 => true
  | .I128 => true
  | .U16 => true
  | .U32 => true
  | .U64 => true
  | .U128 => true
  | .Usize => true
  | .Isize => true
  | .F32 => true
  | .F64 => true
  | .Char => true
  | .String => true
  | .ByteArray => true
  | .Unit => true
  | .Schema => true

/-- `is_prim`, uniques.rs 44-79. -/
def is_prim : Dmt → Bool
  | .Prim p => prim_is_prim p
  | .UnitStruct => false
  | .Option _ => false
  | .NewtypeStruct _ => false
  | .Seq _ => false
  | .Tuple _ => false
  | .TupleStruct _ => false
  | .Map _ _ => false
  | .Struct _ => false
  | .Enum _ => false

/-- The `while` loop of `str_eq`, uniques.rs 89-94.  The bytes are read with `a_by[i]`, `b_by[i]`; the lengths are
equal when it runs, and a missing byte would be an index panic (here: `false`, unreachable). -/
def str_eq_loop (a b : Bytes) : Bool :=
  match a, b with
  | [], _ => true
  | _ :: _, [] => false
  | x :: xs, y :: ys => if x ≠ y then false else str_eq_loop xs ys

/-- `str_eq`, uniques.rs 82-96. -/
def str_eq (a b : Bytes) : Bool :=
  if a.length ≠ b.length then false else str_eq_loop a b

/-- The arms of `dmt_eq` on two primitives, uniques.rs 124-144 (all but `UnitStruct`). -/
def prim_eq : Prim → Prim → Bool
  | .Bool, .Bool => true
  | .I8, .I8 => true
  | .U8, .U8 => true
  | .I16, .I16 => true
  | .I32, .I32 => true
  | .I64, .I64 => true
  | .I128, .I128 => true
  | .U16, .U16 => true
  | .U32, .U32 => true
  | .U64, .U64 => true
  | .U128, .U128 => true
  | .Usize, .Usize => true
  | .Isize, .Isize => true
  | .F32, .F32 => true
  | .F64, .F64 => true
  | .Char, .Char => true
  | .String, .String => true
  | .ByteArray, .ByteArray => true
  | .Unit, .Unit => true
  | .Schema, .Schema => true
  | _, _ => false

mutual
/-- `nty_eq`, uniques.rs 99-101. -/
def nty_eq : Nty → Nty → Bool
  | .mk na ta, .mk nb tb => str_eq na nb && dmt_eq ta tb

/-- `dmt_eq`, uniques.rs 119-169 (arms in source order). -/
def dmt_eq : Dmt → Dmt → Bool
  | .Prim p, b => match b with | .Prim q => prim_eq p q | _ => false
  | .UnitStruct, b => match b with | .UnitStruct => true | _ => false
  | .Option nta, b => match b with | .Option ntb => nty_eq nta ntb | _ => false
  | .NewtypeStruct nta, b => match b with | .NewtypeStruct ntb => nty_eq nta ntb | _ => false
  | .Seq nta, b => match b with | .Seq ntb => nty_eq nta ntb | _ => false
  | .Tuple ntsa, b =>
    match b with | .Tuple ntsb => if ntsa.length ≠ ntsb.length then false else ntys_eq_loop ntsa ntsb | _ => false
  | .TupleStruct ntsa, b =>
    match b with
    | .TupleStruct ntsb => if ntsa.length ≠ ntsb.length then false else ntys_eq_loop ntsa ntsb
    | _ => false
  | .Map keya vala, b => match b with | .Map keyb valb => nty_eq keya keyb && nty_eq vala valb | _ => false
  | .Struct nvalsa, b =>
    match b with
    | .Struct nvalsb => if nvalsa.length ≠ nvalsb.length then false else vals_eq_loop nvalsa nvalsb
    | _ => false
  | .Enum nvarsa, b =>
    match b with
    | .Enum nvarsb => if nvarsa.length ≠ nvarsb.length then false else vars_eq_loop nvarsa nvarsb
    | _ => false

/-- Loop of `ntys_eq`, uniques.rs 108-115 (the length check of lines 105-107 is at the call sites). -/
def ntys_eq_loop : List Nty → List Nty → Bool
  | [], _ => true
  | _ :: _, [] => false
  | a :: as, b :: bs => if !nty_eq a b then false else ntys_eq_loop as bs

/-- Loop of `vals_eq`, uniques.rs 196-207. -/
def vals_eq_loop : List Nval → List Nval → Bool
  | [], _ => true
  | _ :: _, [] => false
  | .mk na ta :: as, .mk nb tb :: bs =>
    if !str_eq na nb then false else if !nty_eq ta tb then false else vals_eq_loop as bs

/-- Loop of `vars_eq`, uniques.rs 181-188, with `var_eq` (172-174) inlined. -/
def vars_eq_loop : List Nvar → List Nvar → Bool
  | [], _ => true
  | _ :: _, [] => false
  | .mk na ta :: as, .mk nb tb :: bs =>
    if !(str_eq na nb && dmv_eq ta tb) then false else vars_eq_loop as bs

/-- `dmv_eq`, uniques.rs 211-225. -/
def dmv_eq : Dmv → Dmv → Bool
  | .UnitVariant, b => match b with | .UnitVariant => true | _ => false
  | .NewtypeVariant nta, b => match b with | .NewtypeVariant ntb => nty_eq nta ntb | _ => false
  | .TupleVariant ntsa, b =>
    match b with
    | .TupleVariant ntsb => if ntsa.length ≠ ntsb.length then false else ntys_eq_loop ntsa ntsb
    | _ => false
  | .StructVariant va, b =>
    match b with
    | .StructVariant vb => if va.length ≠ vb.length then false else vals_eq_loop va vb
    | _ => false
end

mutual
/-- `unique_types_nty_upper`, uniques.rs 238-245. -/
def nty_upper : Nty → Nat
  | .mk _ ty =>
    let child_ct := dmt_upper ty
    if is_prim ty then child_ct else child_ct + 1

/-- `unique_types_dmt_upper`, uniques.rs 254-315. -/
def dmt_upper : Dmt → Nat
  | .Prim _ => 0
  | .UnitStruct => 0
  | .Option nt => nty_upper nt
  | .NewtypeStruct nt => nty_upper nt
  | .Seq nt => nty_upper nt
  | .Tuple nts => ntys_upper nts
  | .TupleStruct nts => ntys_upper nts
  | .Map key val => nty_upper key + nty_upper val
  | .Struct nvals => vals_upper nvals
  | .Enum nvars => vars_upper nvars

/-- The tuple loop, uniques.rs 285-291 and 329-335. -/
def ntys_upper : List Nty → Nat
  | [] => 0
  | t :: ts => nty_upper t + ntys_upper ts

/-- The struct loop, uniques.rs 297-303 and 338-344. -/
def vals_upper : List Nval → Nat
  | [] => 0
  | .mk _ t :: ts => nty_upper t + vals_upper ts

/-- The enum loop, uniques.rs 306-312. -/
def vars_upper : List Nvar → Nat
  | [] => 0
  | .mk _ t :: ts => dmv_upper t + vars_upper ts

/-- `unique_types_var_upper`, uniques.rs 324-347. -/
def dmv_upper : Dmv → Nat
  | .UnitVariant => 0
  | .NewtypeVariant nt => nty_upper nt
  | .TupleVariant nts => ntys_upper nts
  | .StructVariant nvals => vals_upper nvals
end

/-- The arrays of uniques.rs 362, 400: `[Option<&NamedType>; MAX]`. -/
abbrev TyArr := List (Option Nty)

/-- `[None; MAX]`. -/
def empty_arr (max : Nat) : TyArr := List.replicate max none

/-- `let Some(ty) = arr[i] else { panic!() }` (uniques.rs 372, 446, 451, …): panics out of bounds and on `None`. -/
def arr_get (arr : TyArr) (i : Nat) : Exec Nty :=
  match arr[i]? with
  | some (some ty) => .ok ty
  | _ => .panic

/-- `arr[used] = Some(nty)` (uniques.rs 379, 456, …): panics out of bounds. -/
def arr_set (arr : TyArr) (i : Nat) (ty : Nty) : Exec TyArr :=
  if i < arr.length then .ok (arr.set i (some ty)) else .panic

/-- The search loop `while !found && i < used { .. if nty_eq(nty, ty) { found = true } .. }`, uniques.rs 371-377. -/
def find_self (arr : TyArr) (used : Nat) (nty : Nty) (i : Nat) (found : Bool) : Exec Bool :=
  if !found && i < used then do
    let ty ← arr_get arr i
    find_self arr used nty (i + 1) (if nty_eq nty ty then true else found)
  else .ok found
termination_by used - i
decreasing_by simp at *; omega

/-- The search loop `while !found && k < outidx { .. found |= nty_eq(kty, ty) .. }`, uniques.rs 450-454 (and 477-481,
497-501, 527-531, 555-559, 579-583, 607-611: identical text). -/
def find_out (out : TyArr) (outidx : Nat) (ty : Nty) (k : Nat) (found : Bool) : Exec Bool :=
  if !found && k < outidx then do
    let kty ← arr_get out k
    find_out out outidx ty (k + 1) (found || nty_eq kty ty)
  else .ok found
termination_by outidx - k
decreasing_by simp at *; omega

/-- One insertion `let mut k = 0; let mut found = is_prim(ty.ty); while ..; if !found { out[outidx] = Some(ty);
outidx += 1; }`, uniques.rs 447-458 (and 474-485, 494-505, 524-535, 552-563, 576-587, 604-615: identical text). -/
def chew_insert (st : TyArr × Nat) (ty : Nty) : Exec (TyArr × Nat) := do
  let (out, outidx) := st
  let found ← find_out out outidx ty 0 (is_prim ty.ty)
  if !found then do
    let out ← arr_set out outidx ty
    .ok (out, outidx + 1)
  else .ok (out, outidx)

/-- The loop `while j < used { let Some(ty) = arr[j] else { panic!() }; .. j += 1; }`, uniques.rs 445-460 (and
472-487, 492-507, 522-537, 574-589, 602-617: identical text). -/
def chew_absorb (arr : TyArr) (used j : Nat) (st : TyArr × Nat) : Exec (TyArr × Nat) :=
  if j < used then do
    let ty ← arr_get arr j
    let st ← chew_insert st ty
    chew_absorb arr used (j + 1) st
  else .ok st
termination_by used - j

mutual
/-- `type_chewer_nty`, uniques.rs 360-383. -/
def chew_nty (max : Nat) : Nty → Exec (TyArr × Nat)
  | .mk name ty => do
    let (arr, used) ← chew_dmt max ty
    let found ← find_self arr used (.mk name ty) 0 (is_prim ty)
    if !found then do
      let arr ← arr_set arr used (.mk name ty)
      .ok (arr, used + 1)
    else .ok (arr, used)

/-- `type_chewer_dmt`, uniques.rs 398-627. -/
def chew_dmt (max : Nat) : Dmt → Exec (TyArr × Nat)
  | .Prim _ => .ok (empty_arr max, 0)
  | .UnitStruct => .ok (empty_arr max, 0)
  | .Option nt => chew_nty max nt
  | .NewtypeStruct nt => chew_nty max nt
  | .Seq nt => chew_nty max nt
  | .Tuple nts => chew_ntys max nts (empty_arr max, 0)
  | .TupleStruct nts => chew_ntys max nts (empty_arr max, 0)
  | .Map key val => do
    let (arr, used) ← chew_nty max key
    let st ← chew_absorb arr used 0 (empty_arr max, 0)
    let (arr, used) ← chew_nty max val
    chew_absorb arr used 0 st
  | .Struct nvals => chew_vals max nvals (empty_arr max, 0)
  | .Enum nvars => chew_vars max nvars (empty_arr max, 0)

/-- The loop over tuple fields, uniques.rs 440-462 and 569-591. -/
def chew_ntys (max : Nat) : List Nty → TyArr × Nat → Exec (TyArr × Nat)
  | [], st => .ok st
  | t :: ts, st => do
    let (arr, used) ← chew_nty max t
    let st ← chew_absorb arr used 0 st
    chew_ntys max ts st

/-- The loop over struct fields, uniques.rs 517-539 and 597-619. -/
def chew_vals (max : Nat) : List Nval → TyArr × Nat → Exec (TyArr × Nat)
  | [], st => .ok st
  | .mk _ t :: ts, st => do
    let (arr, used) ← chew_nty max t
    let st ← chew_absorb arr used 0 st
    chew_vals max ts st

/-- The loop over enum variants, uniques.rs 548-623. -/
def chew_vars (max : Nat) : List Nvar → TyArr × Nat → Exec (TyArr × Nat)
  | [], st => .ok st
  | .mk _ v :: vs, st => do
    let st ← chew_dmv max v st
    chew_vars max vs st

/-- The body of the enum loop, uniques.rs 549-621.  Note that a `NewtypeVariant`'s payload type is inserted itself
(551-564) without visiting its children. -/
def chew_dmv (max : Nat) : Dmv → TyArr × Nat → Exec (TyArr × Nat)
  | .UnitVariant, st => .ok st
  | .NewtypeVariant nt, st => chew_insert st nt
  | .TupleVariant nts, st => chew_ntys max nts st
  | .StructVariant nvals, st => chew_vals max nvals st
end

/-- First loop of `cruncher`, uniques.rs 643-647, from index `i`. -/
def crunch_take (opts : TyArr) (a i : Nat) (acc : List Nty) : Exec (List Nty) :=
  if i < a then do
    let ty ← arr_get opts i
    crunch_take opts a (i + 1) (acc ++ [ty])
  else .ok acc
termination_by a - i

/-- Second loop of `cruncher`, uniques.rs 648-651: `assert!(opts[i].is_none())`. -/
def crunch_check : TyArr → Exec Unit
  | [] => .ok ()
  | none :: rest => crunch_check rest
  | some _ :: _ => .panic

/-- `cruncher`, uniques.rs 638-653.  The output array, filled with a dummy and overwritten front to back, is the list
built so far. -/
def cruncher (a : Nat) (opts : TyArr) : Exec (List Nty) := do
  let out ← crunch_take opts a 0 []
  crunch_check (opts.drop a)
  .ok out

/-- `unique_types!`, uniques.rs 663-677. -/
def unique_types (t : Nty) : Exec (List Nty) := do
  let max_tys := nty_upper t
  let (big, n) ← chew_nty max_tys t
  cruncher n big

/-- The search loop of `merge_nty_lists`, uniques.rs 702-708. -/
def merge_find (out : TyArr) (out_ct : Nat) (item : Nty) (k : Nat) (found : Bool) : Exec Bool :=
  if !found && k < out_ct then do
    let oitem ← arr_get out k
    merge_find out out_ct item (k + 1) (if nty_eq item oitem then true else found)
  else .ok found
termination_by out_ct - k
decreasing_by simp at *; omega

/-- The inner loop `while j < list.len()` of `merge_nty_lists`, uniques.rs 698-714. -/
def merge_list : List Nty → TyArr × Nat → Exec (TyArr × Nat)
  | [], st => .ok st
  | item :: rest, (out, out_ct) => do
    let found ← merge_find out out_ct item 0 (is_prim item.ty)
    if !found then do
      let out ← arr_set out out_ct item
      merge_list rest (out, out_ct + 1)
    else merge_list rest (out, out_ct)

/-- The outer loop of `merge_nty_lists`, uniques.rs 695-716. -/
def merge_lists_loop : List (List Nty) → TyArr × Nat → Exec (TyArr × Nat)
  | [], st => .ok st
  | l :: ls, st => do
    let st ← merge_list l st
    merge_lists_loop ls st

/-- `merge_nty_lists`, uniques.rs 688-719. -/
def merge_nty_lists (m : Nat) (lists : List (List Nty)) : Exec (TyArr × Nat) :=
  merge_lists_loop lists (empty_arr m, 0)

/-- `total_len`, uniques.rs 726-734. -/
def total_len {α : Type} : List (List α) → Nat
  | [] => 0
  | l :: ls => l.length + total_len ls

/-- Merging several lists: `total_len`, `merge_nty_lists`, `cruncher` as composed in `merge_unique_types!`
(uniques.rs 768-771), `endpoints!` (macros.rs 109-112, 126-129), `topics!` (macros.rs 289-292, 310-313) and
`define_dispatch!` (dispatch_macro.rs 408-419; there the count is the explicit sum of the three lengths). -/
def merge_types (lists : List (List Nty)) : Exec (List Nty) := do
  let (big, n) ← merge_nty_lists (total_len lists) lists
  cruncher n big

/-- `out[outidx] = x` in `combine_with_copy`, uniques.rs 744. -/
def arr_put {α : Type} (out : List α) (i : Nat) (x : α) : Exec (List α) :=
  if i < out.length then .ok (out.set i x) else .panic

/-- Inner loop of `combine_with_copy`, uniques.rs 743-747. -/
def combine_inner {α : Type} : List α → List α × Nat → Exec (List α × Nat)
  | [], st => .ok st
  | x :: xs, (out, outidx) => do
    let out ← arr_put out outidx x
    combine_inner xs (out, outidx + 1)

/-- Outer loop of `combine_with_copy`, uniques.rs 741-749. -/
def combine_outer {α : Type} : List (List α) → List α × Nat → Exec (List α × Nat)
  | [], st => .ok st
  | l :: ls, st => do
    let st ← combine_inner l st
    combine_outer ls st

/-- `combine_with_copy`, uniques.rs 737-754, with `assert!(outidx == N)`. -/
def combine_with_copy {α : Type} (n : Nat) (arrs : List (List α)) (init : α) : Exec (List α) := do
  let (out, outidx) ← combine_outer arrs (List.replicate n init, 0)
  if outidx = n then .ok out else .panic

/-- `concat_arrays!`, macros.rs 388-404. -/
def concat_arrays {α : Type} (init : α) (arrs : List (List α)) : Exec (List α) :=
  combine_with_copy (total_len arrs) arrs init

end PRpc
