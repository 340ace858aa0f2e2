import Verif.Props.Icd
import Verif.Props.SchemaReport
/-!
Property theorem C58: every interface declared with the macros can be described by the host's schema report.
-/

namespace PRpc.Props
open PRpc PRpc.Spec

variable {V E SC Ctx CE : Type}

/-- The message types of an interface with the standard items. -/
def messageTypes (d : StdDecls) (std : Bool) (ep : List EpDecl) (tin tout : List TpDecl) : List Nty :=
  [d.u32_ty, d.u32_ty, d.unit_ty, d.totals_ty, d.schema_ty std, d.log_ty std] ++ epRoots ep ++ tpRoots tin ++ tpRoots tout

/-- Contract of `postcard_schema` (external): the host and the device compute keys alike, and the key of a primitive type
depends on which primitive it is, not on its name (the host knows one name for each).  Nothing is said of `Vec<u8>`. -/
structure KeyContract (for_path : Nty → Bytes → Key) (hash : Bytes → Nty → Key) (sch : Prim → Nty) : Prop where
  same : ∀ p t, hash p t = for_path t p
  prim : ∀ p q n, hash p (.mk n (.Prim q)) = hash p (sch q)

/-- The primitives the host's report does not know: `usize` and `isize`, and byte arrays unless their key is that of
`Vec<u8>`. -/
def Unknown (hash : Bytes → Nty → Key) (vec_u8 t : Nty) : Prop :=
  t.ty = .Prim .Usize ∨ t.ty = .Prim .Isize ∨ (t.ty = .Prim .ByteArray ∧ ∃ p, hash p vec_u8 ≠ hash p t)

/-- C58 as stated: the device has served a schema query without a failed publication and the host has collected
everything it published; then the host gets a report, it lists the device's endpoints and topics, and every type in it
is known and has the key it is listed under. -/
def C58Full : Prop :=
  ∀ (for_path : Nty → Bytes → Key) (d : StdDecls) (std : Bool) (ep : List EpDecl) (tin tout : List TpDecl)
    (a : App Nat WireTxErrorKind Nat Nat), DefaultIcd for_path d std ep tin tout a →
    ∀ (D : Dispatcher Nat WireTxErrorKind Nat Nat), define_dispatch a = .ok D →
    ∀ (hash : Bytes → Nty → Key) (sch : Prim → Nty) (vec_u8 : Nty), KeyContract for_path hash sch →
    ∀ (iter : List Nty → List Nty), Enumerates iter → ∀ t, TotalsFor D.device_map t → t.errors = 0 →
    ∀ es, arrived es = schemaMsgs D.device_map →
    ∃ r, get_schema_report () hash iter (default_types sch vec_u8) true (.ok t) (some es) = .ok (.ok r) ∧
      ListsAll D.device_map r

/-- The device map of an application made with the default macros. -/
theorem DefaultIcd.device_map {for_path : Nty → Bytes → Key} {d : StdDecls} {std : Bool} {ep : List EpDecl}
    {tin tout : List TpDecl} {a : App V E SC Ctx} (h : DefaultIcd for_path d std ep tin tout a)
    {D : Dispatcher V E SC Ctx} (hD : define_dispatch a = .ok D) :
    D.device_map.endpoints = a.endpoint_list.endpoints ∧ D.device_map.topics_in = a.topic_in_list.topics ∧
    D.device_map.topics_out = a.topic_out_list.topics ∧
    ∀ t ∈ messageTypes d std ep tin tout, ¬ IsPrim t → t ∈ D.device_map.types := by
  obtain ⟨m, m1, _, m2⟩ := c51_endpoints_macro for_path d false ep
  obtain ⟨n, n1, _, _, n2⟩ := c51_topics_macro for_path d std .ToServer false tin
  obtain ⟨o, o1, _, _, o2⟩ := c51_topics_macro for_path d std .ToClient false tout
  rw [h.endpoints] at m1; cases m1
  rw [h.topics_in] at n1; cases n1
  rw [h.topics_out] at o1; cases o1
  obtain ⟨r, r1, r2⟩ := typesOf_merge _ [a.endpoint_list.types, a.topic_in_list.types, a.topic_out_list.types]
    (.cons m2 (.cons n2 (.cons o2 .nil)))
  unfold define_dispatch at hD
  cases hs : needed_sz a.sizer with
  | panic => rw [hs] at hD; simp at hD
  | ok sz =>
    cases hk : kind_of_sz sz with
    | panic => rw [hs] at hD; simp [hk] at hD
    | ok k =>
      rw [hs] at hD
      simp only [Exec.ok_bind, hk, r1, Exec.ok.injEq] at hD
      subst hD
      refine ⟨rfl, rfl, rfl, ?_⟩
      intro t ht hp
      refine (r2.2 t).mpr ⟨⟨t, ?_, .self⟩, hp⟩
      simp [messageTypes] at ht ⊢
      grind

theorem known_type {for_path : Nty → Bytes → Key} {hash : Bytes → Nty → Key} {sch : Prim → Nty} {vec_u8 : Nty}
    (hc : KeyContract for_path hash sch) {t : Nty} {types : List Nty} (ht : ¬ IsPrim t → t ∈ types)
    (hu : ¬ Unknown hash vec_u8 t) (p : Bytes) :
    ∃ ty ∈ default_types sch vec_u8 ++ types, hash p ty = for_path t p := by
  by_cases hp : IsPrim t
  · obtain ⟨n, ty⟩ := t
    cases ty with
    | Prim q =>
      by_cases hq : q = .ByteArray
      · subst hq
        refine ⟨vec_u8, List.mem_append_left _ (by simp [default_types]), ?_⟩
        rw [← hc.same]
        exact Classical.byContradiction fun hne => hu (.inr (.inr ⟨rfl, p, hne⟩))
      · refine ⟨sch q, List.mem_append_left _ ?_, by rw [← hc.prim p q n, hc.same]⟩
        have h1 : q ≠ .Usize := fun h => hu (.inl (by rw [h]; rfl))
        have h2 : q ≠ .Isize := fun h => hu (.inr (.inl (by rw [h]; rfl)))
        cases q <;> simp_all [default_types]
    | _ => simp [IsPrim] at hp
  · exact ⟨t, List.mem_append_right _ (ht hp), hc.same p t⟩

/-- With a default interface each key of the device map is that of a type the host knows. -/
theorem DefaultIcd.known {for_path : Nty → Bytes → Key} {d : StdDecls} {std : Bool} {ep : List EpDecl}
    {tin tout : List TpDecl} {a : App V E SC Ctx} (hdef : DefaultIcd for_path d std ep tin tout a)
    {D : Dispatcher V E SC Ctx} (hD : define_dispatch a = .ok D) {hash : Bytes → Nty → Key} {sch : Prim → Nty}
    {vec_u8 : Nty} (hc : KeyContract for_path hash sch) (hu : ∀ ty ∈ messageTypes d std ep tin tout, ¬ Unknown hash vec_u8 ty) :
    (∀ e ∈ D.device_map.endpoints, (∃ ty ∈ default_types sch vec_u8 ++ D.device_map.types, hash e.path ty = e.req) ∧
      ∃ ty ∈ default_types sch vec_u8 ++ D.device_map.types, hash e.path ty = e.resp) ∧
    ∀ e ∈ D.device_map.topics_in ++ D.device_map.topics_out, ∃ ty ∈ default_types sch vec_u8 ++ D.device_map.types, hash e.path ty = e.key := by
  obtain ⟨m1, m2, m3, m4⟩ := hdef.device_map hD
  obtain ⟨l1, l2, l3⟩ := hdef.lists
  have key : ∀ ty ∈ messageTypes d std ep tin tout, ∀ p,
      ∃ x ∈ default_types sch vec_u8 ++ D.device_map.types, hash p x = for_path ty p :=
    fun ty hty p => known_type hc (m4 ty hty) (hu ty hty) p
  constructor
  · intro e hem
    rw [m1, l1, hdef.keys] at hem
    simp only [List.mem_cons] at hem
    rcases hem with rfl | rfl | hem
    · exact ⟨key d.u32_ty (by simp [messageTypes]) _, key d.u32_ty (by simp [messageTypes]) _⟩
    · exact ⟨key d.unit_ty (by simp [messageTypes]) _, key d.totals_ty (by simp [messageTypes]) _⟩
    · simp only [epTable, List.mem_flatMap] at hem
      obtain ⟨x, hx, hem⟩ := hem
      split at hem
      · rename_i hcfg
        simp only [List.mem_singleton] at hem
        subst hem
        have : ∀ ty ∈ [x.req_ty, x.resp_ty], ty ∈ messageTypes d std ep tin tout := by
          intro ty hty
          have : ty ∈ epRoots ep := List.mem_flatMap.mpr ⟨x, hx, by simpa [hcfg] using hty⟩
          simp [messageTypes, this]
        exact ⟨key _ (this x.req_ty (by simp)) _, key _ (this x.resp_ty (by simp)) _⟩
      · cases hem
  · have tp : ∀ rows : List TpDecl, (∀ ty ∈ tpRoots rows, ty ∈ messageTypes d std ep tin tout) →
        ∀ e ∈ tpTable for_path rows, ∃ ty ∈ default_types sch vec_u8 ++ D.device_map.types, hash e.path ty = e.key := by
      intro rows hrows e hem
      simp only [tpTable, List.mem_flatMap] at hem
      obtain ⟨x, hx, hem⟩ := hem
      split at hem
      · rename_i hcfg
        simp only [List.mem_singleton] at hem
        subst hem
        exact key _ (hrows x.msg_ty (List.mem_flatMap.mpr ⟨x, hx, by simp [hcfg]⟩)) _
      · cases hem
    intro e hem
    rw [m2, m3, l2, l3, hdef.keys] at hem
    simp only [List.mem_append, List.mem_cons] at hem
    rcases hem with hem | rfl | rfl | hem
    · exact tp tin (fun ty h => by simp [messageTypes, h]) e hem
    · exact key (d.schema_ty std) (by simp [messageTypes]) _
    · exact key (d.log_ty std) (by simp [messageTypes]) _
    · exact tp tout (fun ty h => by simp [messageTypes, h]) e hem

/-- C58, what holds: for every interface without a message type that is itself `usize` or `isize` (or a byte array whose key is not that of `Vec<u8>`).  Missing:
those. -/
theorem c58_report_given_partial (closed : CE) (for_path : Nty → Bytes → Key) (d : StdDecls) (std : Bool)
    (ep : List EpDecl) (tin tout : List TpDecl) (a : App V E SC Ctx) (hdef : DefaultIcd for_path d std ep tin tout a)
    (D : Dispatcher V E SC Ctx) (hD : define_dispatch a = .ok D) (hash : Bytes → Nty → Key) (sch : Prim → Nty)
    (vec_u8 : Nty) (hc : KeyContract for_path hash sch) (iter : List Nty → List Nty) (hi : Enumerates iter) (t : SchemaTotals)
    (ht : TotalsFor D.device_map t) (he : t.errors = 0) (es : List Collected)
    (hd : arrived es = schemaMsgs D.device_map)
    (hu : ∀ ty ∈ messageTypes d std ep tin tout, ¬ Unknown hash vec_u8 ty) :
    ∃ r, get_schema_report closed hash iter (default_types sch vec_u8) true (.ok t) (some es) = .ok (.ok r) ∧
      ListsAll D.device_map r ∧ Resolved hash (default_types sch vec_u8 ++ D.device_map.types) r ∧
      ∀ ty ∈ messageTypes d std ep tin tout, ¬ IsPrim ty → ty ∈ r.types := by
  obtain ⟨_, _, _, m4⟩ := hdef.device_map hD
  obtain ⟨k1, k2⟩ := hdef.known hD hc hu
  obtain ⟨r, h1, h2, h3, h4⟩ := c20_lossless_report closed hash iter hi (default_types sch vec_u8) D.device_map t ht he es hd k1 k2
  exact ⟨r, h1, h2, h3, fun ty hty hp => (h4 ty).mpr (List.mem_append_right _ (m4 ty hty hp))⟩

/-- A key function that looks at the kind of a primitive type, at the name of others, and at the path. -/
def exPrimCode : Prim → Byte
  | .Bool => 1 | .I8 => 2 | .U8 => 3 | .I16 => 4 | .I32 => 5 | .I64 => 6 | .I128 => 7 | .U16 => 8 | .U32 => 9 | .U64 => 10
  | .U128 => 11 | .Usize => 12 | .Isize => 13 | .F32 => 14 | .F64 => 15 | .Char => 16 | .String => 17 | .ByteArray => 18
  | .Unit => 19 | .Schema => 20

def exKeyOf (t : Nty) (p : Bytes) : Key :=
  ⟨p.headD 0#8, (match t with | .mk _ (.Prim q) => exPrimCode q | .mk n _ => n.headD 0#8), 0#8, 0#8, 0#8, 0#8, 0#8, 0#8⟩

theorem exKeyOf_contract : KeyContract exKeyOf (fun p t => exKeyOf t p) (fun q => .mk [] (.Prim q)) :=
  ⟨fun _ _ => rfl, fun _ _ _ => rfl⟩

/-- An application with one endpoint of the given request type. -/
def exOneApp (rows : List EpDecl) : App Nat WireTxErrorKind Nat Nat :=
  { exApp with
    std := exStdDecls.keys exKeyOf true
    endpoint_list := (match endpoints_macro exKeyOf exStdDecls false rows with | .ok m => m | .panic => ⟨[], []⟩)
    topic_in_list := (match topics_macro exKeyOf exStdDecls true .ToServer false [] with
      | .ok m => m | .panic => ⟨.ToServer, [], []⟩)
    topic_out_list := (match topics_macro exKeyOf exStdDecls true .ToClient false [] with
      | .ok m => m | .panic => ⟨.ToClient, [], []⟩)
    eps := []
    tps := [] }

theorem exOneApp_default (rows : List EpDecl) : DefaultIcd exKeyOf exStdDecls true rows [] [] (exOneApp rows) := by
  obtain ⟨m, m1, _⟩ := c51_endpoints_macro exKeyOf exStdDecls false rows
  obtain ⟨n, n1, _⟩ := c51_topics_macro exKeyOf exStdDecls true .ToServer false []
  obtain ⟨o, o1, _⟩ := c51_topics_macro exKeyOf exStdDecls true .ToClient false []
  exact ⟨by simp only [exOneApp, m1], by simp only [exOneApp, n1], by simp only [exOneApp, o1], rfl⟩

/-- The schema of `Vec<u8>`. -/
def exVecU8 : Nty := .mk [] (.Seq (.mk [] (.Prim .U8)))

example : DefaultIcd exKeyOf exStdDecls true [⟨true, exA, exB, [0x60#8]⟩] [] [] (exOneApp [⟨true, exA, exB, [0x60#8]⟩]) ∧
    KeyContract exKeyOf (fun p t => exKeyOf t p) (fun q => .mk [] (.Prim q)) ∧
    (∃ D, define_dispatch (exOneApp [⟨true, exA, exB, [0x60#8]⟩]) = .ok D ∧ D.device_map.types ≠ []) ∧
    ∀ ty ∈ messageTypes exStdDecls true [⟨true, exA, exB, [0x60#8]⟩] [] [],
      ¬ Unknown (fun p t => exKeyOf t p) exVecU8 ty := by
  refine ⟨exOneApp_default _, exKeyOf_contract, ?_, ?_⟩
  · have h : (match define_dispatch (exOneApp [⟨true, exA, exB, [0x60#8]⟩]) with
        | .ok D => D.device_map.types.length | .panic => 0) ≠ 0 := by decide +kernel
    cases hD : define_dispatch (exOneApp [⟨true, exA, exB, [0x60#8]⟩]) with
    | panic => rw [hD] at h; exact absurd rfl h
    | ok D =>
      rw [hD] at h
      exact ⟨D, rfl, fun h0 => h (by simp [h0])⟩
  · intro ty hty
    simp [messageTypes, epRoots, tpRoots, exStdDecls, exA, exB] at hty
    rcases hty with rfl | rfl | rfl | rfl | rfl | rfl | rfl <;> simp [Unknown, Nty.ty, exE]

/-- An endpoint that takes a `usize`. -/
def exUsizeRow : EpDecl := ⟨true, .mk [] (.Prim .Usize), exB, [0x60#8]⟩

/-- What the host makes of everything the device with that endpoint publishes. -/
def exUsizeVerdict : Option (SchemaError Unit) :=
  match define_dispatch (exOneApp [exUsizeRow]) with
  | .panic => none
  | .ok D =>
    match get_schema_report () (fun p t => exKeyOf t p) id (default_types (fun q => .mk [] (.Prim q)) exVecU8) true
      (.ok ⟨BitVec.ofNat 32 D.device_map.types.length, 3, 0, 2, 0⟩) (some ((schemaMsgs D.device_map).map .msg)) with
    | .ok (.error e) => some e
    | _ => none

theorem exUsizeVerdict_eq : exUsizeVerdict = some .InvalidReportData := by decide +kernel

/-- C58 is false: with an endpoint whose request type is `usize`, a primitive the device does not send and the host does
not know, the report is refused with `InvalidReportData` although nothing was lost. -/
theorem c58_report_given_false : ¬ C58Full := by
  intro h
  have hv := exUsizeVerdict_eq
  unfold exUsizeVerdict at hv
  cases hD : define_dispatch (exOneApp [exUsizeRow]) with
  | panic => rw [hD] at hv; cases hv
  | ok D =>
    rw [hD] at hv
    simp only at hv
    have hdef := exOneApp_default [exUsizeRow]
    obtain ⟨m1, m2, m3, _⟩ := hdef.device_map hD
    obtain ⟨l1, l2, l3⟩ := hdef.lists
    obtain ⟨r, hr, _⟩ := h exKeyOf exStdDecls true [exUsizeRow] [] [] _ hdef D hD _ _ exVecU8 exKeyOf_contract id
      (fun _ _ => Iff.rfl) ⟨BitVec.ofNat 32 D.device_map.types.length, 3, 0, 2, 0⟩
      ⟨by rw [m1, l1]; rfl, by rw [m2, l2]; rfl, by rw [m3, l3]; rfl⟩ rfl ((schemaMsgs D.device_map).map .msg)
      (arrived_msgs _)
    rw [hr] at hv
    cases hv

end PRpc.Props
