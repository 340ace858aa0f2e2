import Verif.Lemmas.Icd
import Verif.Props.Dispatch
import Verif.Props.Server
/-!
Property theorems C51 and C52: the interface macros, and dispatchers of interfaces built with them.
-/

namespace PRpc.Props

open PRpc

variable {V E SC Ctx : Type}

/-- C51 (endpoints): `endpoints!` always compiles as far as its lists are concerned; the table is the two standard
endpoints (unless omitted) followed by the rows as written, each with the keys of its types and path, rows compiled out
left out; the types are exactly those of the messages in the table, each once. -/
theorem c51_endpoints_macro (for_path : Nty → Bytes → Key) (d : StdDecls) (omit_std : Bool) (rows : List EpDecl) :
    ∃ m, endpoints_macro for_path d omit_std rows = .ok m ∧
      m.endpoints = (if omit_std then [] else
        [⟨d.ping_path, for_path d.u32_ty d.ping_path, for_path d.u32_ty d.ping_path⟩,
         ⟨d.schemas_path, for_path d.unit_ty d.schemas_path, for_path d.totals_ty d.schemas_path⟩]) ++
        Spec.epTable for_path rows ∧
      Spec.TypesOf (Spec.epRoots rows ++ if omit_std then [] else [d.u32_ty, d.u32_ty, d.unit_ty, d.totals_ty])
        m.types := by
  obtain ⟨u, u1, u2⟩ := typesOf_ep_tys rows
  cases omit_std with
  | true =>
    exact ⟨⟨u, ep_eps_omit for_path rows⟩, by simp [endpoints_macro, u1], by simp [ep_eps_omit_eq], by simpa using u2⟩
  | false =>
    obtain ⟨s, s1, s2⟩ := typesOf_ep_tys d.ep_rows
    obtain ⟨r, r1, r2⟩ := typesOf_merge [Spec.epRoots rows, Spec.epRoots d.ep_rows] [u, s] (.cons u2 (.cons s2 .nil))
    refine ⟨⟨r, ep_eps_omit for_path d.ep_rows ++ ep_eps_omit for_path rows⟩,
      by simp [endpoints_macro, u1, s1, r1, concat_arrays_eq], ?_, ?_⟩
    · simp [ep_eps_omit_eq, Spec.epTable, StdDecls.ep_rows]
    · simpa [Spec.epRoots, StdDecls.ep_rows] using r2

/-- C51 (topics): the same for `topics!`; the standard topics depend on the direction. -/
theorem c51_topics_macro (for_path : Nty → Bytes → Key) (d : StdDecls) (std : Bool) (dir : TopicDirection)
    (omit_std : Bool) (rows : List TpDecl) :
    ∃ m, topics_macro for_path d std dir omit_std rows = .ok m ∧ m.direction = dir ∧
      m.topics = (if omit_std ∨ dir = .ToServer then [] else
        [⟨d.data_path, for_path (d.schema_ty std) d.data_path⟩, ⟨d.log_path, for_path (d.log_ty std) d.log_path⟩]) ++
        Spec.tpTable for_path rows ∧
      Spec.TypesOf ((if omit_std ∨ dir = .ToServer then [] else [d.schema_ty std, d.log_ty std]) ++ Spec.tpRoots rows)
        m.types := by
  obtain ⟨u, u1, u2⟩ := typesOf_tp_tys rows
  cases omit_std with
  | true =>
    exact ⟨⟨dir, u, tp_tps_omit for_path rows⟩, by simp [topics_macro, u1], rfl, by simp [tp_tps_omit_eq],
      by simpa using u2⟩
  | false =>
    obtain ⟨s, s1, s2⟩ := typesOf_tp_tys (d.topic_rows std dir)
    obtain ⟨r, r1, r2⟩ := typesOf_merge [Spec.tpRoots (d.topic_rows std dir), Spec.tpRoots rows] [s, u]
      (.cons s2 (.cons u2 .nil))
    refine ⟨⟨dir, r, tp_tps_omit for_path (d.topic_rows std dir) ++ tp_tps_omit for_path rows⟩,
      by simp [topics_macro, u1, s1, r1, concat_arrays_eq], rfl, ?_, ?_⟩
    · cases dir <;> cases std <;> simp [tp_tps_omit_eq, Spec.tpTable, StdDecls.topic_rows, StdDecls.out_rows]
    · cases dir <;> cases std <;> simpa [Spec.tpRoots, StdDecls.topic_rows, StdDecls.out_rows] using r2

/-- Example data: `for_path` gives the first path byte; types of the rows are `exA`, `exB` (see Props/Uniques.lean). -/
def exForPath (t : Nty) (p : Bytes) : Key := ⟨p.headD 0#8, BitVec.ofNat 8 t.name.length, 0#8, 0#8, 0#8, 0#8, 0#8, 0#8⟩

def exStdDecls : StdDecls where
  u32_ty := .mk [1#8] (.Prim .U32)
  unit_ty := .mk [1#8, 1#8] (.Prim .Unit)
  totals_ty := .mk [1#8, 2#8, 3#8] (.Struct [.mk [1#8] (.mk [1#8] (.Prim .U32))])
  schema_ty := fun _ => exE
  log_ty := fun _ => .mk [1#8] (.Prim .String)
  ping_path := [0x10#8]
  schemas_path := [0x20#8]
  data_path := [0x30#8]
  log_path := [0x40#8]
  error_ty := exB
  error_path := [0x50#8]

def exRows : List EpDecl := [⟨true, exA, exB, [0x60#8]⟩, ⟨false, exN, exN, [0x70#8]⟩, ⟨true, exB, exB, [0x80#8]⟩]

example : (match endpoints_macro exForPath exStdDecls false exRows with
    | .ok m => (m.endpoints.map (·.path), m.types.map (·.name))
    | .panic => ([], [])) =
      ([[0x10#8], [0x20#8], [0x60#8], [0x80#8]], [[0x42#8], [], [0x41#8], [1#8, 2#8, 3#8]]) := by
  decide +kernel

example : (match topics_macro exForPath exStdDecls true .ToClient false [⟨true, exA, [0x90#8]⟩] with
    | .ok m => (m.topics.map (·.path), m.types.map (·.name))
    | .panic => ([], [])) =
      ([[0x30#8], [0x40#8], [0x90#8]], [[0x41#8], [0x42#8], [0x45#8], []]) := by
  decide +kernel

/-- An application whose three lists are made by the macros with the default setting (standard items included). -/
structure DefaultIcd (for_path : Nty → Bytes → Key) (d : StdDecls) (std : Bool) (ep : List EpDecl) (tin tout : List TpDecl)
    (a : App V E SC Ctx) : Prop where
  endpoints : endpoints_macro for_path d false ep = .ok a.endpoint_list
  topics_in : topics_macro for_path d std .ToServer false tin = .ok a.topic_in_list
  topics_out : topics_macro for_path d std .ToClient false tout = .ok a.topic_out_list
  keys : a.std = d.keys for_path std

/-- The lists of such an application. -/
theorem DefaultIcd.lists {for_path : Nty → Bytes → Key} {d : StdDecls} {std : Bool} {ep : List EpDecl}
    {tin tout : List TpDecl} {a : App V E SC Ctx} (h : DefaultIcd for_path d std ep tin tout a) :
    a.endpoint_list.endpoints = ⟨d.ping_path, a.std.ping_req, a.std.ping_resp⟩ ::
      ⟨d.schemas_path, a.std.schemas_req, a.std.schemas_resp⟩ :: Spec.epTable for_path ep ∧
    a.topic_in_list.topics = Spec.tpTable for_path tin ∧
    a.topic_out_list.topics = ⟨d.data_path, a.std.schema_topic⟩ :: ⟨d.log_path, a.std.logging_topic⟩ ::
      Spec.tpTable for_path tout := by
  obtain ⟨m, m1, m2, _⟩ := c51_endpoints_macro for_path d false ep
  obtain ⟨n, n1, _, n2, _⟩ := c51_topics_macro for_path d std .ToServer false tin
  obtain ⟨o, o1, _, o2, _⟩ := c51_topics_macro for_path d std .ToClient false tout
  rw [h.endpoints] at m1; cases m1
  rw [h.topics_in] at n1; cases n1
  rw [h.topics_out] at o1; cases o1
  rw [h.keys, m2, n2, o2]
  simp [StdDecls.keys]

/-- C52 (endpoints): every endpoint the user declared and gave a handler is reached by frames with its key at any
length from the dispatcher's to the full one; the built-in endpoints are never in the way. -/
theorem c52_user_endpoint_routed (for_path : Nty → Bytes → Key) (d : StdDecls) (std : Bool) (ep : List EpDecl)
    (tin tout : List TpDecl) (a : App V E SC Ctx) (hdef : DefaultIcd for_path d std ep tin tout a)
    (D : Dispatcher V E SC Ctx) (hD : define_dispatch a = .ok D)
    (pre post : List (EpHandler V Ctx)) (h : EpHandler V Ctx) (htab : a.eps = pre ++ h :: post)
    (hfirst : ∀ g ∈ pre, g.req ≠ h.req) (row : EpRow) (hrow : row ∈ Spec.epTable for_path ep) (hreq : h.req = row.req)
    (m : VarKeyKind) (hdr : VarHeader) (hm : Spec.keyLen D.n ≤ Spec.keyLen m)
    (hk : Spec.keyBytes hdr.key = Spec.short (Spec.keyLen m) h.req) (body : Bytes) (v : V)
    (hv : h.decode body = some v) (env : Env V E SC) (kkind : VarKeyKind) (s : St V E SC Ctx) :
    ∃ r s' ev, handle env D kkind hdr body s = .ok (r, s') ∧ s'.log = s.log ++ ev ∧
      Spec.calls ev = [(.endpoint, h.name, hdr, v)] := by
  obtain ⟨l1, _, _⟩ := hdef.lists
  obtain ⟨hsz, _⟩ := define_dispatch_ok hD
  obtain ⟨_, din, _⟩ := c10_dispatcher_key_length _ _ hsz
  have hne : h.req ≠ a.std.ping_req ∧ h.req ≠ a.std.schemas_req := by
    obtain ⟨i, hi, rfl⟩ := List.getElem_of_mem hrow
    have e : ∀ j (hj : j < 2), Spec.short (Spec.keyLen D.n) ([a.std.ping_req, a.std.schemas_req][j]) ≠
        Spec.short (Spec.keyLen D.n) (Spec.epTable for_path ep)[i].req := by
      intro j hj
      have := din j (i + 2) (by simp [App.sizer, l1]; omega) (by simp [App.sizer, l1]; omega) (by omega)
      rw [List.getElem_append_left (by simp [App.sizer, l1]; omega),
        List.getElem_append_left (by simp [App.sizer, l1]; omega)] at this
      match j, hj with
      | 0, _ => simpa [App.sizer, l1] using this
      | 1, _ => simpa [App.sizer, l1] using this
    exact ⟨fun q => e 0 (by omega) (by rw [List.getElem_cons_zero, ← q, hreq]),
      fun q => e 1 (by omega) (by rw [List.getElem_cons_succ, List.getElem_cons_zero, ← q, hreq])⟩
  exact (c11_request_routing_partial a D hD (by rw [l1]; simp) (by rw [l1]; simp) pre post h htab hfirst hne m hdr hm
    hk).2 body v hv env kkind s

/-- C52 (topics): every incoming topic with a handler is reached. -/
theorem c52_user_topic_routed (for_path : Nty → Bytes → Key) (d : StdDecls) (std : Bool) (ep : List EpDecl)
    (tin tout : List TpDecl) (a : App V E SC Ctx) (hdef : DefaultIcd for_path d std ep tin tout a)
    (D : Dispatcher V E SC Ctx) (hD : define_dispatch a = .ok D)
    (pre post : List (TpHandler V E Ctx)) (t : TpHandler V E Ctx) (htab : a.tps = pre ++ t :: post)
    (hfirst : ∀ g ∈ pre, g.key ≠ t.key) (m : VarKeyKind) (hdr : VarHeader) (hm : Spec.keyLen D.n ≤ Spec.keyLen m)
    (hk : Spec.keyBytes hdr.key = Spec.short (Spec.keyLen m) t.key) (body : Bytes) (v : V)
    (hv : t.decode body = some v) (env : Env V E SC) (kkind : VarKeyKind) (s : St V E SC Ctx) :
    ∃ s' ev, handle env D kkind hdr body s = .ok (none, s') ∧ s'.log = s.log ++ ev ∧
      Spec.calls ev = [(.topic, t.name, hdr, v)] := by
  obtain ⟨l1, _, _⟩ := hdef.lists
  exact (c11_topic_routing_partial a D hD (by rw [l1]; simp) (by rw [l1]; simp) pre post t htab hfirst m hdr hm
    hk).2 body v hv env kkind s

/-- C52 (built-in endpoints): pings are echoed and schema queries served, whatever the user declared. -/
theorem c52_builtin_reached (for_path : Nty → Bytes → Key) (d : StdDecls) (std : Bool) (ep : List EpDecl)
    (tin tout : List TpDecl) (a : App V E SC Ctx) (hdef : DefaultIcd for_path d std ep tin tout a)
    (D : Dispatcher V E SC Ctx) (hD : define_dispatch a = .ok D) (m : VarKeyKind) (hdr : VarHeader)
    (hm : Spec.keyLen D.n ≤ Spec.keyLen m) (body : Bytes) (env : Env V E SC) (kkind : VarKeyKind) (s : St V E SC Ctx) :
    (Spec.keyBytes hdr.key = Spec.short (Spec.keyLen m) a.std.ping_req → ∀ v, D.ping_decode body = some v →
      ∃ fr, Spec.IsMsg kkind a.std.ping_resp hdr.seq_no (.val v) fr ∧
        handle env D kkind hdr body s =
          .ok (env.send s.log fr, ⟨s.ctx, s.log ++ [.sent .dispatcher fr (env.send s.log fr)]⟩)) ∧
    (Spec.keyBytes hdr.key = Spec.short (Spec.keyLen m) a.std.schemas_req →
      (Spec.schemaMsgs D.device_map).length ≤ 65535 →
      ∃ ev last t, Spec.IsMsg kkind a.std.schemas_resp hdr.seq_no (.totals t) last ∧
        handle env D kkind hdr body s = .ok (env.send (s.log ++ ev) last,
          ⟨s.ctx, s.log ++ ev ++ [.sent .dispatcher last (env.send (s.log ++ ev) last)]⟩) ∧
        (Spec.frames ev).map Frame.body = (Spec.schemaMsgs D.device_map).map .schema) := by
  obtain ⟨l1, _, _⟩ := hdef.lists
  obtain ⟨hsz, hstd, _⟩ := define_dispatch_ok hD
  obtain ⟨_, din, _⟩ := c10_dispatcher_key_length _ _ hsz
  refine ⟨fun hk v hv => ?_, fun hk hlen => ?_⟩
  · obtain ⟨hl, hr⟩ := rxShort_of_sent hm hk
    have := c14_ping env D kkind hdr body s v hl (by rw [hstd]; exact hr) hv
    rwa [hstd] at this
  · obtain ⟨hl, hr⟩ := rxShort_of_sent hm hk
    have hne : Spec.rxShort D hdr ≠ Spec.short (Spec.keyLen D.n) D.std.ping_req := by
      rw [hr, hstd]
      have := din 1 0 (by simp [App.sizer, l1]) (by simp [App.sizer, l1]) (by omega)
      rw [List.getElem_append_left (by simp [App.sizer, l1]), List.getElem_append_left (by simp [App.sizer, l1])] at this
      simpa [App.sizer, l1] using this
    obtain ⟨ev, last, t, h1, h2, h3, h4, h5, _⟩ :=
      c19_schema_dump env D kkind hdr body s hl hne (by rw [hstd]; exact hr) hlen
    rw [hstd] at h1
    refine ⟨ev, last, t, h1, h2, ?_⟩
    apply List.ext_getElem?
    intro i
    rw [List.getElem?_map, List.getElem?_map]
    by_cases hi : i < (Spec.schemaMsgs D.device_map).length
    · obtain ⟨f, hf, _, _, hm⟩ := h5 i hi
      rw [hf, List.getElem?_eq_getElem hi, Option.map_some, Option.map_some, hm.body]
    · rw [List.getElem?_eq_none (by omega), List.getElem?_eq_none (by omega)]
      rfl

/-- C52 (outgoing): at the dispatcher's key length, frames of the schema and logging topics can be told from every
response, from each other and from every other outgoing topic. -/
theorem c52_outgoing_separate (for_path : Nty → Bytes → Key) (d : StdDecls) (std : Bool) (ep : List EpDecl)
    (tin tout : List TpDecl) (a : App V E SC Ctx) (hdef : DefaultIcd for_path d std ep tin tout a)
    (D : Dispatcher V E SC Ctx) (hD : define_dispatch a = .ok D) :
    Spec.DistinctAt (Spec.keyLen D.n) (a.std.ping_resp :: a.std.schemas_resp :: (Spec.epTable for_path ep).map (·.resp) ++
      a.std.schema_topic :: a.std.logging_topic :: (Spec.tpTable for_path tout).map (·.key)) := by
  obtain ⟨l1, _, l3⟩ := hdef.lists
  obtain ⟨hsz, _⟩ := define_dispatch_ok hD
  obtain ⟨_, _, dout, _⟩ := c10_dispatcher_key_length _ _ hsz
  simpa [App.sizer, l1, l3] using dout

/-- An application made with the default macros: two user endpoints with handlers, one incoming and one outgoing topic. -/
def exDefApp : App Nat WireTxErrorKind Nat Nat :=
  { exApp with
    std := exStdDecls.keys exForPath true
    endpoint_list := (match endpoints_macro exForPath exStdDecls false exRows with | .ok m => m | .panic => ⟨[], []⟩)
    topic_in_list := (match topics_macro exForPath exStdDecls true .ToServer false [⟨true, exB, [0xA0#8]⟩] with
      | .ok m => m | .panic => ⟨.ToServer, [], []⟩)
    topic_out_list := (match topics_macro exForPath exStdDecls true .ToClient false [⟨true, exA, [0x90#8]⟩] with
      | .ok m => m | .panic => ⟨.ToClient, [], []⟩)
    eps := [⟨10, exForPath exA [0x60#8], exForPath exB [0x60#8], exDecode, .blocking fun c _ v => (v + c, c + 1)⟩,
      ⟨11, exForPath exB [0x80#8], exForPath exB [0x80#8], exDecode, .spawn⟩]
    tps := [⟨20, exForPath exB [0xA0#8], exDecode, .blocking fun c _ v => c + v⟩] }

theorem exDefApp_default :
    DefaultIcd exForPath exStdDecls true exRows [⟨true, exB, [0xA0#8]⟩] [⟨true, exA, [0x90#8]⟩] exDefApp := by
  obtain ⟨m, m1, _⟩ := c51_endpoints_macro exForPath exStdDecls false exRows
  obtain ⟨n, n1, _⟩ := c51_topics_macro exForPath exStdDecls true .ToServer false [⟨true, exB, [0xA0#8]⟩]
  obtain ⟨o, o1, _⟩ := c51_topics_macro exForPath exStdDecls true .ToClient false [⟨true, exA, [0x90#8]⟩]
  exact ⟨by simp only [exDefApp, m1], by simp only [exDefApp, n1], by simp only [exDefApp, o1], rfl⟩

theorem exDefApp_ok : ∃ D, define_dispatch exDefApp = .ok D ∧ D.n = .Key1 := by
  have h : needed_sz exDefApp.sizer = .ok 1 := by decide +kernel
  have e : (match define_dispatch exDefApp with | .ok D => decide (D.n = .Key1) | .panic => false) = true := by
    decide +kernel
  cases hD : define_dispatch exDefApp with
  | panic => rw [hD] at e; cases e
  | ok D => rw [hD] at e; exact ⟨D, rfl, of_decide_eq_true e⟩

example : exDefApp.eps = [⟨10, exForPath exA [0x60#8], exForPath exB [0x60#8], exDecode, .blocking fun c _ v => (v + c, c + 1)⟩] ++
      ⟨11, exForPath exB [0x80#8], exForPath exB [0x80#8], exDecode, .spawn⟩ :: [] ∧
    (⟨[0x80#8], exForPath exB [0x80#8], exForPath exB [0x80#8]⟩ : EpRow) ∈ Spec.epTable exForPath exRows ∧
    Spec.keyBytes (VarKey.Key1 ⟨0x81#8⟩) = Spec.short (Spec.keyLen .Key1) (exForPath exB [0x80#8]) ∧
    Spec.keyBytes (VarKey.Key2 ⟨0x11#8, 0#8⟩) = Spec.short (Spec.keyLen .Key2) exDefApp.std.ping_req ∧
    Spec.keyBytes (VarKey.Key1 ⟨0xA1#8⟩) = Spec.short (Spec.keyLen .Key1) (exForPath exB [0xA0#8]) := by
  refine ⟨rfl, by decide +kernel, by decide +kernel, by decide +kernel, by decide +kernel⟩

end PRpc.Props
