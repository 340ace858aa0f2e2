import Verif.Lemmas.Schemas
import Verif.Props.MinKey
/-!
Property theorems C11-C16: dispatch of one frame.
-/

namespace PRpc.Props

open PRpc

variable {V E SC Ctx : Type}

/-! ### A concrete application for the examples -/

/-- A key with one non-zero byte. -/
def exKey (b : Byte) : Key := ⟨b, 0#8, 0#8, 0#8, 0#8, 0#8, 0#8, 0#8⟩

def exStd : StdKeys where
  error := exKey 0xE0#8
  ping_req := exKey 1#8
  ping_resp := exKey 1#8
  schemas_req := exKey 2#8
  schemas_resp := exKey 0x82#8
  schema_topic := exKey 0x90#8
  logging_topic := exKey 0x91#8

/-- Decoder of one-byte messages. -/
def exDecode : Bytes → Option Nat
  | [b] => some b.toNat
  | _ => none

/-- Blocking endpoint: replies with request plus context, then increments the context. -/
def exBlocking : EpHandler Nat Nat := ⟨10, exKey 3#8, exKey 0x83#8, exDecode, .blocking fun c _ v => (v + c, c + 1)⟩
/-- Async endpoint. -/
def exAsync : EpHandler Nat Nat := ⟨11, exKey 4#8, exKey 0x84#8, exDecode, .async fun c _ v => (v * 2, c + 10)⟩
/-- Spawned endpoint. -/
def exSpawn : EpHandler Nat Nat := ⟨12, exKey 5#8, exKey 0x85#8, exDecode, .spawn⟩
/-- Blocking topic. -/
def exTopic : TpHandler Nat WireTxErrorKind Nat := ⟨20, exKey 6#8, exDecode, .blocking fun c _ v => c + v⟩
/-- Async topic that publishes a frame and records whether it was sent. -/
def exTopicAsync : TpHandler Nat WireTxErrorKind Nat :=
  ⟨21, exKey 7#8, exDecode, .async fun c h v =>
    .send ⟨⟨.Key1 ⟨0x95#8⟩, h.seq_no⟩, .val v⟩ fun r => .done (if r.isNone then c + 1 else c)⟩

def exApp : App Nat WireTxErrorKind Nat Nat where
  std := exStd
  endpoint_list := ⟨[], [⟨[], exKey 1#8, exKey 1#8⟩, ⟨[], exKey 2#8, exKey 0x82#8⟩, ⟨[], exKey 3#8, exKey 0x83#8⟩,
    ⟨[], exKey 4#8, exKey 0x84#8⟩, ⟨[], exKey 5#8, exKey 0x85#8⟩]⟩
  topic_in_list := ⟨.ToServer, [], [⟨[], exKey 6#8⟩, ⟨[], exKey 7#8⟩]⟩
  topic_out_list := ⟨.ToClient, [], [⟨[], exKey 0x90#8⟩, ⟨[], exKey 0x91#8⟩]⟩
  eps := [exBlocking, exAsync, exSpawn]
  tps := [exTopic, exTopicAsync]
  ping_decode := exDecode
  spawn_ctxt := fun c => (c, c + 100)

/-- The dispatcher generated for `exApp`. -/
def exDisp : Dispatcher Nat WireTxErrorKind Nat Nat where
  std := exStd
  n := .Key1
  eps := exApp.eps
  tps := exApp.tps
  ping_decode := exDecode
  spawn_ctxt := fun c => (c, c + 100)
  device_map := ⟨[], exApp.endpoint_list.endpoints, exApp.topic_in_list.topics, exApp.topic_out_list.topics, .Key1⟩

theorem exApp_ok : define_dispatch exApp = .ok exDisp := by
  have h : needed_sz exApp.sizer = .ok 1 := by decide +kernel
  unfold define_dispatch
  rw [h]
  simp only [Exec.ok_bind, kind_of_sz, if_true, merge_types_eq]
  rfl

/-- A wire that accepts every frame and a spawner that accepts every task. -/
def exEnv : Env Nat WireTxErrorKind Nat := ⟨fun _ _ => none, fun _ _ => true, true⟩
/-- A spawner that refuses every task. -/
def exEnvFull : Env Nat WireTxErrorKind Nat := ⟨fun _ _ => none, fun _ _ => false, true⟩

/-- A header carrying the request key of `exBlocking` at two bytes. -/
def exHdr : VarHeader := ⟨.Key2 ⟨3#8, 0#8⟩, .Seq2 77#16⟩

/-! ### C11 -/

/-- C11 as stated, for every application accepted by `define_dispatch!`: a frame carrying an endpoint's request key, at
any length from the dispatcher's to 8 bytes, runs that endpoint's handler once and no other handler.  (A handler table
may name an endpoint twice; then only the first row can run, so the row is taken to be the first one with its key.) -/
def c11_statement : Prop :=
  ∀ (V E SC Ctx : Type) (a : App V E SC Ctx) (D : Dispatcher V E SC Ctx), define_dispatch a = .ok D →
  ∀ (pre post : List (EpHandler V Ctx)) (h : EpHandler V Ctx), a.eps = pre ++ h :: post → (∀ g ∈ pre, g.req ≠ h.req) →
  ∀ (m : VarKeyKind) (hdr : VarHeader), Spec.keyLen D.n ≤ Spec.keyLen m →
    Spec.keyBytes hdr.key = Spec.short (Spec.keyLen m) h.req →
  ∀ (body : Bytes) (v : V), h.decode body = some v →
  ∀ (env : Env V E SC) (kkind : VarKeyKind) (s : St V E SC Ctx), ∃ r s' ev, handle env D kkind hdr body s = .ok (r, s') ∧ s'.log = s.log ++ ev ∧
      Spec.calls ev = [(.endpoint, h.name, hdr, v)]

/-- An application that omits the standard endpoints from its list and whose endpoint key collides with the built-in
ping at one byte. -/
def exOmit : App Nat WireTxErrorKind Nat Nat :=
  { exApp with
    endpoint_list := ⟨[], [⟨[], ⟨0#8, 1#8, 0#8, 0#8, 0#8, 0#8, 0#8, 0#8⟩, exKey 0x83#8⟩]⟩
    topic_in_list := ⟨.ToServer, [], []⟩
    eps := [⟨10, ⟨0#8, 1#8, 0#8, 0#8, 0#8, 0#8, 0#8, 0#8⟩, exKey 0x83#8, exDecode, .blocking fun c _ v => (v + c, c + 1)⟩]
    tps := [] }

/-- C11 is false as stated: with `omit_std = true` the built-in endpoints are matched first although their keys were
not taken into account when the key length was chosen, so a user endpoint can be unreachable. -/
theorem c11_request_routing_false : ¬ c11_statement := by
  intro h
  have hn : needed_sz exOmit.sizer = .ok 1 := by decide +kernel
  have hD : ∃ D, define_dispatch exOmit = .ok D ∧ D.n = .Key1 ∧ D.std = exStd ∧ D.ping_decode = exDecode := by
    unfold define_dispatch
    rw [hn]
    simp only [Exec.ok_bind, kind_of_sz, if_true, merge_types_eq]
    exact ⟨_, rfl, rfl, rfl, rfl⟩
  obtain ⟨D, hD, dn, ds, dp⟩ := hD
  obtain ⟨r, s', ev, hh, hlog, hc⟩ := h _ _ _ _ exOmit D hD [] [] _ rfl (by simp) .Key1 ⟨.Key1 ⟨1#8⟩, .Seq1 0#8⟩
    (by rw [dn]; decide) (by decide) [9#8] 9 rfl exEnv .Key1 ⟨0, []⟩
  rw [handle_ping _ _ _ _ _ _ (by unfold Spec.LongEnough; rw [dn]; decide)
    (by unfold Spec.rxShort; rw [dn, ds]; decide), dp] at hh
  simp only [exDecode, Exec.ok.injEq] at hh
  cases hh
  simp only [List.nil_append] at hlog
  subst hlog
  simp [Spec.calls] at hc

/-- C11, with the standard endpoints in the application's list (the default, `omit_std = false`) and a request key that
is not one of theirs.  Missing for the full statement: applications that omit them. -/
theorem c11_request_routing_partial (a : App V E SC Ctx) (D : Dispatcher V E SC Ctx) (hD : define_dispatch a = .ok D)
    (hping : a.std.ping_req ∈ a.endpoint_list.endpoints.map (·.req))
    (hschemas : a.std.schemas_req ∈ a.endpoint_list.endpoints.map (·.req))
    (pre post : List (EpHandler V Ctx)) (h : EpHandler V Ctx) (htab : a.eps = pre ++ h :: post)
    (hfirst : ∀ g ∈ pre, g.req ≠ h.req) (hne : h.req ≠ a.std.ping_req ∧ h.req ≠ a.std.schemas_req)
    (m : VarKeyKind) (hdr : VarHeader) (hm : Spec.keyLen D.n ≤ Spec.keyLen m)
    (hk : Spec.keyBytes hdr.key = Spec.short (Spec.keyLen m) h.req) :
    Spec.ForEndpoint D hdr h ∧
    ∀ (body : Bytes) (v : V), h.decode body = some v → ∀ (env : Env V E SC) (kkind : VarKeyKind) (s : St V E SC Ctx),
      ∃ r s' ev, handle env D kkind hdr body s = .ok (r, s') ∧ s'.log = s.log ++ ev ∧
        Spec.calls ev = [(.endpoint, h.name, hdr, v)] := by
  obtain ⟨hsz, hstd, heps, htps⟩ := define_dispatch_ok hD
  obtain ⟨_, din, _, hh, _⟩ := c10_dispatcher_key_length _ _ hsz
  obtain ⟨hl, hr⟩ := rxShort_of_sent hm hk
  have hmem : ∀ g ∈ a.eps, g.req ∈ a.endpoint_list.endpoints.map (·.req) := by
    intro g hg
    exact (hh (g.req, g.resp) (List.mem_map.mpr ⟨g, hg, rfl⟩)).1
  have sep : ∀ x ∈ a.endpoint_list.endpoints.map (·.req), x ≠ h.req →
      Spec.rxShort D hdr ≠ Spec.short (Spec.keyLen D.n) x := by
    intro x hx hxe e
    rw [hr] at e
    exact hxe (distinct_eq din (List.mem_append_left _ hx)
      (List.mem_append_left _ (hmem h (by rw [htab]; simp))) e.symm)
  have hf : Spec.ForEndpoint D hdr h := by
    refine ⟨hl, ⟨?_, ?_⟩, hr, pre, post, by rw [heps, htab], ?_⟩
    · rw [hstd]; exact sep _ hping (Ne.symm hne.1)
    · rw [hstd]; exact sep _ hschemas (Ne.symm hne.2)
    · intro g hg; exact sep _ (hmem g (by rw [htab]; simp [hg])) (hfirst g hg)
  refine ⟨hf, fun body v hv env kkind s => ?_⟩
  rw [handle_ep env D kkind hdr body s h hf, hv]
  obtain ⟨r, s', ev, e1, e2, e3, _⟩ := ep_arm_log env D kkind h hdr v s
  exact ⟨r, s', ev, by simp only [e1], e2, e3⟩

/-- `exApp` meets the hypotheses, with a key sent at two bytes to a one-byte dispatcher. -/
example : define_dispatch exApp = .ok exDisp ∧ exApp.std.ping_req ∈ exApp.endpoint_list.endpoints.map (·.req) ∧
    exApp.std.schemas_req ∈ exApp.endpoint_list.endpoints.map (·.req) ∧ exApp.eps = [] ++ exBlocking :: [exAsync, exSpawn] ∧
    Spec.keyLen exDisp.n ≤ Spec.keyLen .Key2 ∧ Spec.keyBytes exHdr.key = Spec.short (Spec.keyLen .Key2) exBlocking.req ∧
    exBlocking.decode [9#8] = some 9 :=
  ⟨exApp_ok, by decide, by decide, rfl, by decide, by decide, rfl⟩

/-- C11, incoming topics: a frame with a listed topic's key runs that topic's handler once and nothing else. -/
theorem c11_topic_routing_partial (a : App V E SC Ctx) (D : Dispatcher V E SC Ctx) (hD : define_dispatch a = .ok D)
    (hping : a.std.ping_req ∈ a.endpoint_list.endpoints.map (·.req))
    (hschemas : a.std.schemas_req ∈ a.endpoint_list.endpoints.map (·.req))
    (pre post : List (TpHandler V E Ctx)) (t : TpHandler V E Ctx) (htab : a.tps = pre ++ t :: post)
    (hfirst : ∀ g ∈ pre, g.key ≠ t.key)
    (m : VarKeyKind) (hdr : VarHeader) (hm : Spec.keyLen D.n ≤ Spec.keyLen m)
    (hk : Spec.keyBytes hdr.key = Spec.short (Spec.keyLen m) t.key) :
    Spec.ForTopic D hdr t ∧
    ∀ (body : Bytes) (v : V), t.decode body = some v → ∀ (env : Env V E SC) (kkind : VarKeyKind) (s : St V E SC Ctx),
      ∃ s' ev, handle env D kkind hdr body s = .ok (none, s') ∧ s'.log = s.log ++ ev ∧
        Spec.calls ev = [(.topic, t.name, hdr, v)] := by
  obtain ⟨hsz, hstd, heps, htps⟩ := define_dispatch_ok hD
  obtain ⟨_, din, _, hh, ht⟩ := c10_dispatcher_key_length _ _ hsz
  obtain ⟨hl, hr⟩ := rxShort_of_sent hm hk
  have hmt : ∀ g ∈ a.tps, g.key ∈ a.topic_in_list.topics.map (·.key) := by
    intro g hg
    exact ht g.key (List.mem_map.mpr ⟨g, hg, rfl⟩)
  have hmem : ∀ g ∈ a.eps, g.req ∈ a.endpoint_list.endpoints.map (·.req) := by
    intro g hg
    exact (hh (g.req, g.resp) (List.mem_map.mpr ⟨g, hg, rfl⟩)).1
  have htm := hmt t (by rw [htab]; simp)
  have nd : (a.endpoint_list.endpoints.map (·.req) ++ a.topic_in_list.topics.map (·.key)).Nodup := by
    have hnp := fun q => c10_dispatcher_refused_iff a.sizer |>.mpr (Or.inr (Or.inr (Or.inl q)))
    rw [hsz] at hnp
    exact Decidable.not_not.mp fun q => by simpa using hnp q
  have disj : ∀ x ∈ a.endpoint_list.endpoints.map (·.req), x ≠ t.key := by
    intro x hx e
    rw [List.nodup_append] at nd
    exact nd.2.2 x hx _ htm e
  have sep : ∀ x ∈ a.endpoint_list.endpoints.map (·.req) ++ a.topic_in_list.topics.map (·.key), x ≠ t.key →
      Spec.rxShort D hdr ≠ Spec.short (Spec.keyLen D.n) x := by
    intro x hx hxe e
    rw [hr] at e
    exact hxe (distinct_eq din hx (List.mem_append_right _ htm) e.symm)
  have hf : Spec.ForTopic D hdr t := by
    refine ⟨hl, ⟨?_, ?_⟩, ?_, hr, pre, post, by rw [htps, htab], ?_⟩
    · rw [hstd]; exact sep _ (List.mem_append_left _ hping) (disj _ hping)
    · rw [hstd]; exact sep _ (List.mem_append_left _ hschemas) (disj _ hschemas)
    · rw [heps]; intro g hg; exact sep _ (List.mem_append_left _ (hmem g hg)) (disj _ (hmem g hg))
    · intro g hg
      exact sep _ (List.mem_append_right _ (hmt g (by rw [htab]; simp [hg]))) (hfirst g hg)
  refine ⟨hf, fun body v hv env kkind s => ?_⟩
  rw [handle_tp env D kkind hdr body s t hf, hv]
  obtain ⟨ev, e2, e3, _⟩ := tp_arm_log env D t hdr v s
  exact ⟨_, ev, rfl, e2, e3⟩

example : exApp.tps = [exTopic] ++ exTopicAsync :: [] ∧ (∀ g ∈ [exTopic], g.key ≠ exTopicAsync.key) ∧
    Spec.keyBytes (VarKey.Key1 ⟨7#8⟩) = Spec.short (Spec.keyLen .Key1) exTopicAsync.key :=
  ⟨rfl, by decide, by decide⟩

/-! ### C12 -/

/-- C12 (refusal): a frame whose key is shorter than the dispatcher's gets exactly one `KeyTooSmall` error with its
sequence number; no handler runs, the context is unchanged, and the result is that of sending the error. -/
theorem c12_short_key_refused (env : Env V E SC) (D : Dispatcher V E SC Ctx) (kkind : VarKeyKind) (hdr : VarHeader)
    (body : Bytes) (s : St V E SC Ctx) (h : (Spec.keyBytes hdr.key).length < Spec.keyLen D.n) :
    ∃ f, Spec.IsMsg kkind D.std.error hdr.seq_no (.err .KeyTooSmall) f ∧
      handle env D kkind hdr body s =
        .ok (env.send s.log f, ⟨s.ctx, s.log ++ [.sent .dispatcher f (env.send s.log f)]⟩) :=
  ⟨_, errFrame_isMsg .., handle_short env D kkind hdr body s (by unfold Spec.LongEnough; omega)⟩

example : (Spec.keyBytes (VarKey.Key1 ⟨3#8⟩)).length < Spec.keyLen ({ exDisp with n := .Key2 }).n := by decide

/-- C12 (converse): a frame with a long enough key never gets `KeyTooSmall` from the dispatcher. -/
theorem c12_long_key_not_refused (env : Env V E SC) (D : Dispatcher V E SC Ctx) (kkind : VarKeyKind) (hdr : VarHeader)
    (body : Bytes) (s : St V E SC Ctx) (h : Spec.keyLen D.n ≤ (Spec.keyBytes hdr.key).length) (r : Option E)
    (s' : St V E SC Ctx) (hh : handle env D kkind hdr body s = .ok (r, s')) :
    ∃ ev, s'.log = s.log ++ ev ∧ ∀ f ∈ Spec.ownFrames ev, f.body ≠ .err .KeyTooSmall := by
  rcases frame_cases D hdr with c | ⟨_, c⟩ | ⟨_, c, c'⟩ | ⟨g, _, c⟩ | ⟨g, _, c⟩ | ⟨_, c⟩
  · exact absurd h c
  · rw [handle_ping _ _ _ _ _ _ h c] at hh
    cases hd : D.ping_decode body <;> rw [hd] at hh <;> simp only [sendOne, Exec.ok.injEq, Prod.mk.injEq] at hh <;>
      obtain ⟨_, rfl⟩ := hh <;> exact ⟨[_], rfl, by simp [Spec.ownFrames, errFrame, replyFrame]⟩
  · rw [handle_schemas _ _ _ _ _ _ h c c'] at hh
    obtain ⟨ev, a, _, _, b⟩ := schemas_frames _ _ _ _ _ _ _ _ hh
    exact ⟨ev, a, fun f hf => b f hf _⟩
  · rw [handle_ep _ _ _ _ _ _ g c] at hh
    cases hd : g.decode body with
    | none =>
      rw [hd] at hh
      simp only [sendOne, Exec.ok.injEq, Prod.mk.injEq] at hh
      obtain ⟨_, rfl⟩ := hh
      exact ⟨[_], rfl, by simp [Spec.ownFrames, errFrame]⟩
    | some v =>
      rw [hd] at hh
      obtain ⟨r', s'', ev, e1, e2, _, e4⟩ := ep_arm_log env D kkind g hdr v s
      simp only [e1, Exec.ok.injEq, Prod.mk.injEq] at hh
      obtain ⟨_, rfl⟩ := hh
      exact ⟨ev, e2, fun f hf => (e4 f hf).1⟩
  · rw [handle_tp _ _ _ _ _ _ g c] at hh
    simp only [Exec.ok.injEq, Prod.mk.injEq] at hh
    obtain ⟨_, rfl⟩ := hh
    cases hd : g.decode body with
    | none => exact ⟨[], by simp, by simp [Spec.ownFrames]⟩
    | some v =>
      obtain ⟨ev, e1, _, e3⟩ := tp_arm_log env D g hdr v s
      exact ⟨ev, e1, by simp [e3]⟩
  · rw [handle_unknown _ _ _ _ _ _ h c] at hh
    simp only [sendOne, Exec.ok.injEq, Prod.mk.injEq] at hh
    obtain ⟨_, rfl⟩ := hh
    exact ⟨[_], rfl, by simp [Spec.ownFrames, errFrame]⟩

example : Spec.keyLen exDisp.n ≤ (Spec.keyBytes exHdr.key).length ∧
    ∃ r s', handle exEnv exDisp .Key1 exHdr [9#8] ⟨0, []⟩ = .ok (r, s') := by
  refine ⟨by decide, ?_⟩
  have hf := (c11_request_routing_partial exApp exDisp exApp_ok (by decide) (by decide) [] _ exBlocking rfl (by simp)
    (by decide) .Key2 exHdr (by decide) (by decide)).2 [9#8] 9 rfl exEnv .Key1 ⟨0, []⟩
  obtain ⟨r, s', _, h, _⟩ := hf
  exact ⟨r, s', h⟩

/-! ### C13 -/

/-- C13 as stated: a frame (with a long enough key) whose key is not the key, at its own length, of any handled endpoint
or topic gets exactly one `UnknownKey` error and runs nothing. -/
def c13_statement : Prop :=
  ∀ (V E SC Ctx : Type) (env : Env V E SC) (D : Dispatcher V E SC Ctx) (kkind : VarKeyKind) (hdr : VarHeader)
    (body : Bytes) (s : St V E SC Ctx), Spec.LongEnough D hdr →
    (∀ q ∈ Spec.handledKeys D, Spec.keyBytes hdr.key ≠ Spec.short (Spec.keyBytes hdr.key).length q) →
    ∃ f, Spec.IsMsg kkind D.std.error hdr.seq_no (.err .UnknownKey) f ∧
      handle env D kkind hdr body s =
        .ok (env.send s.log f, ⟨s.ctx, s.log ++ [.sent .dispatcher f (env.send s.log f)]⟩)

/-- C13 is false: a long key that belongs to nothing is folded before matching, and can fold onto a handled key; here
an 8-byte key unknown to `exApp` runs the blocking endpoint. -/
theorem c13_unknown_key_false : ¬ c13_statement := by
  intro h
  let hdr : VarHeader := ⟨.Key8 ⟨0#8, 3#8, 0#8, 0#8, 0#8, 0#8, 0#8, 0#8⟩, .Seq1 0#8⟩
  obtain ⟨f, _, hh⟩ := h _ _ _ _ exEnv exDisp .Key1 hdr [9#8] ⟨0, []⟩ (by unfold Spec.LongEnough; decide) (by decide)
  have hf : Spec.ForEndpoint exDisp hdr exBlocking :=
    ⟨by unfold Spec.LongEnough; decide, by unfold Spec.NotStd Spec.rxShort; decide, by unfold Spec.rxShort; decide,
      [], _, rfl, by simp⟩
  rw [handle_ep _ _ _ _ _ _ _ hf] at hh
  obtain ⟨r', s', ev, e1, e2, e3, _⟩ := ep_arm_log exEnv exDisp .Key1 exBlocking hdr 9 ⟨0, []⟩
  have hd : exBlocking.decode [9#8] = some 9 := rfl
  simp only [hd, e1, Exec.ok.injEq, Prod.mk.injEq] at hh
  obtain ⟨_, rfl⟩ := hh
  simp only [List.nil_append] at e2
  subst e2
  simp [Spec.calls] at e3

/-- C13, the part that holds: a frame whose key, folded to the dispatcher's length, differs from every handled key so
folded gets exactly one `UnknownKey` error with its sequence number, and nothing else happens.
Missing for the full statement: longer keys that fold onto a handled one. -/
theorem c13_unknown_key_partial (env : Env V E SC) (D : Dispatcher V E SC Ctx) (kkind : VarKeyKind) (hdr : VarHeader)
    (body : Bytes) (s : St V E SC Ctx) (h : Spec.LongEnough D hdr)
    (hn : ∀ q ∈ Spec.handledKeys D, Spec.rxShort D hdr ≠ Spec.short (Spec.keyLen D.n) q) :
    ∃ f, Spec.IsMsg kkind D.std.error hdr.seq_no (.err .UnknownKey) f ∧
      handle env D kkind hdr body s =
        .ok (env.send s.log f, ⟨s.ctx, s.log ++ [.sent .dispatcher f (env.send s.log f)]⟩) :=
  ⟨_, errFrame_isMsg .., handle_unknown env D kkind hdr body s h hn⟩

example : Spec.LongEnough exDisp ⟨.Key4 ⟨1#8, 2#8, 4#8, 8#8⟩, .Seq1 0#8⟩ ∧
    ∀ q ∈ Spec.handledKeys exDisp, Spec.rxShort exDisp ⟨.Key4 ⟨1#8, 2#8, 4#8, 8#8⟩, .Seq1 0#8⟩ ≠
      Spec.short (Spec.keyLen exDisp.n) q := by
  unfold Spec.LongEnough Spec.rxShort; decide

/-- C13 for keys of exactly the dispatcher's length, where it holds as stated. -/
theorem c13_unknown_key_same_length_partial (env : Env V E SC) (D : Dispatcher V E SC Ctx) (kkind : VarKeyKind)
    (hdr : VarHeader) (body : Bytes) (s : St V E SC Ctx) (h : (Spec.keyBytes hdr.key).length = Spec.keyLen D.n)
    (hn : ∀ q ∈ Spec.handledKeys D, Spec.keyBytes hdr.key ≠ Spec.short (Spec.keyBytes hdr.key).length q) :
    ∃ f, Spec.IsMsg kkind D.std.error hdr.seq_no (.err .UnknownKey) f ∧
      handle env D kkind hdr body s =
        .ok (env.send s.log f, ⟨s.ctx, s.log ++ [.sent .dispatcher f (env.send s.log f)]⟩) := by
  have hl : Spec.LongEnough D hdr := by unfold Spec.LongEnough; omega
  refine c13_unknown_key_partial env D kkind hdr body s hl fun q hq e => hn q hq ?_
  have e2 : Spec.rxShort D hdr = Spec.keyBytes hdr.key := by
    have := shrink_bytes hdr.key D.n
    rw [Nat.min_eq_right hl, shrink_self _ _ (by omega)] at this
    exact this.symm
  rw [h, ← e, e2]

example : (Spec.keyBytes (VarKey.Key1 ⟨99#8⟩)).length = Spec.keyLen exDisp.n ∧
    ∀ q ∈ Spec.handledKeys exDisp, Spec.keyBytes (VarKey.Key1 ⟨99#8⟩) ≠ Spec.short 1 q := by decide

/-- C13, the other direction: an `UnknownKey` error of the dispatcher is only ever sent for such a key. -/
theorem c13_unknown_key_only (env : Env V E SC) (D : Dispatcher V E SC Ctx) (kkind : VarKeyKind) (hdr : VarHeader)
    (body : Bytes) (s : St V E SC Ctx) (r : Option E) (s' : St V E SC Ctx) (ev : List (Event V E SC))
    (hh : handle env D kkind hdr body s = .ok (r, s')) (hlog : s'.log = s.log ++ ev)
    (hu : ∃ f ∈ Spec.ownFrames ev, f.body = .err .UnknownKey) :
    Spec.LongEnough D hdr ∧ ∀ q ∈ Spec.handledKeys D, Spec.rxShort D hdr ≠ Spec.short (Spec.keyLen D.n) q := by
  obtain ⟨f, hf, hu⟩ := hu
  rcases frame_cases D hdr with c | ⟨h, c⟩ | ⟨h, c, c'⟩ | ⟨g, _, c⟩ | ⟨g, _, c⟩ | ⟨h, c⟩
  · rw [handle_short _ _ _ _ _ _ c] at hh
    simp only [sendOne, Exec.ok.injEq, Prod.mk.injEq] at hh
    obtain ⟨_, rfl⟩ := hh
    have := List.append_cancel_left hlog
    subst this
    simp only [Spec.ownFrames, List.mem_cons, List.not_mem_nil, or_false] at hf
    subst hf; simp [errFrame] at hu
  · rw [handle_ping _ _ _ _ _ _ h c] at hh
    cases hd : D.ping_decode body <;> rw [hd] at hh <;> simp only [sendOne, Exec.ok.injEq, Prod.mk.injEq] at hh <;>
      obtain ⟨_, rfl⟩ := hh <;> have := List.append_cancel_left hlog <;> subst this <;>
      simp only [Spec.ownFrames, List.mem_cons, List.not_mem_nil, or_false] at hf <;>
      subst hf <;> simp [errFrame, replyFrame] at hu
  · rw [handle_schemas _ _ _ _ _ _ h c c'] at hh
    obtain ⟨ev', a, _, _, b⟩ := schemas_frames _ _ _ _ _ _ _ _ hh
    rw [a] at hlog
    have := List.append_cancel_left hlog
    subst this
    exact absurd hu (b f hf _)
  · rw [handle_ep _ _ _ _ _ _ g c] at hh
    cases hd : g.decode body with
    | none =>
      rw [hd] at hh
      simp only [sendOne, Exec.ok.injEq, Prod.mk.injEq] at hh
      obtain ⟨_, rfl⟩ := hh
      have := List.append_cancel_left hlog
      subst this
      simp only [Spec.ownFrames, List.mem_cons, List.not_mem_nil, or_false] at hf
      subst hf; simp [errFrame] at hu
    | some v =>
      rw [hd] at hh
      obtain ⟨r', s'', ev', e1, e2, _, e4⟩ := ep_arm_log env D kkind g hdr v s
      simp only [e1, Exec.ok.injEq, Prod.mk.injEq] at hh
      obtain ⟨_, rfl⟩ := hh
      rw [e2] at hlog
      have := List.append_cancel_left hlog
      subst this
      exact absurd hu (e4 f hf).2
  · rw [handle_tp _ _ _ _ _ _ g c] at hh
    simp only [Exec.ok.injEq, Prod.mk.injEq] at hh
    obtain ⟨_, rfl⟩ := hh
    cases hd : g.decode body with
    | none =>
      rw [hd] at hlog
      simp only [List.self_eq_append_right] at hlog
      subst hlog; simp [Spec.ownFrames] at hf
    | some v =>
      obtain ⟨ev', e1, _, e3⟩ := tp_arm_log env D g hdr v s
      rw [hd] at hlog
      simp only at hlog
      rw [e1] at hlog
      have := List.append_cancel_left hlog
      subst this
      rw [e3] at hf; simp at hf
  · exact ⟨h, c⟩

example : ∃ r s' ev, handle exEnv exDisp .Key1 ⟨.Key1 ⟨99#8⟩, .Seq1 5#8⟩ [] ⟨0, []⟩ = .ok (r, s') ∧ s'.log = [] ++ ev ∧
    ∃ f ∈ Spec.ownFrames ev, f.body = .err .UnknownKey := by
  rw [handle_unknown _ _ _ _ _ _ (by unfold Spec.LongEnough; decide) (by unfold Spec.rxShort; decide)]
  exact ⟨_, _, _, rfl, rfl, _, by simp [Spec.ownFrames]; rfl, rfl⟩

/-! ### C14 -/

/-- C14: a request for a blocking or async endpoint, over a wire that accepts the reply, has exactly these effects: the
handler runs once and one frame is sent, the handler's reply under the response key at the server's key length, with
the request's sequence number (same width and value).  The context is the one the handler left. -/
theorem c14_one_reply (env : Env V E SC) (D : Dispatcher V E SC Ctx) (kkind : VarKeyKind) (hdr : VarHeader)
    (body : Bytes) (s : St V E SC Ctx) (h : EpHandler V Ctx) (f : Ctx → VarHeader → V → V × Ctx) (v : V)
    (hfor : Spec.ForEndpoint D hdr h) (hfl : h.flavor = .blocking f ∨ h.flavor = .async f) (hd : h.decode body = some v)
    (acc : ∀ log fr, env.send log fr = none) :
    ∃ fr, Spec.IsMsg kkind h.resp hdr.seq_no (.val (f s.ctx hdr v).1) fr ∧
      handle env D kkind hdr body s = .ok (none, ⟨(f s.ctx hdr v).2,
        s.log ++ [.ran .endpoint h.name hdr v, .sent .dispatcher fr none]⟩) := by
  refine ⟨_, replyFrame_isMsg .., ?_⟩
  rw [handle_ep _ _ _ _ _ _ h hfor, hd]
  have e : ep_arm env D kkind h hdr v s = reply_arm env D.std kkind h f hdr v s := by
    unfold ep_arm; rcases hfl with e | e <;> rw [e]
  simp only [e, reply_arm_eq, sendOne, acc]
  simp

/-- `exBlocking`, request 9 with context 5: reply 14 under key 0x83, sequence number 77 at two bytes. -/
example : Spec.ForEndpoint exDisp exHdr exBlocking ∧ exBlocking.decode [9#8] = some 9 ∧
    ∀ log fr, exEnv.send log fr = none :=
  ⟨⟨by unfold Spec.LongEnough; decide, by unfold Spec.NotStd Spec.rxShort; decide, by unfold Spec.rxShort; decide,
    [], _, rfl, by simp⟩, rfl, fun _ _ => rfl⟩

/-- C14, topics: dispatching a topic message sends nothing by itself and always succeeds; the only frames that can be
sent meanwhile are those the handler sends through the `Sender` it was given. -/
theorem c14_topic_silent (env : Env V E SC) (D : Dispatcher V E SC Ctx) (kkind : VarKeyKind) (hdr : VarHeader)
    (body : Bytes) (s : St V E SC Ctx) (t : TpHandler V E Ctx) (hfor : Spec.ForTopic D hdr t) :
    ∃ s' ev, handle env D kkind hdr body s = .ok (none, s') ∧ s'.log = s.log ++ ev ∧ Spec.ownFrames ev = [] ∧
      ((∀ f, t.flavor ≠ .async f) → Spec.frames ev = []) := by
  rw [handle_tp _ _ _ _ _ _ t hfor]
  cases hd : t.decode body with
  | none => exact ⟨s, [], rfl, by simp, rfl, fun _ => rfl⟩
  | some v =>
    simp only
    obtain ⟨ev, e1, e2, e3⟩ := tp_arm_log env D t hdr v s
    refine ⟨_, ev, rfl, e1, e3, fun hna => ?_⟩
    unfold tp_arm at e1
    cases hfl : t.flavor with
    | async f => exact absurd hfl (hna f)
    | blocking f =>
      rw [hfl] at e1
      have := List.append_cancel_left e1
      subst this; rfl
    | spawn =>
      rw [hfl] at e1
      have := List.append_cancel_left e1
      subst this; rfl

example : Spec.ForTopic exDisp ⟨.Key1 ⟨6#8⟩, .Seq1 0#8⟩ exTopic ∧ ∀ f, exTopic.flavor ≠ .async f :=
  ⟨⟨by unfold Spec.LongEnough; decide, by unfold Spec.NotStd Spec.rxShort; decide, by unfold Spec.rxShort; decide,
    by unfold Spec.rxShort; decide, [], _, rfl, by simp⟩, by simp [exTopic]⟩

/-- C14, the built-in ping: a decodable ping gets exactly one frame back, echoing its value and sequence number. -/
theorem c14_ping (env : Env V E SC) (D : Dispatcher V E SC Ctx) (kkind : VarKeyKind) (hdr : VarHeader)
    (body : Bytes) (s : St V E SC Ctx) (v : V) (hl : Spec.LongEnough D hdr)
    (hp : Spec.rxShort D hdr = Spec.short (Spec.keyLen D.n) D.std.ping_req) (hd : D.ping_decode body = some v) :
    ∃ fr, Spec.IsMsg kkind D.std.ping_resp hdr.seq_no (.val v) fr ∧
      handle env D kkind hdr body s =
        .ok (env.send s.log fr, ⟨s.ctx, s.log ++ [.sent .dispatcher fr (env.send s.log fr)]⟩) := by
  refine ⟨_, replyFrame_isMsg .., ?_⟩
  rw [handle_ping _ _ _ _ _ _ hl hp, hd]
  rfl

example : Spec.LongEnough exDisp ⟨.Key1 ⟨1#8⟩, .Seq4 5#32⟩ ∧
    Spec.rxShort exDisp ⟨.Key1 ⟨1#8⟩, .Seq4 5#32⟩ = Spec.short (Spec.keyLen exDisp.n) exDisp.std.ping_req ∧
    exDisp.ping_decode [42#8] = some 42 := by
  unfold Spec.LongEnough Spec.rxShort; decide

/-! ### C15 -/

/-- C15, endpoints: an undecodable request gets exactly one `DeserFailed` error with its sequence number; the handler
does not run and the context is unchanged. -/
theorem c15_undecodable_request (env : Env V E SC) (D : Dispatcher V E SC Ctx) (kkind : VarKeyKind) (hdr : VarHeader)
    (body : Bytes) (s : St V E SC Ctx) (h : EpHandler V Ctx) (hfor : Spec.ForEndpoint D hdr h)
    (hd : h.decode body = none) :
    ∃ f, Spec.IsMsg kkind D.std.error hdr.seq_no (.err .DeserFailed) f ∧
      handle env D kkind hdr body s =
        .ok (env.send s.log f, ⟨s.ctx, s.log ++ [.sent .dispatcher f (env.send s.log f)]⟩) := by
  refine ⟨_, errFrame_isMsg .., ?_⟩
  rw [handle_ep _ _ _ _ _ _ h hfor, hd]
  rfl

example : Spec.ForEndpoint exDisp exHdr exBlocking ∧ exBlocking.decode [1#8, 2#8] = none :=
  ⟨⟨by unfold Spec.LongEnough; decide, by unfold Spec.NotStd Spec.rxShort; decide, by unfold Spec.rxShort; decide,
    [], _, rfl, by simp⟩, rfl⟩

/-- C15, topics: an undecodable topic message has no effect at all. -/
theorem c15_undecodable_topic (env : Env V E SC) (D : Dispatcher V E SC Ctx) (kkind : VarKeyKind) (hdr : VarHeader)
    (body : Bytes) (s : St V E SC Ctx) (t : TpHandler V E Ctx) (hfor : Spec.ForTopic D hdr t)
    (hd : t.decode body = none) : handle env D kkind hdr body s = .ok (none, s) := by
  rw [handle_tp _ _ _ _ _ _ t hfor, hd]

example : exTopic.decode [] = none := rfl

/-- C15, the built-in ping. -/
theorem c15_undecodable_ping (env : Env V E SC) (D : Dispatcher V E SC Ctx) (kkind : VarKeyKind) (hdr : VarHeader)
    (body : Bytes) (s : St V E SC Ctx) (hl : Spec.LongEnough D hdr)
    (hp : Spec.rxShort D hdr = Spec.short (Spec.keyLen D.n) D.std.ping_req) (hd : D.ping_decode body = none) :
    ∃ f, Spec.IsMsg kkind D.std.error hdr.seq_no (.err .DeserFailed) f ∧
      handle env D kkind hdr body s =
        .ok (env.send s.log f, ⟨s.ctx, s.log ++ [.sent .dispatcher f (env.send s.log f)]⟩) := by
  refine ⟨_, errFrame_isMsg .., ?_⟩
  rw [handle_ping _ _ _ _ _ _ hl hp, hd]
  rfl

example : exDisp.ping_decode [] = none := rfl

/-! ### C16 -/

/-- C16: for a spawn endpoint the dispatcher hands exactly one task to the spawner: the handler with the context
snapshot, the header and the decoded request.  If it is accepted nothing is sent; if it is refused exactly one
`FailedToSpawn` error with the request's sequence number is sent. -/
theorem c16_spawn (env : Env V E SC) (D : Dispatcher V E SC Ctx) (kkind : VarKeyKind) (hdr : VarHeader)
    (body : Bytes) (s : St V E SC Ctx) (h : EpHandler V Ctx) (v : V) (hfor : Spec.ForEndpoint D hdr h)
    (hfl : h.flavor = .spawn) (hd : h.decode body = some v) :
    let t : Task V SC := ⟨.endpoint, h.name, (D.spawn_ctxt s.ctx).1, hdr, v⟩
    (env.spawn s.log t = true →
      handle env D kkind hdr body s = .ok (none, ⟨(D.spawn_ctxt s.ctx).2, s.log ++ [.spawned t true]⟩)) ∧
    (env.spawn s.log t = false →
      ∃ f r, Spec.IsMsg kkind D.std.error hdr.seq_no (.err .FailedToSpawn) f ∧
        handle env D kkind hdr body s =
          .ok (r, ⟨(D.spawn_ctxt s.ctx).2, s.log ++ [.spawned t false, .sent .dispatcher f r]⟩)) := by
  intro t
  have e : handle env D kkind hdr body s = .ok (ep_arm env D kkind h hdr v s) := by
    rw [handle_ep _ _ _ _ _ _ h hfor, hd]
  constructor
  · intro hs
    rw [e]
    unfold ep_arm
    rw [hfl]
    simp only [t] at hs
    simp only [hs, if_true, St.note]
    rfl
  · intro hs
    refine ⟨_, env.send (s.log ++ [.spawned t false]) (errFrame D.std kkind hdr.seq_no .FailedToSpawn),
      errFrame_isMsg .., ?_⟩
    rw [e]
    unfold ep_arm
    rw [hfl]
    simp only [t] at hs
    simp only [hs, St.note, sender_error_eq, sendOne, t]
    simp

/-- Both outcomes occur for `exSpawn`. -/
example : Spec.ForEndpoint exDisp ⟨.Key1 ⟨5#8⟩, .Seq1 1#8⟩ exSpawn ∧ exSpawn.flavor = .spawn ∧
    exSpawn.decode [3#8] = some 3 ∧ (∀ t, exEnv.spawn [] t = true) ∧ (∀ t, exEnvFull.spawn [] t = false) := by
  refine ⟨⟨by unfold Spec.LongEnough; decide, by unfold Spec.NotStd Spec.rxShort; decide,
    by unfold Spec.rxShort; decide, [exBlocking, exAsync], [], rfl, ?_⟩, rfl, rfl, fun _ => rfl, fun _ => rfl⟩
  unfold Spec.rxShort; decide

end PRpc.Props
