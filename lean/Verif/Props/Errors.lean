import Verif.Props.Client
/-!
Property theorems C44: telling error frames from replies.  The server sends a reply with the endpoint's response key and an
error with the error key, both shortened to the dispatcher's key length (C12, C13, C14 state this of the dispatcher).
-/

namespace PRpc.Props

open PRpc PRpc.Spec

set_option synthInstance.maxSize 1000

variable {V E SC Ctx : Type}

theorem shrink_bytes8 (key : Key) (k : VarKeyKind) : keyBytes ((VarKey.Key8 key).shrink_to k) = short (keyLen k) key := by
  rw [shrink_bytes, short_eq]
  congr 1
  have := keyLen_le k
  simp only [keyBytes, List.length_cons, List.length_nil]
  omega

/-- C44: a call to an endpoint of an application accepted by the dispatcher macro, from a client whose key length is not
shorter than the dispatcher's, reports a frame with the error key as an error and a frame with the endpoint's response key
as a reply. -/
def c44_statement : Prop :=
  ∀ (V E SC Ctx : Type) (a : App V E SC Ctx) (D : Dispatcher V E SC Ctx), define_dispatch a = .ok D →
  ∀ h ∈ a.eps, h.resp ≠ a.std.error →
  ∀ (cfg : Cfg) (s s1 s2 : Client) (ls : List Label) (c : Nat) (cl : Call) (err : Bool) (f : RpcFrame) (i : Nat),
    cfg.err_key = a.std.error → Reachable cfg s → keyLen D.n ≤ keyLen s.kkind →
    step cfg s (.call_kind c) = some s1 → run cfg ls s1 = some s2 → s2.calls[c]? = some cl → cl.resp_key = h.resp →
    result cl = some (err, f, i) →
    (keyBytes f.header.key = short (keyLen D.n) a.std.error → err = true) ∧
      (keyBytes f.header.key = short (keyLen D.n) h.resp → err = false)

/-- The application of the other examples with an error key that agrees with the first endpoint's response key in its
one-byte form. -/
def exClash : App Nat WireTxErrorKind Nat Nat :=
  { exApp with std := { exStd with error := ⟨0#8, 0x83#8, 0#8, 0#8, 0#8, 0#8, 0#8, 0#8⟩ } }

def exClashCfg : Cfg := ⟨.Seq4, ⟨0#8, 0x83#8, 0#8, 0#8, 0#8, 0#8, 0#8, 0#8⟩, 8, false⟩

/-- A call to that endpoint, answered by an error frame, which the wait map may give to either of the call's waiters. -/
def exClashRun : List Label :=
  [.call_reg_ok 0, .call_reg_err 0, .call_send 0] ++ rxFrame ⟨⟨.Key1 ⟨0x83#8⟩, .Seq4 0⟩, [5]⟩ (some ⟨0, false⟩) ++ [.call_ok 0]

/-- C44 is false: the error key takes no part in the choice of the key length, so an accepted application can have an
endpoint whose shortened response key is the shortened error key; an error is then returned as a reply. -/
theorem c44_errors_distinguishable_false : ¬ c44_statement := by
  intro h
  have hn : needed_sz exClash.sizer = .ok 1 := by decide +kernel
  have hD : ∃ D, define_dispatch exClash = .ok D ∧ D.n = .Key1 := by
    unfold define_dispatch
    rw [hn]
    simp only [Exec.ok_bind, kind_of_sz, if_true, merge_types_eq]
    exact ⟨_, rfl, rfl⟩
  obtain ⟨D, hD, dn⟩ := hD
  have h0 : (run exClashCfg [.call_begin (exKey 3#8) (exKey 0x83#8) [7#8]] Client.new).map (fun s => (s.kkind,
      (step exClashCfg s (.call_kind 0)).map fun s1 => (run exClashCfg exClashRun s1).map fun s2 =>
        (s2.calls[0]?).map fun cl => (cl.resp_key, result cl))) =
      some (.Key8, some (some (some (exKey 0x83#8, some (false, ⟨⟨.Key1 ⟨0x83#8⟩, .Seq4 0⟩, [5]⟩, 0))))) := by decide +kernel
  obtain ⟨s, e1, e2⟩ := Option.map_eq_some_iff.mp h0
  simp only [Prod.mk.injEq] at e2
  obtain ⟨e2, e3⟩ := e2
  obtain ⟨s1, e4, e5⟩ := Option.map_eq_some_iff.mp e3
  obtain ⟨s2, e6, e7⟩ := Option.map_eq_some_iff.mp e5
  obtain ⟨cl, e8, e9⟩ := Option.map_eq_some_iff.mp e7
  simp only [Prod.mk.injEq] at e9
  have := (h _ _ _ _ exClash D hD exBlocking (List.mem_cons_self ..) (by decide) exClashCfg s s1 s2 exClashRun 0 cl false _ 0 rfl
    ⟨_, e1⟩ (by rw [dn, e2]; decide) e4 e6 e8 e9.1 e9.2).1 (by rw [dn]; decide)
  cases this

/-- C44 for applications in which the shortened error key differs from every shortened response key.  Missing: the macro
does not check this. -/
theorem c44_errors_distinguishable_partial (a : App V E SC Ctx) (D : Dispatcher V E SC Ctx) (hD : define_dispatch a = .ok D)
    (hdist : ∀ r ∈ a.endpoint_list.endpoints, short (keyLen D.n) r.resp ≠ short (keyLen D.n) a.std.error)
    (h : EpHandler V Ctx) (hh : h ∈ a.eps)
    {cfg : Cfg} {s s1 s2 : Client} {ls : List Label} {c : Nat} {cl : Call} {err : Bool} {f : RpcFrame} {i : Nat}
    (hcfg : cfg.err_key = a.std.error) (hr : Reachable cfg s) (hk : keyLen D.n ≤ keyLen s.kkind)
    (h1 : step cfg s (.call_kind c) = some s1) (h2 : run cfg ls s1 = some s2) (hc : s2.calls[c]? = some cl)
    (hresp : cl.resp_key = h.resp) (hd : result cl = some (err, f, i)) :
    (keyBytes f.header.key = short (keyLen D.n) a.std.error → err = true) ∧
      (keyBytes f.header.key = short (keyLen D.n) h.resp → err = false) := by
  obtain ⟨hsz, _⟩ := define_dispatch_ok hD
  obtain ⟨_, _, _, hdecl, _⟩ := c10_dispatcher_key_length _ _ hsz
  have hne : short (keyLen D.n) h.resp ≠ short (keyLen D.n) a.std.error := by
    have := (hdecl (h.req, h.resp) (List.mem_map.mpr ⟨h, hh, rfl⟩)).2
    obtain ⟨r, hr, e⟩ := List.mem_map.mp this
    have e : r.resp = h.resp := e
    rw [← e]
    exact hdist r hr
  obtain ⟨_, _, ha⟩ := c36_completed_by_own_response hr h1 h2 hc hd
  have hkey := ha.key
  -- a key of the dispatcher's length is looked at whole
  have whole : ∀ key, keyBytes f.header.key = short (keyLen D.n) key →
      keyBytes f.header.key = short (keyLen D.n) (wantKey cfg cl err) := by
    intro key e
    have hl : (keyBytes f.header.key).length = keyLen D.n := by
      rw [e, ← shrink_bytes8, ← kind_len]
      cases D.n <;> rfl
    rw [KeyAgrees, hl, Nat.min_eq_right hk] at hkey
    rw [← hkey]
    have := fold_self f.header.key
    rw [hl] at this
    exact this.symm
  constructor
  · intro e
    have := whole _ e
    cases err with
    | true => rfl
    | false =>
      rw [e] at this
      rw [wantKey, hresp] at this
      exact absurd this.symm hne
  · intro e
    have := whole _ e
    cases err with
    | false => rfl
    | true =>
      rw [e] at this
      rw [wantKey, hcfg] at this
      exact absurd this hne

/-- C44: the condition of the previous theorem holds when the error key is declared as one of the outgoing topics (it then
takes part in the choice of the key length). -/
theorem c44_declared_error_key_suffices (a : App V E SC Ctx) (D : Dispatcher V E SC Ctx) (hD : define_dispatch a = .ok D)
    (he : a.std.error ∈ a.topic_out_list.topics.map (·.key)) :
    ∀ r ∈ a.endpoint_list.endpoints, short (keyLen D.n) r.resp ≠ short (keyLen D.n) a.std.error := by
  obtain ⟨hsz, _⟩ := define_dispatch_ok hD
  obtain ⟨_, _, hd, _⟩ := c10_dispatcher_key_length _ _ hsz
  intro r hr
  obtain ⟨i, hi, ei⟩ := List.mem_iff_getElem.mp (List.mem_map_of_mem (f := fun x => x.resp) hr)
  obtain ⟨j, hj, ej⟩ := List.mem_iff_getElem.mp he
  have := hd i ((a.endpoint_list.endpoints.map fun x => x.resp).length + j)
    (by simp only [App.sizer, List.length_append]; omega) (by simp only [App.sizer, List.length_append]; omega) (by omega)
  simp only [App.sizer] at this
  rw [List.getElem_append_left hi, List.getElem_append_right (by omega)] at this
  simp only [Nat.add_sub_cancel_left] at this
  rw [← ei, ← ej]
  exact this

/-- The application of the other examples meets the condition, and its calls the others: `exRun` has both kinds of answer. -/
example : ∀ r ∈ exApp.endpoint_list.endpoints, short (keyLen exDisp.n) r.resp ≠ short (keyLen exDisp.n) exApp.std.error := by
  decide +kernel

/-- The call failed with `BadResponse` and nothing was put into the outgoing queue. -/
def Blocked (s t : Client) (c : Nat) : Prop :=
  ∃ cl, t.calls[c]? = some cl ∧ cl.phase = .done .BadResponse ∧ t.enq = s.enq

/-- C44 (what a collision does otherwise): once the client uses a key length at which the response key and the error key
agree, a call of the endpoint that registers its two waiters one right after the other (as one poll does) fails without
being sent. -/
theorem c44_collision_blocks_calls {cfg : Cfg} {s : Client} {c : Nat} {cl : Call} {k : VarKeyKind} (hc : s.calls[c]? = some cl)
    (hp : cl.phase = .kinded k) (hcol : short (keyLen k) cl.resp_key = short (keyLen k) cfg.err_key) :
    ∃ s1, step cfg s (.call_reg_ok c) = some s1 ∧
      (Blocked s s1 c ∨ ∃ s2, step cfg s1 (.call_reg_err c) = some s2 ∧ Blocked s s2 c) := by
  have hself : (cl.ok_hdr k).eq (cl.err_hdr cfg k) = true := by
    have := (waitHdr_answers cfg cl k false (cl.err_hdr cfg k)).mpr ?_
    · exact this
    · refine ⟨?_, rfl⟩
      have hb : keyBytes (cl.err_hdr cfg k).key = short (keyLen k) cfg.err_key := shrink_bytes8 _ _
      have hl : (keyBytes (cl.err_hdr cfg k).key).length = keyLen k := by
        rw [← kind_len]; cases k <;> rfl
      rw [KeyAgrees, hl, Nat.min_self]
      have := fold_self (cl.err_hdr cfg k).key
      rw [hl] at this
      rw [this, hb]
      exact hcol.symm
  cases em : map_enqueue s.map ⟨c, false⟩ (cl.ok_hdr k) with
  | none =>
    refine ⟨s.set_phase c cl (.done .BadResponse), by simp only [step, hc, hp, call_reg_ok, em], .inl ?_⟩
    exact ⟨_, (set_get hc _ _).trans (if_pos rfl), rfl, rfl⟩
  | some m =>
    have hm : m = s.map ++ [(⟨c, false⟩, cl.ok_hdr k)] := by
      simp only [map_enqueue] at em
      split at em
      · cases em
      · exact (Option.some.inj em).symm
    have hen : map_enqueue m ⟨c, true⟩ (cl.err_hdr cfg k) = none := by
      rw [map_enqueue, if_pos]
      rw [hm, List.any_append, Bool.or_eq_true]
      right
      simp only [List.any_cons, List.any_nil, Bool.or_false]
      exact hself
    have hc1 := (set_get hc { cl with phase := .half k, reg_at := s.seen.length } c).trans (if_pos rfl)
    let s1 : Client := { s with map := m, calls := s.calls.set c { cl with phase := .half k, reg_at := s.seen.length } }
    refine ⟨s1, by simp only [step, hc, hp, call_reg_ok, em]; rfl,
      .inr ⟨(s1.drop_waits c).set_phase c { cl with phase := .half k, reg_at := s.seen.length } (.done .BadResponse), ?_,
        { cl with phase := .done .BadResponse, reg_at := s.seen.length }, (set_get hc1 _ _).trans (if_pos rfl), rfl, rfl⟩⟩
    simp only [step, s1]
    rw [hc1]
    simp only [call_reg_err]
    rw [show map_enqueue m ⟨c, true⟩ (Call.err_hdr cfg { cl with phase := .half k, reg_at := s.seen.length } k) = none from hen]

/-- After `exClashRun` the client uses one-byte keys; every further call of the endpoint fails. -/
example : (run exClashCfg ([.call_begin (exKey 3#8) (exKey 0x83#8) [7#8], .call_kind 0] ++ exClashRun ++
      [.call_begin (exKey 3#8) (exKey 0x83#8) [8#8], .call_kind 1, .call_reg_ok 1, .call_reg_err 1]) Client.new).map
    (fun s => (s.kkind, s.calls.map Call.phase, s.enq.length)) =
    some (.Key1, [.done (.Resp ⟨⟨.Key1 ⟨0x83#8⟩, .Seq4 0⟩, [5]⟩ 0), .done .BadResponse], 1) := by decide +kernel

end PRpc.Props
