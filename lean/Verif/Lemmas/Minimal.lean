import Verif.Spec.Minimal
import Verif.Lemmas.UsbNext
import Verif.Props.WorkbookLive
/-! Helper lemmas for C105: calls the server has no handler for. -/

namespace PRpc

open Spec Props

variable {V E SC Ctx : Type}

/-- A key that is handled is declared. -/
theorem handled_in_lists {a : App V E SC Ctx} {S : SysCfg V E SC Ctx} (hD : Receives a S.disp) (hdecl : Declared a S.kkind) {k : Key}
    (hk : k ∈ handledKeys S.disp) : k ∈ a.endpoint_list.endpoints.map (·.req) ++ a.topic_in_list.topics.map (·.key) := by
  unfold handledKeys at hk
  rw [hD.std, hD.eps, hD.tps] at hk
  rcases List.mem_append.mp hk with hk | hk
  · rcases List.mem_append.mp hk with hk | hk
    · simp only [List.mem_cons, List.not_mem_nil, or_false] at hk
      rcases hk with rfl | rfl
      · obtain ⟨r, hr, e, _⟩ := hdecl.ping
        exact List.mem_append_left _ (List.mem_map.mpr ⟨r, hr, e⟩)
      · obtain ⟨r, hr, e, _⟩ := hdecl.schemas
        exact List.mem_append_left _ (List.mem_map.mpr ⟨r, hr, e⟩)
    · obtain ⟨h, hh, rfl⟩ := List.mem_map.mp hk
      exact List.mem_append_left _ (hD.eps_listed _ (List.mem_map.mpr ⟨h, hh, rfl⟩)).1
  · exact List.mem_append_right _ (hD.tps_listed k hk)

/-- A request for which there is no handler is refused with `UnknownKey` only. -/
theorem refusal_unknown {a : App V E SC Ctx} {S : SysCfg V E SC Ctx} (hD : Receives a S.disp) (hdecl : Declared a S.kkind) {req : Key}
    (hreq : req ∈ a.endpoint_list.endpoints.map (·.req)) (hnot : req ∉ handledKeys S.disp) {hdr : VarHeader} {body : Bytes}
    (hlong : LongEnough S.disp hdr) (hrx : rxShort S.disp hdr = short (keyLen S.disp.n) req) {kk : VarKeyKind} {log : List (Event V E SC)}
    {ctx ctx' : Ctx} {e : WireError} (h : Refusal S.disp kk log hdr body ctx e ctx') : e = .UnknownKey ∧ ctx' = ctx := by
  have no : ∀ k ∈ handledKeys S.disp, rxShort S.disp hdr ≠ short (keyLen S.disp.n) k := by
    intro k hk hs
    have := apart_eq hD.apart (List.mem_append_left _ hreq) (handled_in_lists hD hdecl hk) (hrx.symm.trans hs)
    exact hnot (this ▸ hk)
  have ep : ∀ h : EpHandler V Ctx, ForEndpoint S.disp hdr h → False := fun h hf =>
    no h.req (List.mem_append_left _ (List.mem_append_right _ (List.mem_map.mpr ⟨h, hf.mem, rfl⟩))) hf.here
  cases h with
  | key_too_small h => exact absurd hlong h
  | unknown => exact ⟨rfl, rfl⟩
  | ping_undecodable _ h => exact absurd h (no _ (List.mem_append_left _ (List.mem_append_left _ (List.mem_cons_self ..))))
  | undecodable h hf => exact (ep h hf).elim
  | unsent h g v fr x hf => exact (ep h hf).elim
  | unspawned h v hf => exact (ep h hf).elim

/-- A reply is given by a handler. -/
theorem reply_needs {D : Dispatcher V E SC Ctx} {s : Sys V E SC Ctx} {j : Nat} {hdr : VarHeader} {body : Bytes} {req resp : Key} {o : Out V}
    (h : ReplyTo D s j hdr body req resp o) : req ∈ handledKeys D := by
  unfold handledKeys
  cases h with
  | called h g v ctx fr cut hf e => exact List.mem_append_left _ (List.mem_append_right _ (List.mem_map.mpr ⟨h, hf.mem, e⟩))
  | spawned h v w i sc fr cut hf e => exact List.mem_append_left _ (List.mem_append_right _ (List.mem_map.mpr ⟨h, hf.mem, e⟩))
  | ping v fr cut _ _ e => exact List.mem_append_left _ (List.mem_append_left _ (e ▸ List.mem_cons_self ..))
  | schemas t fr cut _ _ e => exact List.mem_append_left _ (List.mem_append_left _ (e ▸ List.mem_cons_of_mem _ (List.mem_cons_self ..)))

/-- A call for which there is no handler gets no reply. -/
theorem unhandled_reply {a : App V E SC Ctx} {S : SysCfg V E SC Ctx} (hD : Receives a S.disp) (hdecl : Declared a S.kkind) (dout : KeysApart a S)
    (hdist : ∀ r ∈ a.endpoint_list.endpoints, short (keyLen S.kkind) r.resp ≠ short (keyLen S.kkind) a.std.error)
    {s : Sys V E SC Ctx} (inv : SysInv a S s) (hold : s.old = 0) (hlen : s.client.calls.length < 2 ^ 32) {c : Nat} {cl : Call} {req : Key}
    (hc : s.client.calls[c]? = some cl) (hk : cl.rqst.header.key = .Key8 req) (hnot : req ∉ handledKeys S.disp) {f : RpcFrame} {i : Nat} :
    result cl ≠ some (false, f, i) := by
  intro hres
  obtain ⟨o, ho, ⟨j, hdr, req', _, _, h1, h2⟩ | ⟨_, k, j, t, h2, _⟩⟩ := reply_begins a S hD hdecl dout hdist inv hlen hc hres
  · cases VarKey.Key8.inj (h1.symm.trans hk)
    exact hnot (reply_needs h2)
  · have := h2.earlier
    rw [hold] at this
    exact absurd this (Nat.not_lt_zero _)

/-- Nor does it in later sessions, if the handlers are those of listed endpoints. -/
theorem unhandled_session {a : App V E SC Ctx} {S : SysCfg V E SC Ctx} (hD : define_dispatch a = .ok S.disp) (hdecl : Declared a S.kkind)
    (dout : KeysApart a S) (hdist : ∀ r ∈ a.endpoint_list.endpoints, short (keyLen S.kkind) r.resp ≠ short (keyLen S.kkind) a.std.error)
    {es : List (Sys V E SC Ctx)} {s0 s : Sys V E SC Ctx} (hs : Sessions a S es s0) {ls : List (SLabel V)} (hu : ∀ l ∈ ls, Used a l)
    (hrun : sys_run S ls s0 = some s) (hlen : s.client.calls.length < 2 ^ 32) {c : Nat} {cl : Call} {req : Key}
    (hc : s.client.calls[c]? = some cl) (hk : cl.rqst.header.key = .Key8 req) (hnot : req ∉ handledKeys S.disp)
    (hlist : es = [] ∨ ∀ h ∈ a.eps, ∃ r ∈ a.endpoint_list.endpoints, r.req = h.req ∧ r.resp = h.resp) {f : RpcFrame} {i : Nat} :
    result cl ≠ some (false, f, i) := by
  intro hres
  obtain ⟨o, _, _, ⟨j, hdr, req', _, h1, h2⟩ | ⟨k, j, t, hst, e, he, _⟩⟩ := session_reply a S hD hdecl dout hdist hs hu hrun hlen hc hres
  · cases VarKey.Key8.inj (h1.symm.trans hk)
    exact hnot (reply_needs h2)
  · rcases hlist with rfl | hlist
    · cases he
    · obtain ⟨g, hg, rfl⟩ := stale_handler hD (sys_run_inv hrun hu (sessions_start hs).inv) hc hk hst hlist
      exact hnot (List.mem_append_left _ (List.mem_append_right _ (List.mem_map_of_mem hg)))

/-- An error it gets is `UnknownKey`, or answers a publication of the same number. -/
theorem unhandled_error {a : App V E SC Ctx} {S : SysCfg V E SC Ctx} (hD : Dispatches a S.disp) (hdecl : Declared a S.kkind)
    (hcfg : S.cfg.err_key = a.std.error)
    (hdist : ∀ r ∈ a.endpoint_list.endpoints, short (keyLen S.kkind) r.resp ≠ short (keyLen S.kkind) a.std.error)
    (hdist' : ∀ t ∈ a.topic_out_list.topics, short (keyLen S.kkind) t.key ≠ short (keyLen S.kkind) a.std.error)
    (hlong : keyLen S.disp.n ≤ keyLen S.kkind) {s : Sys V E SC Ctx} (inv : SysInv a S s) (einv : ErrInv S s)
    (hlen : s.client.calls.length < 2 ^ 32) {c : Nat} {cl : Call} {req : Key}
    (hc : s.client.calls[c]? = some cl) (hk : cl.rqst.header.key = .Key8 req) (hnot : req ∉ handledKeys S.disp) {f : RpcFrame} {i : Nat}
    (hres : result cl = some (true, f, i)) :
    ∃ o ∈ s.outs, ∃ j hdr body e, CarriesPart S.enc o f ∧ o.src = .req j ∧ o.frame.body = .err e ∧ RefusedAt S.disp S.kkind s j hdr body e ∧
      ((e = .UnknownKey ∧ RequestOf s c cl j hdr ∧ body = cl.rqst.body) ∨
        ∃ (p : Nat) (pb : Pub), s.client.pubs[p]? = some pb ∧ seqVal pb.orig.header.seq_no = seqVal cl.rqst.header.seq_no) := by
  obtain ⟨o, hout, j, hdr, body, e, g1, g2, g3, g4, h⟩ := error_cause a S hD hdecl hcfg hdist hdist' inv einv hlen hc hres
  refine ⟨o, hout, j, hdr, body, e, g1, g2, g3, g4, ?_⟩
  rcases h with ⟨q, rfl, _⟩ | ⟨p, pb, hp, _, h⟩
  · obtain ⟨b, b1, b2⟩ := g4.sent
    have hl := taken_long hD hdecl hlong inv b1 b2
    obtain ⟨ctx, ctx', _, _, hw⟩ := g4.why
    rcases taken_origin hD hdecl inv ⟨b, b1, (isFrame_iff ..).mp b2⟩ with ⟨c', cl', r', k, hc', hr', ek', er', eh, eb, erx⟩ | ⟨p, pb, hp, t, _, es, _⟩
    · have esq : hdr.seq_no = cl'.rqst.header.seq_no := by rw [eh]; rfl
      cases q.only c' cl' hc' (by rw [esq])
      cases hc'.symm.trans hc
      cases VarKey.Key8.inj (ek'.symm.trans hk)
      exact .inl ⟨(refusal_unknown hD hdecl (List.mem_map.mpr ⟨r', hr', rfl⟩) hnot hl (erx hl) hw).1, q, rfl⟩
    · exact .inr ⟨p, pb, hp, by rw [← es, q.seq]⟩
  · exact .inr ⟨p, pb, hp, h⟩

/-- Whole, it is understood. -/
theorem told_unknown {enc : Body V → Bytes} (henc : ∀ e, enc (.err e) = enc_wire_error e) {f : RpcFrame} {i : Nat}
    (h : f.body = enc (.err .UnknownKey)) : ToldUnknown (.ErrResp f i) := by
  intro R decode
  obtain ⟨hpre, _⟩ := c85_error.1 .UnknownKey
  have := hpre []
  rw [List.append_nil] at this
  simp only [finish_call, h, henc, this]

/-- Left to itself, a system whose requests are short goes on to have short ones. -/
theorem own_fits {a : App V E SC Ctx} {U : UsbCfg V E SC Ctx} (hD : Dispatches a U.S.disp) (hdecl : Declared a U.S.kkind) (hF : Fits a U.S)
    (hU : UsbSound U) (hsm : ∀ s, Small U.S s) (htop : a.topic_in_list.topics = []) (hbuf : 128 ≤ U.rxlen) {ls : List (ULabel V)}
    {u v : UsbSys V E SC Ctx} (h : UsbOwnRun U u ls v) (inv : UsbLive a U u) (hn : u.sys.client.calls.length < 2 ^ 32)
    (hb : ∀ (c : Nat) cl, u.sys.client.calls[c]? = some cl → cl.rqst.body.length ≤ 72) : RequestsFit U v.sys := by
  have fit : ∀ {u : UsbSys V E SC Ctx}, UsbLive a U u → (∀ (c : Nat) cl, u.sys.client.calls[c]? = some cl → cl.rqst.body.length ≤ 72) →
      RequestsFit U u.sys := fun {u} inv hb =>
    bodies_fit (s := u.abs) hD hdecl inv.sys hbuf hb (fun p pb hp => by
      obtain ⟨t, ht, _⟩ := inv.sys.pubs p pb hp
      rw [htop] at ht
      cases ht)
  induction h with
  | nil u => exact fit inv hb
  | cons ho hs hr ih =>
    obtain ⟨i1, _, i3, _⟩ := usb_own_one hD hdecl hF hU inv (hsm _) (fit inv hb) hn ho hs
    refine ih i1 (by omega) (fun c cl hc => ?_)
    obtain ⟨_, lo, hro, _⟩ := sim_run hU.buffer hU.some_buffer inv.usb (hsm _) (usb_own_run (.cons ho hs (.nil _)))
    have hlt := getElem?_lt hc
    rw [i3] at hlt
    obtain ⟨cl', h1, h2⟩ := (sys_run_later hro).calls c _ (List.getElem?_eq_getElem hlt)
    cases Option.some.inj (h1.symm.trans hc)
    simp only [Call.sig, Prod.mk.injEq] at h2
    rw [h2.1]
    exact hb c _ (List.getElem?_eq_getElem hlt)

/-! ### The minimal firmware -/

/-- The application with the standard endpoints in its list. -/
def min_full (E : Type) (I : WbIcd) : App WbVal E Unit Unit := { min_app E I with endpoint_list := (wb_full E I).endpoint_list }

theorem min_dispatches {I : WbIcd} {D : Dispatcher WbVal E Unit Unit} (h : define_dispatch (min_app E I) = .ok D)
    (ha : WbApart I (keyLen D.n)) : Dispatches (min_full E I) D := by
  obtain ⟨_, h1, h2, h3⟩ := define_dispatch_ok h
  refine dispatches_of ?_ ⟨nofun, nofun, h1, h2, h3⟩
  show DistinctAt _ ((wb_full E I).endpoint_list.endpoints.map (·.req) ++ _)
  rw [wb_reqs]
  exact (List.append_nil _).symm ▸ ha.requests

theorem min_decode {I : WbIcd} {D : Dispatcher WbVal E Unit Unit} (h : define_dispatch (min_app E I) = .ok D) :
    D.ping_decode = fun b => (from_bytes take_u32 b).map .u32 := by
  obtain ⟨hsz, _⟩ := define_dispatch_ok h
  unfold define_dispatch at h
  rw [hsz] at h
  simp only [Exec.ok_bind, merge_types_eq] at h
  cases hk : kind_of_sz (keyLen D.n) with
  | panic => rw [hk] at h; simp at h
  | ok n =>
    rw [hk] at h
    simp only [Exec.ok_bind, Exec.ok.injEq] at h
    rw [← h]
    rfl

theorem min_declared (E : Type) (I : WbIcd) (n : VarKeyKind) : Declared (min_full E I) n where
  ping := (wb_declared E I n).ping
  schemas := (wb_declared E I n).schemas
  schema_topic := (wb_declared E I n).schema_topic
  names := List.nodup_nil
  sends := fun t ht => by cases ht

theorem min_keysApart {I : WbIcd} {S : SysCfg WbVal E Unit Unit} (ha : WbApart I (keyLen S.kkind)) : KeysApart (min_full E I) S := by
  refine apart_of_distinct ?_
  show DistinctAt _ ((wb_full E I).endpoint_list.endpoints.map (·.resp) ++ (wb_full E I).topic_out_list.topics.map (·.key))
  rw [wb_answers]
  exact distinct_tail ha.answers

theorem min_fits {I : WbIcd} {S : SysCfg WbVal E Unit Unit} (hsend : ∀ log f, S.env.send log f = none) (herr : S.cfg.err_key = I.std.error)
    (hcount : S.env.overflow_checks = false ∨ (schemaMsgs S.disp.device_map).length ≤ 65535) (ha : WbApart I (keyLen S.kkind)) :
    Fits (min_full E I) S where
  sends := hsend
  err_key := herr
  apart := min_keysApart ha
  resp_err := (wb_error_apart (E := E) ha).1
  topic_err := (wb_error_apart (E := E) ha).2
  handled := fun h hh => by cases hh
  counters := hcount

theorem min_used {I : WbIcd} {l : ULabel WbVal} (h : WbUses I l) : UsbUsed (min_full E I) l := by
  have := wb_used (E := E) h
  cases l with
  | client l => cases l <;> exact this
  | _ => exact this

theorem min_listens {I : WbIcd} {l : ULabel WbVal} (h : WbListens I l) : UsbListens (min_full E I) l := by
  have := wb_listens (E := E) h
  cases l with
  | client l => cases l <;> exact this
  | _ => exact this

/-- The requests the client makes are those of methods, and they fit. -/
theorem min_methods {I : WbIcd} {U : UsbCfg WbVal E Unit Unit} (hD : Dispatches (min_full E I) U.S.disp) (hbuf : 128 ≤ U.rxlen)
    {ls : List (SLabel WbVal)} {s0 : Sys WbVal E Unit Unit} {u : UsbSys WbVal E Unit Unit} (h0 : s0.client.calls = [])
    (hr : sys_run U.S ls s0 = some u.abs) (inv : SysInv (min_full E I) U.S u.abs) (hu : ∀ l' ∈ ls, ∃ l, Stands l l' ∧ WbUses I l) :
    Methods I u.sys ∧ RequestsFit U u.sys := by
  have hm := sys_run_methods (I := I) (s' := u.abs) hr hu (fun c cl h => by rw [h0] at h; cases h)
  exact ⟨hm, methods_fit (s := u.abs) hD (min_declared E I _) rfl inv hbuf hm⟩

/-- The firmware spawns no tasks. -/
theorem min_tasks {I : WbIcd} {S : SysCfg WbVal E Unit Unit} (hD : Dispatches (min_full E I) S.disp) {s : Sys WbVal E Unit Unit}
    (inv : SysInv (min_full E I) S s) (hold : s.old = 0) : s.tasks = [] := by
  have heps : S.disp.eps = [] := hD.eps
  have htps : S.disp.tps = [] := hD.tps
  cases ht : s.tasks with
  | nil => rfl
  | cons x xs =>
    obtain ⟨hdr, body, _, h⟩ := inv.tasks 0 x.1 x.2 (by rw [ht]; rfl) (by rw [hold]; exact Nat.le_refl _)
    cases hr : x.2.role with
    | endpoint =>
      obtain ⟨h, hh, _⟩ := h.row hr
      rw [heps] at hh
      cases hh
    | topic =>
      obtain ⟨h, hh, _⟩ := h.topic hr
      rw [htps] at hh
      cases hh

/-- A board with this firmware that programs have used one after the other. -/
theorem min_hosts {I : WbIcd} {U : UsbCfg WbVal E Unit Unit} (hU : UsbSound U) (hD : Dispatches (min_full E I) U.S.disp)
    (hsm : ∀ s, Small U.S s) {es : List (UsbSys WbVal E Unit Unit)} {u : UsbSys WbVal E Unit Unit} (h : WbHosts I U es u) :
    UsbSessions (min_full E I) U DevIdle es u ∧ u.sys.tasks = [] ∧ u.sys.client.calls = [] := by
  have tasks : ∀ {es : List (UsbSys WbVal E Unit Unit)} {u0 u : UsbSys WbVal E Unit Unit} {ls : List (ULabel WbVal)},
      UsbSessions (min_full E I) U DevIdle es u0 → u0.sys.tasks = [] → (∀ l ∈ ls, WbUses I l) → u_run U ls u0 = some u → u.sys.tasks = [] := by
    intro es u0 u ls s ht hu hrun
    obtain ⟨ls', hu', hr⟩ := next_run hU s (fun l h => min_used (hu l h)) hrun (hsm _)
    have st := sessions_start (usb_sessions hU s).2
    refine min_tasks (s := u.abs) hD (sys_run_inv hr hu' st.inv) ?_
    rw [sys_run_old hr, st.old]
    show u0.sys.tasks.length = 0
    rw [ht]
    rfl
  induction h with
  | first c => exact ⟨.first c, rfl, rfl⟩
  | next es u0 u ls _ hu hrun hlen hi ih =>
    exact ⟨.next es u0 u ls ih.1 (fun l h => min_used (hu l h)) hrun (hsm _) hlen hi, tasks (u := u) ih.1 ih.2.1 hu hrun, rfl⟩
  | replug es u0 u ls _ hu hrun hlen ih =>
    exact ⟨.replug es u0 u ls ih.1 (fun l h => min_used (hu l h)) hrun (hsm _) hlen, tasks (u := u) ih.1 ih.2.1 hu hrun, rfl⟩

end PRpc
