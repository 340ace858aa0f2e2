import Verif.Lemmas.WorkbookRun
import Verif.Lemmas.Failed
import Verif.Lemmas.UsbLive
/-! Helper lemmas for C89: every method returns. -/

namespace PRpc

open Spec

variable {E : Type}

theorem wb_fits {I : WbIcd} {S : SysCfg WbVal E Unit WbCtx} (hsend : ∀ log f, S.env.send log f = none) (herr : S.cfg.err_key = I.std.error)
    (hcount : S.env.overflow_checks = false ∨ (schemaMsgs S.disp.device_map).length ≤ 65535) (ha : WbApart I (keyLen S.kkind)) :
    Fits (wb_full E I) S where
  sends := hsend
  err_key := herr
  apart := wb_keysApart ha
  resp_err := (wb_error_apart ha).1
  topic_err := (wb_error_apart ha).2
  handled := fun h hh => by
    obtain ⟨ep, _, rfl⟩ := List.mem_map.mp hh
    refine ⟨⟨I.path ep, I.req ep, I.resp ep⟩, List.mem_append_right _ (List.mem_map.mpr ⟨ep, ?_, rfl⟩), ?_⟩
    · cases ep <;> decide
    · cases ep <;> exact ⟨rfl, rfl⟩
  counters := hcount

theorem wb_listens {I : WbIcd} {l : ULabel WbVal} (h : WbListens I l) : UsbListens (wb_full E I) l := by
  have main : ∀ {key : Key}, key ∈ [I.std.schema_topic, I.std.logging_topic, I.accel.key] → ∃ t ∈ (wb_full E I).topic_out_list.topics, t.key = key := by
    intro key hk
    have : key ∈ (wb_full E I).topic_out_list.topics.map (·.key) := hk
    obtain ⟨t, h1, h2⟩ := List.mem_map.mp this
    exact ⟨t, h1, h2⟩
  cases l with
  | client l => cases l <;> first | exact main h | trivial
  | _ => trivial

theorem method_body_len (m : WbMethod) : m.body.length ≤ 72 := by
  cases m with
  | ping n => exact enc_wb_len (.u32 n)
  | set_rgb_single p r g b => exact enc_wb_len (.led ⟨p, ⟨r, g, b⟩⟩)
  | set_all_rgb_single r g b => exact enc_wb_len (.all (Vector.replicate 24 ⟨r, g, b⟩))
  | start_accelerometer i r => exact enc_wb_len (.start ⟨i, r⟩)
  | _ => exact Nat.zero_le _

/-- Requests with short bodies fit. -/
theorem bodies_fit {V SC Ctx : Type} {U : UsbCfg V E SC Ctx} {a : App V E SC Ctx} (hD : Dispatches a U.S.disp) (hdecl : Declared a U.S.kkind)
    {s : Sys V E SC Ctx} (inv : SysInv a U.S s) (hbuf : 128 ≤ U.rxlen) (hcl : ∀ (c : Nat) cl, s.client.calls[c]? = some cl → cl.rqst.body.length ≤ 72)
    (hpb : ∀ (p : Nat) pb, s.client.pubs[p]? ≠ some pb) : RequestsFit U s := by
  intro b hb
  obtain ⟨j, hj⟩ := List.mem_iff_getElem?.mp hb
  obtain ⟨f, hf, he⟩ := reachable_tx inv.reach hj
  rw [RpcFrame.to_bytes, write_to_vec_eq] at he
  have hfr : IsFrame b f.header f.body := by
    cases he
    exact (isFrame_iff ..).mpr (take_enc ..)
  have h1 := isFrame_len hfr
  have h2 : f.body.length ≤ 72 := by
    rcases reachable_enqOk inv.reach (sys_consist hD hdecl inv) f hf with ⟨c, cl, k, g1, _, g3⟩ | ⟨p, pb, k, g1, _, g3⟩
    · have : f.body = cl.rqst.body := by rw [g3]; rfl
      rw [this]
      exact hcl c cl g1
    · exact absurd g1 (hpb p pb)
  omega

theorem methods_fit {Ctx : Type} {I : WbIcd} {U : UsbCfg WbVal E Unit Ctx} {a : App WbVal E Unit Ctx} (hD : Dispatches a U.S.disp)
    (hdecl : Declared a U.S.kkind) (htop : a.topic_in_list.topics = []) {s : Sys WbVal E Unit Ctx} (inv : SysInv a U.S s) (hbuf : 128 ≤ U.rxlen)
    (hm : Methods I s) : RequestsFit U s :=
  bodies_fit hD hdecl inv hbuf (fun c cl hc => by
    obtain ⟨m, _, _, h3⟩ := hm c cl hc
    rw [h3]
    exact method_body_len _) (fun p pb hp => by
    obtain ⟨t, ht, _⟩ := inv.pubs p pb hp
    rw [htop] at ht
    cases ht)

theorem wb_requests_fit {I : WbIcd} {U : UsbCfg WbVal E Unit WbCtx} (hD : Dispatches (wb_full E I) U.S.disp) {s : Sys WbVal E Unit WbCtx}
    (inv : SysInv (wb_full E I) U.S s) (hbuf : 128 ≤ U.rxlen) {ms : List WbMethod} (hm : Made I s ms) : RequestsFit U s :=
  methods_fit (I := I) hD (wb_declared E I U.S.kkind) rfl inv hbuf fun c cl hc => by
    have hlt : c < ms.length := by rw [hm.len]; exact getElem?_lt hc
    exact ⟨ms[c], hm.call c cl ms[c] hc (List.getElem?_eq_getElem hlt)⟩

theorem u_run_append {V E SC Ctx : Type} {U : UsbCfg V E SC Ctx} {ls1 ls2 : List (ULabel V)} {u1 u : UsbSys V E SC Ctx} : ∀ {u0 : UsbSys V E SC Ctx},
    u_run U ls1 u0 = some u1 → u_run U ls2 u1 = some u → u_run U (ls1 ++ ls2) u0 = some u := by
  induction ls1 with
  | nil => intro u0 h1 h2; cases h1; exact h2
  | cons l ls ih =>
    intro u0 h1 h2
    simp only [List.cons_append, u_run] at h1 ⊢
    split at h1
    · exact ih h1 h2
    · cases h1

theorem usb_own_snoc {V E SC Ctx : Type} {U : UsbCfg V E SC Ctx} {u v w : UsbSys V E SC Ctx} {ls : List (ULabel V)} {l : ULabel V}
    (h : UsbOwnRun U u ls v) (ho : UsbOwn v l) (hs : u_step U v l = some w) : UsbOwnRun U u (ls ++ [l]) w := by
  induction h with
  | nil s => exact .cons ho hs (.nil _)
  | cons ho' h' _ ih => exact .cons ho' h' (ih ho hs)

/-- A whole reply is understood. -/
theorem method_whole {I : WbIcd} {D : Dispatcher WbVal E Unit WbCtx} (hD : define_dispatch (wb_app E I) = .ok D) (ha : WbApart I (keyLen D.n))
    {enc : Body WbVal → Bytes} (henc : ∀ v, enc (.val v) = enc_wb v) (htot : ∀ t, enc (.totals t) = enc_totals t)
    {s : Sys WbVal E Unit WbCtx} {j : Nat} {hdr : VarHeader}
    {m : WbMethod} (hr : rxShort D hdr = short (keyLen D.n) (m.req I)) {fr : Frame WbVal} (h : Applied D s j hdr m.body fr)
    {f : RpcFrame} (hp : f.body = enc fr.body) {i : Nat} : wb_result m (.Resp f i) ≠ .comms := by
  obtain ⟨h1, h2, h3, h4, h5⟩ := wb_dispatcher hD
  have std : ∀ e, m.ep = some e → rxShort D hdr ≠ short (keyLen D.n) D.std.ping_req ∧ rxShort D hdr ≠ short (keyLen D.n) D.std.schemas_req := by
    intro e he
    rw [hr, h1, method_key I he]
    exact wb_not_std ha.requests e
  have unit : ∀ b, from_bytes (pure () : Dec Unit) b = some () := fun _ => rfl
  cases h with
  | called h g v ctx' hf hl hd hc hb' hn =>
    obtain ⟨e, he, rfl⟩ := method_row hD ha hr hf
    obtain ⟨_, hv⟩ := method_called I he hl hd ctx' hdr
    rw [hv] at hb'
    rw [hb', henc] at hp
    cases m <;> cases he
    · simp only [wb_result, finish_call, hp, enc_wb, reads_from (reads_u64 _), wb_question]; exact nofun
    · simp only [wb_result, finish_call, hp, enc_wb, reads_from (reads_set_res _), wb_question]
      split <;> exact nofun
    · exact nofun
    · exact nofun
    · simp only [wb_result, finish_call, hp, enc_wb, reads_from (reads_bool _), wb_question]; exact nofun
  | spawned h v w i' sc ctx' hf hl hd =>
    obtain ⟨e, he, rfl⟩ := method_row hD ha hr hf
    cases m <;> cases he <;> first | (cases hl; done) | exact nofun
  | ping v ctx' h6 h7 h8 =>
    cases he : m.ep with
    | some e => exact absurd h6 (std e he).1
    | none =>
      cases m <;> first | (cases he; done) | skip
      · rename_i n
        rw [h4] at h7
        simp only [wb_app, WbMethod.body, reads_from (reads_u32 n)] at h7
        cases h7
        rw [h8, henc] at hp
        simp only [wb_result, finish_call, hp, enc_wb, reads_from (reads_u32 _), wb_question]; exact nofun
      · rw [hr, h1] at h6
        exact absurd h6 (distinct_head (x := I.std.ping_req) ha.requests (List.mem_cons_self ..))
  | schemas t ctx' h6 h7 =>
    cases he : m.ep with
    | some e => exact absurd h6 (std e he).2
    | none =>
      cases m <;> first | (cases he; done) | skip
      · rw [hr, h1] at h6
        exact absurd h6.symm (distinct_head (x := I.std.ping_req) ha.requests (List.mem_cons_self ..))
      · rw [h7, htot] at hp
        simp only [wb_result, finish_call, hp, reads_from (reads_totals _), wb_question]; exact nofun

/-- A method is refused only if its task cannot be spawned. -/
theorem method_refused {I : WbIcd} {D : Dispatcher WbVal E Unit WbCtx} (hD : define_dispatch (wb_app E I) = .ok D) (ha : WbApart I (keyLen D.n))
    {kk : VarKeyKind} {log : List (Event WbVal E Unit)} (hlog : GoodLog log) {hdr : VarHeader} {m : WbMethod} (hlong : LongEnough D hdr)
    (hr : rxShort D hdr = short (keyLen D.n) (m.req I)) {ctx ctx' : WbCtx} {e : WireError} (h : Refusal D kk log hdr m.body ctx e ctx')
    {cl : Call} (hs : hdr.seq_no = cl.rqst.header.seq_no) : NotStarted log cl m := by
  obtain ⟨h1, h2, h3, h4, h5⟩ := wb_dispatcher hD
  cases h with
  | key_too_small h => exact absurd hlong h
  | unknown _ h =>
    exfalso
    have hm := method_listed I m
    rcases List.mem_append.mp hm with hm | hm
    · refine h (m.req I) ?_ hr
      unfold handledKeys
      rw [h1]
      exact List.mem_append_left _ (List.mem_append_left _ hm)
    · refine h (m.req I) ?_ hr
      unfold handledKeys
      rw [h2]
      refine List.mem_append_left _ (List.mem_append_right _ ?_)
      obtain ⟨ep, hep, e⟩ := List.mem_map.mp hm
      exact List.mem_map.mpr ⟨wb_handler I ep, List.mem_map.mpr ⟨ep, hep, rfl⟩, by rw [wb_handler_req]; exact e⟩
  | ping_undecodable _ h6 h7 =>
    exfalso
    rw [hr, h1] at h6
    have hm : m.req I = I.std.ping_req := by
      rcases List.mem_cons.mp (method_listed I m) with h | h
      · exact h
      · exact absurd h6 (distinct_head ha.requests h)
    have : ∃ n, m = .ping n := by
      have d := ha.requests
      cases m with
      | ping n => exact ⟨n, rfl⟩
      | schemas => exact absurd (congrArg (short (keyLen D.n)) hm) (distinct_head d (List.mem_cons_self ..))
      | get_id => exact absurd (congrArg (short (keyLen D.n)) hm) (wb_not_std d .unique_id).1
      | set_rgb_single => exact absurd (congrArg (short (keyLen D.n)) hm) (wb_not_std d .set_one).1
      | set_all_rgb_single => exact absurd (congrArg (short (keyLen D.n)) hm) (wb_not_std d .set_all).1
      | start_accelerometer => exact absurd (congrArg (short (keyLen D.n)) hm) (wb_not_std d .start).1
      | stop_accelerometer => exact absurd (congrArg (short (keyLen D.n)) hm) (wb_not_std d .stop).1
    obtain ⟨n, rfl⟩ := this
    rw [h4] at h7
    simp only [wb_app, WbMethod.body, reads_from (reads_u32 n)] at h7
    cases h7
  | undecodable h hf hd =>
    exfalso
    obtain ⟨ep, he, rfl⟩ := method_row hD ha hr hf
    obtain ⟨v, hv⟩ := method_decodes I he
    rw [hv] at hd
    cases hd
  | unsent h g v fr x hf hl hd hm hx =>
    have := hlog _ hx _ _ _ rfl
    cases this
  | unspawned h v hf hl hd hx =>
    obtain ⟨ep, he, rfl⟩ := method_row hD ha hr hf
    cases m <;> cases he <;> first | (cases hl; done) | skip
    simp only [wb_handler, WbMethod.body, reads_from (reads_start _)] at hd
    cases hd
    exact ⟨_, _, _, hdr, rfl, hs, hx⟩

end PRpc
