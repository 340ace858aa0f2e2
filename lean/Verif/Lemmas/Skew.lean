import Verif.Spec.Skew
import Verif.Props.Failed
import Verif.Props.Topics
/-! Helper lemmas for C98: the board's application with the host's endpoints and topics declared besides. -/

namespace PRpc

open Spec

variable {V E SC Ctx : Type}

/-- The application with what the host declares listed as well; its handlers are the same. -/
def withHost (a : App V E SC Ctx) (H : HostIcd) : App V E SC Ctx :=
  { a with
    endpoint_list := { a.endpoint_list with endpoints := a.endpoint_list.endpoints ++ H.endpoints }
    topic_in_list := { a.topic_in_list with topics := a.topic_in_list.topics ++ H.topics_in }
    topic_out_list := { a.topic_out_list with topics := a.topic_out_list.topics ++ H.topics_out } }

theorem host_used {a : App V E SC Ctx} {H : HostIcd} {l : SLabel V} (h : HostUses a H l) : Used (withHost a H) l := by
  cases l with
  | client l =>
    cases l with
    | call_begin req resp body => obtain ⟨r, hr, e⟩ := h; exact ⟨r, List.mem_append_right _ hr, e⟩
    | call_begin_raw => exact h
    | pub_begin f => obtain ⟨r, hr, e⟩ := h; exact ⟨r, List.mem_append_right _ hr, e⟩
    | _ => trivial
  | app_publish => obtain ⟨r, hr, e⟩ := h; exact ⟨r, List.mem_append_left _ hr, e⟩
  | _ => trivial

theorem host_listens {a : App V E SC Ctx} {H : HostIcd} {l : SLabel V} (h : HostListens H l) : Listens (withHost a H) l := by
  cases l with
  | client l =>
    cases l with
    | sub_excl => obtain ⟨r, hr, e⟩ := h; exact ⟨r, List.mem_append_right _ hr, e⟩
    | sub_repl => obtain ⟨r, hr, e⟩ := h; exact ⟨r, List.mem_append_right _ hr, e⟩
    | sub_multi => obtain ⟨r, hr, e⟩ := h; exact ⟨r, List.mem_append_right _ hr, e⟩
    | _ => trivial
  | reject => exact h
  | _ => trivial

theorem host_declared {a : App V E SC Ctx} {n : VarKeyKind} (h : Declared a n) (H : HostIcd) : Declared (withHost a H) n where
  ping := by obtain ⟨r, hr, e⟩ := h.ping; exact ⟨r, List.mem_append_left _ hr, e⟩
  schemas := by obtain ⟨r, hr, e⟩ := h.schemas; exact ⟨r, List.mem_append_left _ hr, e⟩
  schema_topic := by obtain ⟨r, hr, e⟩ := h.schema_topic; exact ⟨r, List.mem_append_left _ hr, e⟩
  names := h.names
  sends := by
    intro t ht g hg c hdr v fr hm
    obtain ⟨r, hr, e⟩ := h.sends t ht g hg c hdr v fr hm
    exact ⟨r, List.mem_append_left _ hr, e⟩

theorem host_routes {a : App V E SC Ctx} {D : Dispatcher V E SC Ctx} (h : Routes a D) (H : HostIcd) : Routes (withHost a H) D where
  eps_listed := by
    intro e he
    obtain ⟨h1, h2⟩ := h.eps_listed e he
    exact ⟨by simp only [withHost, List.map_append]; exact List.mem_append_left _ h1,
      by simp only [withHost, List.map_append]; exact List.mem_append_left _ h2⟩
  tps_listed := by
    intro k hk
    simp only [withHost, List.map_append]
    exact List.mem_append_left _ (h.tps_listed k hk)
  std := h.std
  eps := h.eps
  tps := h.tps

theorem host_receives {a : App V E SC Ctx} {D : Dispatcher V E SC Ctx} (h : Routes a D) {H : HostIcd} (hr : RequestsApart a H (keyLen D.n)) :
    Receives (withHost a H) D :=
  { host_routes h H with apart := by simp only [withHost, List.map_append]; exact hr }

theorem host_dispatches {a : App V E SC Ctx} {D : Dispatcher V E SC Ctx} (h : Routes a D) {H : HostIcd} (hr : RequestsApart a H (keyLen D.n))
    (hs : SameAnswers a H) : Dispatches (withHost a H) D :=
  { host_receives h hr with answers := hs }

theorem host_apart {a : App V E SC Ctx} {S : SysCfg V E SC Ctx} {H : HostIcd} (h : AnswersApart a H (keyLen S.kkind)) :
    KeysApart (withHost a H) S := by
  have := h.keys
  unfold KeysApart
  simpa only [withHost, List.map_append] using this

theorem host_resp_err {a : App V E SC Ctx} {H : HostIcd} {n : Nat} (h : AnswersApart a H n) :
    ∀ r ∈ (withHost a H).endpoint_list.endpoints, short n r.resp ≠ short n (withHost a H).std.error := by
  intro r hr
  refine h.errs r.resp (List.mem_append_left _ ?_)
  rw [← List.map_append]
  exact List.mem_map.mpr ⟨r, hr, rfl⟩

theorem host_topic_err {a : App V E SC Ctx} {H : HostIcd} {n : Nat} (h : AnswersApart a H n) :
    ∀ t ∈ (withHost a H).topic_out_list.topics, short n t.key ≠ short n (withHost a H).std.error := by
  intro t ht
  refine h.errs t.key (List.mem_append_right _ ?_)
  rw [← List.map_append]
  exact List.mem_map.mpr ⟨t, ht, rfl⟩

theorem host_fits {a : App V E SC Ctx} {S : SysCfg V E SC Ctx} {H : HostIcd} (hf : Fits a S) (h : AnswersApart a H (keyLen S.kkind)) :
    Fits (withHost a H) S where
  sends := hf.sends
  err_key := hf.err_key
  apart := host_apart h
  resp_err := host_resp_err h
  topic_err := host_topic_err h
  handled := by
    intro g hg
    obtain ⟨r, hr, e⟩ := hf.handled g hg
    exact ⟨r, List.mem_append_left _ hr, e⟩
  counters := hf.counters

/-- The keys the board answers to are declared. -/
theorem handled_listed {a : App V E SC Ctx} {S : SysCfg V E SC Ctx} (hD : Routes a S.disp) (hdecl : Declared a S.kkind) {k : Key}
    (hk : k ∈ handledKeys S.disp) :
    k ∈ a.endpoint_list.endpoints.map (·.req) ++ a.topic_in_list.topics.map (·.key) := by
  simp only [handledKeys, List.mem_append, List.mem_cons, List.not_mem_nil, or_false] at hk
  rcases hk with ((rfl | rfl) | hk) | hk
  · rw [hD.std]
    obtain ⟨r, hr, e, _⟩ := hdecl.ping
    exact List.mem_append_left _ (List.mem_map.mpr ⟨r, hr, e⟩)
  · rw [hD.std]
    obtain ⟨r, hr, e, _⟩ := hdecl.schemas
    exact List.mem_append_left _ (List.mem_map.mpr ⟨r, hr, e⟩)
  · obtain ⟨h, hh, rfl⟩ := List.mem_map.mp hk
    rw [hD.eps] at hh
    exact List.mem_append_left _ (hD.eps_listed (h.req, h.resp) (List.mem_map.mpr ⟨h, hh, rfl⟩)).1
  · rw [hD.tps] at hk
    exact List.mem_append_right _ (hD.tps_listed k hk)

theorem fold_len (n : Nat) (l : Bytes) : (fold n l).length = n := by
  have : ∀ (g n : Nat) (l : Bytes), (groups g n l).length = n := by
    intro g n
    induction n with
    | zero => intro l; rfl
    | succ n ih => intro l; simp [groups, ih]
  simp [fold, this]

/-- The short form the dispatcher compares for the request of a call. -/
theorem request_short {D : Dispatcher V E SC Ctx} {s : Sys V E SC Ctx} {c j : Nat} {cl : Call} {hdr : VarHeader} (h : RequestOf s c cl j hdr)
    {req : Key} (hk : cl.rqst.header.key = .Key8 req) (hl : LongEnough D hdr) : rxShort D hdr = short (keyLen D.n) req := by
  obtain ⟨len, e⟩ := h.key
  rw [hk] at e
  have e2 := congrArg List.length e
  rw [fold_len] at e2
  rw [← e2, ← kind_len] at e
  exact rxShort_of_long hl e

/-- The key of a request the board does not handle is none of those it does. -/
theorem host_unknown {a : App V E SC Ctx} {S : SysCfg V E SC Ctx} {H : HostIcd} {s : Sys V E SC Ctx} (hR : Routes a S.disp)
    (hdecl : Declared a S.kkind) (hreq : RequestsApart a H (keyLen S.disp.n)) (inv : SysInv (withHost a H) S s) {c j : Nat} {cl : Call}
    {hdr : VarHeader} {req : Key} (hq : RequestOf s c cl j hdr) (hk : cl.rqst.header.key = .Key8 req) (hn : req ∉ handledKeys S.disp) :
    ∀ k ∈ handledKeys S.disp, LongEnough S.disp hdr → rxShort S.disp hdr ≠ short (keyLen S.disp.n) k := by
  intro k hm hl e
  have hl' := handled_listed hR hdecl hm
  obtain ⟨r, hr, ek, _⟩ := inv.calls c cl hq.call
  rw [hk] at ek
  cases ek
  refine hn ((hreq.same r.req ?_ k ?_ ((request_short hq hk hl).symm.trans e)) ▸ hm)
  · exact List.mem_append_left _ (by rw [← List.map_append]; exact List.mem_map.mpr ⟨r, hr, rfl⟩)
  · simp only [List.mem_append] at hl' ⊢
    rcases hl' with hl' | hl'
    · exact .inl (.inl hl')
    · exact .inr (.inl hl')

/-- A frame with the key of an endpoint is the request of a call of that endpoint. -/
theorem frame_call {a : App V E SC Ctx} {S : SysCfg V E SC Ctx} {s : Sys V E SC Ctx} (hD : Receives a S.disp)
    (hdecl : Declared a S.kkind) (inv : SysInv a S s) (hlen : s.client.calls.length < 2 ^ 32) {j : Nat} {b body : Bytes} {hdr : VarHeader}
    (hb : s.client.tx[j]? = some b) (hf : IsFrame b hdr body) {k : Key} (hk : k ∈ a.endpoint_list.endpoints.map (·.req))
    (hl : LongEnough S.disp hdr) (hrx : rxShort S.disp hdr = short (keyLen S.disp.n) k) :
    ∃ c cl, RequestOf s c cl j hdr ∧ cl.rqst.header.key = .Key8 k ∧ cl.rqst.body = body := by
  have ht : Taken s j hdr body := ⟨b, hb, (isFrame_iff ..).mp hf⟩
  rcases taken_origin hD hdecl inv ht with ⟨c, cl, r, k', hc, hr, ek, er, eh, eb, erx⟩ | ⟨p, pb, _, tp, htp, _, erx⟩
  · have e1 : k = r.req := apart_eq hD.apart (List.mem_append_left _ hk)
      (List.mem_append_left _ (List.mem_map.mpr ⟨r, hr, rfl⟩)) (hrx.symm.trans (erx hl))
    have esq : hdr.seq_no = cl.rqst.header.seq_no := by rw [eh]; rfl
    refine ⟨c, cl, ⟨hc, ⟨b, hb, eb ▸ hf⟩, ⟨keyLen k', ?_⟩, esq, ?_⟩, by rw [ek, e1], eb.symm⟩
    · rw [eh]
      exact (shrink_shortened cl.rqst k').key
    · intro c2 cl2 h2 e2
      exact calls_apart inv hlen hc h2 (by rw [e2, esq])
  · exact absurd (hrx.symm.trans (erx hl)) (apart_parts hD.apart hk (List.mem_map.mpr ⟨tp, htp, rfl⟩))

/-- A frame with the key of a topic is a publication of that topic. -/
theorem frame_pub {a : App V E SC Ctx} {S : SysCfg V E SC Ctx} {s : Sys V E SC Ctx} (hD : Receives a S.disp)
    (hdecl : Declared a S.kkind) (inv : SysInv a S s) {j : Nat} {b body : Bytes} {hdr : VarHeader}
    (hb : s.client.tx[j]? = some b) (hf : IsFrame b hdr body) {k : Key} (hk : k ∈ a.topic_in_list.topics.map (·.key))
    (hl : LongEnough S.disp hdr) (hrx : rxShort S.disp hdr = short (keyLen S.disp.n) k) :
    ∃ (p : Nat) (pb : Pub), s.client.pubs[p]? = some pb ∧ pb.orig.header.key = .Key8 k ∧ pb.orig.header.seq_no = hdr.seq_no ∧
      pb.orig.body = body := by
  have ht : Taken s j hdr body := ⟨b, hb, (isFrame_iff ..).mp hf⟩
  rcases taken_from hD hdecl inv ht with ⟨c, cl, r, k', hc, hr, ek, er, eh, eb, erx⟩ | ⟨p, pb, hp, tp, htp, es, eb, ek, erx⟩
  · exact absurd (erx hl).symm (fun e => apart_parts hD.apart (List.mem_map.mpr ⟨r, hr, rfl⟩) hk (e.trans hrx))
  · have e1 : k = tp.key := apart_eq hD.apart (List.mem_append_right _ hk)
      (List.mem_append_right _ (List.mem_map.mpr ⟨tp, htp, rfl⟩)) (hrx.symm.trans (erx hl))
    exact ⟨p, pb, hp, by rw [ek, e1], es.symm, eb.symm⟩

/-- The endpoint that replied is handled. -/
theorem reply_pair {D : Dispatcher V E SC Ctx} {s : Sys V E SC Ctx} {j : Nat} {hdr : VarHeader} {body : Bytes} {req resp : Key} {o : Out V}
    (h : ReplyTo D s j hdr body req resp o) : (req, resp) ∈ handledPairs D := by
  cases h with
  | called h g v ctx fr cut hf e1 e2 =>
    exact List.mem_append_right _ (List.mem_map.mpr ⟨h, hf.mem, by rw [e1, e2]⟩)
  | spawned h v w i sc fr cut hf e1 e2 =>
    exact List.mem_append_right _ (List.mem_map.mpr ⟨h, hf.mem, by rw [e1, e2]⟩)
  | ping v fr cut _ _ e1 e2 => rw [← e1, ← e2]; simp [handledPairs]
  | schemas t fr cut _ _ e1 e2 => rw [← e1, ← e2]; simp [handledPairs]

theorem pair_resp {a : App V E SC Ctx} {S : SysCfg V E SC Ctx} (hR : Routes a S.disp) (hdecl : Declared a S.kkind) {p : Key × Key}
    (h : p ∈ handledPairs S.disp) : p.2 ∈ a.endpoint_list.endpoints.map (·.resp) := by
  simp only [handledPairs, List.mem_append, List.mem_cons, List.not_mem_nil, or_false] at h
  rcases h with (rfl | rfl) | h
  · obtain ⟨r, hr, _, e⟩ := hdecl.ping
    exact List.mem_map.mpr ⟨r, hr, by rw [e, hR.std]⟩
  · obtain ⟨r, hr, _, e⟩ := hdecl.schemas
    exact List.mem_map.mpr ⟨r, hr, by rw [e, hR.std]⟩
  · rw [hR.eps] at h
    exact (hR.eps_listed p h).2

/-- What reaches the client's subscriptions has one of the keys the board sends. -/
theorem arrived_not {a : App V E SC Ctx} {S : SysCfg V E SC Ctx} {H : HostIcd} {s : Sys V E SC Ctx} (hR : Routes a S.disp) (hdecl : Declared a S.kkind)
    (inv : SysInv (withHost a { H with topics_out := [] }) S s) {z : List (Out V × Option RpcFrame)} (w : Watch S s z) {key : Key}
    (hr : ∀ k ∈ a.endpoint_list.endpoints.map (·.resp) ++ a.topic_out_list.topics.map (·.key), short (keyLen S.kkind) k ≠ short (keyLen S.kkind) key)
    (he : short (keyLen S.kkind) a.std.error ≠ short (keyLen S.kkind) key) : ∀ f ∈ s.client.subs.arrived, ¬ OfTopic key f := by
  intro f hf ht
  obtain ⟨p, hp, e⟩ := List.mem_filterMap.mp (w.got.subset hf)
  obtain ⟨os, ho⟩ := w.fed
  have hm : p.1 ∈ s.outs := by rw [ho]; exact List.mem_append_left _ (List.mem_map.mpr ⟨p, hp, rfl⟩)
  have hc := w.fate p hp
  rw [Fate, e] at hc
  have hk := out_kind (host_routes hR _) (host_declared hdecl _) inv (inv.outs _ hm)
  have hl : (keyBytes p.1.frame.hdr.key).length = keyLen S.kkind := by rw [← kind_len, outKind_kind hk]
  rw [OfTopic, hc.header, hl] at ht
  cases hk with
  | err j hdr body e _ _ _ hm => exact he (hm.key.symm.trans ht)
  | out t seq b h hm =>
    refine hr t.key (List.mem_append_right _ (List.mem_map.mpr ⟨t, ?_, rfl⟩)) (hm.key.symm.trans ht)
    simpa only [withHost, List.append_nil] using h
  | reply j hdr body b req resp _ _ _ _ _ hm hrep =>
    exact hr resp (List.mem_append_left _ (pair_resp hR hdecl (reply_pair hrep))) (hm.key.symm.trans ht)
  | old i j t h v _ _ _ _ h1 _ _ hm =>
    refine hr h.resp (List.mem_append_left _ (pair_resp (p := (h.req, h.resp)) hR hdecl ?_)) (hm.key.symm.trans ht)
    exact List.mem_append_right _ (List.mem_map.mpr ⟨h, h1, rfl⟩)

/-- What the board makes of a frame of a host. -/
theorem host_not_misread {a : App V E SC Ctx} {S : SysCfg V E SC Ctx} {H : HostIcd} (hb : SoundBoard a S)
    (hreq : RequestsApart a H (keyLen S.disp.n)) {s : Sys V E SC Ctx} (inv : SysInv (withHost a H) S s)
    (hlen : s.client.calls.length < 2 ^ 32) {j : Nat} {b body : Bytes} {hdr : VarHeader}
    (hj : s.client.tx[j]? = some b) (hf : IsFrame b hdr body) :
    (∀ h, ForEndpoint S.disp hdr h → ∃ c cl, RequestOf s c cl j hdr ∧ cl.rqst.header.key = .Key8 h.req ∧ cl.rqst.body = body) ∧
    (∀ t, ForTopic S.disp hdr t → ∃ (p : Nat) (pb : Pub), s.client.pubs[p]? = some pb ∧ pb.orig.header.key = .Key8 t.key ∧
      pb.orig.header.seq_no = hdr.seq_no ∧ pb.orig.body = body) ∧
    (∀ k, k = a.std.ping_req ∨ k = a.std.schemas_req → LongEnough S.disp hdr → rxShort S.disp hdr = short (keyLen S.disp.n) k →
      ∃ c cl, RequestOf s c cl j hdr ∧ cl.rqst.header.key = .Key8 k ∧ cl.rqst.body = body) := by
  have hR : Routes a S.disp := (dispatches hb.disp).toRoutes
  have hD := host_receives hR hreq
  have hdecl := host_declared hb.decl H
  refine ⟨fun h hh => ?_, fun t ht => ?_, fun k hk hl hrx => ?_⟩
  · have hm := hh.mem
    rw [hD.eps] at hm
    exact frame_call hD hdecl inv hlen hj hf (hD.eps_listed (h.req, h.resp) (List.mem_map.mpr ⟨h, hm, rfl⟩)).1 hh.long hh.here
  · obtain ⟨pre, post, e, _⟩ := ht.first
    have hm : t ∈ S.disp.tps := by rw [e]; exact List.mem_append_right _ (List.mem_cons_self ..)
    rw [hD.tps] at hm
    exact frame_pub hD hdecl inv hj hf (hD.tps_listed t.key (List.mem_map.mpr ⟨t, hm, rfl⟩)) ht.long ht.here
  · refine frame_call hD hdecl inv hlen hj hf ?_ hl hrx
    rcases hk with rfl | rfl
    · obtain ⟨r, hr, e, _⟩ := hdecl.ping
      exact List.mem_map.mpr ⟨r, hr, e⟩
    · obtain ⟨r, hr, e, _⟩ := hdecl.schemas
      exact List.mem_map.mpr ⟨r, hr, e⟩

/-- What an error says of a call of a host. -/
theorem host_errors {a : App V E SC Ctx} {S : SysCfg V E SC Ctx} {H : HostIcd} (hb : SoundBoard a S)
    (hreq : RequestsApart a H (keyLen S.disp.n)) (hresp : AnswersApart a H (keyLen S.kkind)) {s : Sys V E SC Ctx}
    (inv : SysInv (withHost a H) S s) (ei : ErrInv S s)
    (hlen : s.client.calls.length < 2 ^ 32) {c : Nat} {cl : Call} {f : RpcFrame} {i : Nat} (hc : s.client.calls[c]? = some cl)
    (hres : result cl = some (true, f, i)) :
    ∃ o ∈ s.outs, ∃ j hdr body e, CarriesPart S.enc o f ∧ o.src = .req j ∧ o.frame.body = .err e ∧
      RefusedAt S.disp S.kkind s j hdr body e ∧
      ((RequestOf s c cl j hdr ∧ body = cl.rqst.body ∧ ∀ req, cl.rqst.header.key = .Key8 req →
          (req ∉ handledKeys S.disp → (e = .UnknownKey ∨ e = .KeyTooSmall) ∧ (keyLen S.disp.n ≤ keyLen S.kkind → e = .UnknownKey)) ∧
          (req ∈ handledKeys S.disp → keyLen S.disp.n ≤ keyLen S.kkind → e = .DeserFailed ∨ e = .SerFailed ∨ e = .FailedToSpawn)) ∨
        ∃ (p : Nat) (pb : Pub), s.client.pubs[p]? = some pb ∧ hdr.seq_no = pb.orig.header.seq_no ∧
          seqVal pb.orig.header.seq_no = seqVal cl.rqst.header.seq_no) := by
  have hR : Routes a S.disp := (dispatches hb.disp).toRoutes
  have hD := host_receives hR hreq
  have hdecl := host_declared hb.decl H
  obtain ⟨o, ho, j, hdr, body, e, h1, h2, h3, h4, h5⟩ := Props.error_cause (withHost a H) S hD hdecl hb.err_key (host_resp_err hresp)
    (host_topic_err hresp) inv ei hlen hc hres
  refine ⟨o, ho, j, hdr, body, e, h1, h2, h3, h4, h5.imp (fun ⟨g1, g2, g3⟩ => ⟨g1, g2, fun req hreqk => ⟨fun hn => ?_, fun hm hl => g3 hl req hreqk hm⟩⟩) id⟩
  obtain ⟨b, hb1, hb2⟩ := h4.sent
  have hnot := host_unknown hR hb.decl hreq inv g1 hreqk hn
  have heps : ∀ h, ForEndpoint S.disp hdr h → False := fun h hh =>
    hnot h.req (by simp only [handledKeys, List.mem_append, List.mem_map]; exact .inl (.inr ⟨h, hh.mem, rfl⟩)) hh.long hh.here
  obtain ⟨ctx, ctx', _, _, hw⟩ := h4.why
  cases hw with
  | key_too_small h => exact ⟨.inr rfl, fun hl => absurd (taken_long hD hdecl hl inv hb1 hb2) h⟩
  | unknown => exact ⟨.inl rfl, fun _ => rfl⟩
  | ping_undecodable hl hrx => exact absurd hrx (hnot _ (by simp [handledKeys]) hl)
  | undecodable h hh => exact (heps h hh).elim
  | unsent h g v fr x hh => exact (heps h hh).elim
  | unspawned h v hh => exact (heps h hh).elim

/-- A request the board does not handle changes nothing there. -/
theorem host_no_effect {a : App V E SC Ctx} {S : SysCfg V E SC Ctx} {H : HostIcd} (hb : SoundBoard a S)
    (hreq : RequestsApart a H (keyLen S.disp.n)) {s : Sys V E SC Ctx} (inv : SysInv (withHost a H) S s) {c0 : Ctx} (ci : CtxInv c0 S s)
    {c j : Nat} {cl : Call} {hdr : VarHeader} {req : Key} (hq : RequestOf s c cl j hdr)
    (hk : cl.rqst.header.key = .Key8 req) (hn : req ∉ handledKeys S.disp) :
    (j < s.taken → ∃ ctx, (contexts s)[j]? = some ctx ∧ (contexts s)[j + 1]? = some ctx) ∧
    ∀ (i : Nat) (x : Nat × Task V SC), s.old ≤ i → s.tasks[i]? = some x → x.1 ≠ j := by
  have hR : Routes a S.disp := (dispatches hb.disp).toRoutes
  obtain ⟨b, hb1, hb2⟩ := hq.sent
  have hnot := host_unknown hR hb.decl hreq inv hq hk hn
  have heps : ∀ h, ForEndpoint S.disp hdr h → False := fun h hh =>
    hnot h.req (by simp only [handledKeys, List.mem_append, List.mem_map]; exact .inl (.inr ⟨h, hh.mem, rfl⟩)) hh.long hh.here
  have htps : ∀ t, ForTopic S.disp hdr t → False := by
    intro t ht
    obtain ⟨pre, post, e, _⟩ := ht.first
    refine hnot t.key ?_ ht.long ht.here
    simp only [handledKeys, List.mem_append, List.mem_map]
    exact .inr ⟨t, by rw [e]; exact List.mem_append_right _ (List.mem_cons_self ..), rfl⟩
  refine ⟨fun hj => ?_, fun i x hi hx e => ?_⟩
  · obtain ⟨ctx, ctx', h1, h2, h3⟩ := ci.chain j hj
    refine ⟨ctx, h1, ?_⟩
    cases h3 with
    | dropped => exact h2
    | handled b' hdr' body' sends ctx' g1 g2 g3 =>
      rw [hb1] at g1
      cases g1
      obtain ⟨rfl, rfl⟩ := isFrame_unique hb2 g2
      cases g3 with
      | endpoint hf => exact (heps _ hf).elim
      | endpoint_spawn hf => exact (heps _ hf).elim
      | topic hf => exact (htps _ hf).elim
      | topic_async hf => exact (htps _ hf).elim
      | topic_spawn hf => exact (htps _ hf).elim
      | untouched => exact h2
  · obtain ⟨j', t⟩ := x
    cases e
    obtain ⟨hdr', body', ⟨b', g1, g2⟩, g3⟩ := inv.tasks i _ t hx hi
    rw [hb1] at g1
    cases g1
    obtain ⟨rfl, rfl⟩ := isFrame_unique hb2 ((isFrame_iff ..).mpr g2)
    cases hr : t.role with
    | endpoint => obtain ⟨h, _, hf, _⟩ := g3.row hr; exact heps h hf
    | topic => obtain ⟨h, _, hf, _⟩ := g3.topic hr; exact htps h hf

end PRpc
