import Verif.Lemmas.System
/-! End-to-end properties of a client and a server joined by order-preserving links: C45, C74. -/

namespace PRpc.Props

open Spec

variable {V E SC Ctx : Type}

/-- C45 as stated: for every application accepted by `define_dispatch!` that uses what it declares and whose outgoing keys
differ at the key length given to `Server::new`, and every run of the
composed system with fewer than 2³² calls, a call that returned a reply returned the reply the handler of its endpoint gave to
its own request. -/
def c45_statement : Prop :=
  ∀ (V E SC Ctx : Type) (a : App V E SC Ctx) (S : SysCfg V E SC Ctx), define_dispatch a = .ok S.disp → Declared a S.kkind →
  KeysApart a S → Clean S →
  ∀ (ls : List (SLabel V)) (c0 : Ctx) (s : Sys V E SC Ctx), (∀ l ∈ ls, Used a l) → sys_run S ls (Sys.new c0) = some s →
    s.client.calls.length < 2 ^ 32 →
  ∀ (c : Nat) (cl : Call) (f : RpcFrame) (i : Nat), s.client.calls[c]? = some cl → result cl = some (false, f, i) →
    ∃ o ∈ s.outs, ∃ j hdr req, Carries S.enc o f ∧ RequestOf s c cl j hdr ∧ cl.rqst.header.key = .Key8 req ∧
      ReplyTo S.disp s j hdr cl.rqst.body req cl.resp_key o

/-- In whatever session and with raw calls too, a call that returned a reply frame got (a beginning of) the reply to a request
with its sequence number, or of one that a task of an earlier session gave to such a request. -/
theorem reply_from (a : App V E SC Ctx) (S : SysCfg V E SC Ctx) (hD : Receives a S.disp)
    (hdecl : Declared a S.kkind) (dout : KeysApart a S)
    (hdist : ∀ r ∈ a.endpoint_list.endpoints, short (keyLen S.kkind) r.resp ≠ short (keyLen S.kkind) a.std.error)
    {s : Sys V E SC Ctx} (inv : SysInvR a S s) {c : Nat} {cl : Call} {f : RpcFrame} {i : Nat}
    (hc : s.client.calls[c]? = some cl) (hres : result cl = some (false, f, i)) :
    ∃ o ∈ s.outs, (∃ c' cl' j hdr req, CarriesPart S.enc o f ∧ SentFor s c' cl' j hdr ∧ cl'.rqst.header.key = .Key8 req ∧
      seqVal cl'.rqst.header.seq_no = seqVal cl.rqst.header.seq_no ∧
      ReplyTo S.disp s j hdr cl'.rqst.body req cl.resp_key o) ∨
      (CarriesPart S.enc o f ∧ ∃ k j t, StaleReply S.disp s cl.resp_key o k j t ∧ seqVal t.hdr.seq_no = seqVal cl.rqst.header.seq_no) := by
  have din := hD.apart
  obtain ⟨o, ho, hcar, hkind, hkey, hseq⟩ := completed hD hdecl inv hc hres
  obtain ⟨r, hr, ek, er⟩ := inv.calls c cl hc
  have hkey : keyBytes o.frame.hdr.key = short (keyLen S.kkind) r.resp := by rw [hkey, wantKey, ← er]; rfl
  refine ⟨o, ho, ?_⟩
  cases hkind with
  | err j hdr body e _ _ _ hm => exact absurd (hkey.symm.trans hm.key) (hdist r hr)
  | out t seq b ht hm =>
    exact absurd (hkey.symm.trans hm.key)
      (apart_parts dout (List.mem_map.mpr ⟨r, hr, rfl⟩) (List.mem_map.mpr ⟨t, ht, rfl⟩))
  | reply j hdr body b req resp ht hq hp hl hrx hm hrep =>
    have e1 : resp = r.resp := apart_eq dout (List.mem_append.mpr (.inl hp))
      (List.mem_append.mpr (.inl (List.mem_map.mpr ⟨r, hr, rfl⟩))) (hm.key.symm.trans hkey)
    rw [hm.seq] at hseq
    rcases taken_origin hD hdecl inv ht with ⟨c', cl', r', k, hc', hr', ek', er', eh, eb, erx⟩ | ⟨p, pb, _, t, ht', _, erx⟩
    · have esq : hdr.seq_no = cl'.rqst.header.seq_no := by rw [eh]; rfl
      have e2 : req = r'.req := apart_eq din (List.mem_append.mpr (.inl hq))
        (List.mem_append.mpr (.inl (List.mem_map.mpr ⟨r', hr', rfl⟩))) (hrx.symm.trans (erx hl))
      refine .inl ⟨c', cl', j, hdr, r'.req, hcar, ?_, ek', by rw [← esq]; exact hseq, ?_⟩
      · obtain ⟨b, t1, t2⟩ := ht
        refine ⟨hc', ⟨b, t1, (isFrame_iff ..).mpr (by rw [← eb]; exact t2)⟩, ⟨keyLen k, ?_⟩, esq⟩
        rw [eh]
        exact (shrink_shortened cl'.rqst k).key
      · rw [er, ← e1, ← e2, ← eb]
        exact hrep
    · exact absurd (hrx.symm.trans (erx hl))
        (apart_parts din hq (List.mem_map.mpr ⟨t, ht', rfl⟩))
  | old k j t h v hsrc hlt ht hrole hm hname hresp hmsg =>
    have e1 : h.resp = r.resp := apart_eq dout (List.mem_append.mpr (.inl hresp))
      (List.mem_append.mpr (.inl (List.mem_map.mpr ⟨r, hr, rfl⟩))) (hmsg.key.symm.trans hkey)
    refine .inr ⟨hcar, k, j, t, ⟨hsrc, hlt, ht, hrole, ⟨h, hm, hname, by rw [er, e1]⟩, hmsg.seq, v, hmsg.body⟩, ?_⟩
    rw [← hmsg.seq]
    exact hseq

/-- The same for a call that is the only one with its sequence number. -/
theorem reply_own (a : App V E SC Ctx) (S : SysCfg V E SC Ctx) (hD : Receives a S.disp)
    (hdecl : Declared a S.kkind) (dout : KeysApart a S)
    (hdist : ∀ r ∈ a.endpoint_list.endpoints, short (keyLen S.kkind) r.resp ≠ short (keyLen S.kkind) a.std.error)
    {s : Sys V E SC Ctx} (inv : SysInvR a S s) {c : Nat} {cl : Call} {f : RpcFrame} {i : Nat}
    (honly : ∀ (c' : Nat) (cl' : Call), s.client.calls[c']? = some cl' →
      seqVal cl'.rqst.header.seq_no = seqVal cl.rqst.header.seq_no → c' = c)
    (hc : s.client.calls[c]? = some cl) (hres : result cl = some (false, f, i)) :
    ∃ o ∈ s.outs, (∃ j hdr req, CarriesPart S.enc o f ∧ RequestOf s c cl j hdr ∧ cl.rqst.header.key = .Key8 req ∧
      ReplyTo S.disp s j hdr cl.rqst.body req cl.resp_key o) ∨
      (CarriesPart S.enc o f ∧ ∃ k j t, StaleReply S.disp s cl.resp_key o k j t ∧ seqVal t.hdr.seq_no = seqVal cl.rqst.header.seq_no) := by
  obtain ⟨o, ho, ⟨c', cl', j, hdr, req, hcar, hs, hk, hseq, hrep⟩ | h⟩ := reply_from a S hD hdecl dout hdist inv hc hres
  · have ec : c' = c := honly c' cl' hs.call hseq
    subst ec
    have e := hc.symm.trans hs.call
    cases e
    exact ⟨o, ho, .inl ⟨j, hdr, req, hcar, ⟨hc, hs.sent, hs.key, hs.seq, fun c2 cl2 h2 e2 => honly c2 cl2 h2 (by rw [e2, hs.seq])⟩, hk, hrep⟩⟩
  · exact ⟨o, ho, .inr h⟩

/-- Typed calls have different sequence numbers. -/
theorem typed_only {a : App V E SC Ctx} {S : SysCfg V E SC Ctx} {s : Sys V E SC Ctx} (inv : SysInv a S s)
    (hlen : s.client.calls.length < 2 ^ 32) {c : Nat} {cl : Call} (hc : s.client.calls[c]? = some cl) :
    ∀ (c' : Nat) (cl' : Call), s.client.calls[c']? = some cl' →
      seqVal cl'.rqst.header.seq_no = seqVal cl.rqst.header.seq_no → c' = c := by
  have typed : ∀ x ∈ s.client.calls, x.typed = true := by
    intro x hx
    obtain ⟨n, hn⟩ := List.mem_iff_getElem?.mp hx
    exact inv.typed n x hn
  intro c2 cl2 h2 e2
  by_cases hne : c2 = c
  · exact hne
  · exact absurd e2 (c37_sequence_condition inv.reach typed hlen hc c2 cl2 hne h2)

/-- In whatever session, a call that returned a reply frame got (a beginning of) the reply to its own request, or of one that a task
of an earlier session gave to a request with the same sequence number. -/
theorem reply_begins (a : App V E SC Ctx) (S : SysCfg V E SC Ctx) (hD : Receives a S.disp)
    (hdecl : Declared a S.kkind) (dout : KeysApart a S)
    (hdist : ∀ r ∈ a.endpoint_list.endpoints, short (keyLen S.kkind) r.resp ≠ short (keyLen S.kkind) a.std.error)
    {s : Sys V E SC Ctx} (inv : SysInv a S s)
    (hlen : s.client.calls.length < 2 ^ 32) {c : Nat} {cl : Call} {f : RpcFrame} {i : Nat}
    (hc : s.client.calls[c]? = some cl) (hres : result cl = some (false, f, i)) :
    ∃ o ∈ s.outs, (∃ j hdr req, CarriesPart S.enc o f ∧ RequestOf s c cl j hdr ∧ cl.rqst.header.key = .Key8 req ∧
      ReplyTo S.disp s j hdr cl.rqst.body req cl.resp_key o) ∨
      (CarriesPart S.enc o f ∧ ∃ k j t, StaleReply S.disp s cl.resp_key o k j t ∧ seqVal t.hdr.seq_no = seqVal cl.rqst.header.seq_no) :=
  reply_own a S hD hdecl dout hdist inv (typed_only inv hlen hc) hc hres

/-- C74, replies: over a link on which a failed send leaves a beginning of its frame, a call that returned a reply frame got
the reply the handler of its endpoint gave to its own request, or a beginning of that reply with the header whole. -/
theorem c74_reply_begins (a : App V E SC Ctx) (S : SysCfg V E SC Ctx) (hD : define_dispatch a = .ok S.disp)
    (hdecl : Declared a S.kkind) (dout : KeysApart a S)
    (hdist : ∀ r ∈ a.endpoint_list.endpoints, short (keyLen S.kkind) r.resp ≠ short (keyLen S.kkind) a.std.error)
    {ls : List (SLabel V)} {c0 : Ctx} {s : Sys V E SC Ctx} (hu : ∀ l ∈ ls, Used a l) (hrun : sys_run S ls (Sys.new c0) = some s)
    (hlen : s.client.calls.length < 2 ^ 32) {c : Nat} {cl : Call} {f : RpcFrame} {i : Nat}
    (hc : s.client.calls[c]? = some cl) (hres : result cl = some (false, f, i)) :
    ∃ o ∈ s.outs, ∃ j hdr req, CarriesPart S.enc o f ∧ RequestOf s c cl j hdr ∧ cl.rqst.header.key = .Key8 req ∧
      ReplyTo S.disp s j hdr cl.rqst.body req cl.resp_key o := by
  obtain ⟨o, ho, ⟨j, hdr, req, h⟩ | ⟨_, k, j, t, h, _⟩⟩ := reply_begins a S hD hdecl dout hdist (sys_run_inv hrun hu (sysInv_new a S c0)) hlen hc hres
  · exact ⟨o, ho, j, hdr, req, h⟩
  · have := h.earlier
    rw [sys_run_new_old hrun] at this
    exact absurd this (Nat.not_lt_zero _)

/-- The same for errors, in whatever session and with raw calls too: they are for messages of this one. -/
theorem error_from (a : App V E SC Ctx) (S : SysCfg V E SC Ctx) (hD : Routes a S.disp)
    (hdecl : Declared a S.kkind) (hcfg : S.cfg.err_key = a.std.error)
    (hdist : ∀ r ∈ a.endpoint_list.endpoints, short (keyLen S.kkind) r.resp ≠ short (keyLen S.kkind) a.std.error)
    (hdist' : ∀ t ∈ a.topic_out_list.topics, short (keyLen S.kkind) t.key ≠ short (keyLen S.kkind) a.std.error)
    {s : Sys V E SC Ctx} (inv : SysInvR a S s) {c : Nat} {cl : Call} {f : RpcFrame} {i : Nat}
    (hc : s.client.calls[c]? = some cl) (hres : result cl = some (true, f, i)) :
    ∃ o ∈ s.outs, ∃ j hdr e, CarriesPart S.enc o f ∧ o.src = .req j ∧ IsMsg S.kkind a.std.error hdr.seq_no (.err e) o.frame ∧
      ((∃ c' cl', SentFor s c' cl' j hdr ∧ seqVal cl'.rqst.header.seq_no = seqVal cl.rqst.header.seq_no ∧
          ∃ r ∈ a.endpoint_list.endpoints, cl'.rqst.header.key = .Key8 r.req ∧
          (LongEnough S.disp hdr → rxShort S.disp hdr = short (keyLen S.disp.n) r.req)) ∨
        ∃ (p : Nat) (pb : Pub) (b body : Bytes), s.client.pubs[p]? = some pb ∧ s.client.tx[j]? = some b ∧ IsFrame b hdr body ∧
          hdr.seq_no = pb.orig.header.seq_no ∧ seqVal pb.orig.header.seq_no = seqVal cl.rqst.header.seq_no) := by
  obtain ⟨o, ho, hcar, hkind, hkey, hseq⟩ := completed hD hdecl inv hc hres
  have hkey : keyBytes o.frame.hdr.key = short (keyLen S.kkind) a.std.error := by rw [hkey, wantKey, ← hcfg]; rfl
  refine ⟨o, ho, ?_⟩
  cases hkind with
  | out t seq b ht hm => exact absurd (hm.key.symm.trans hkey) (hdist' t ht)
  | reply j hdr body b req resp ht hq hp hl hrx hm hrep =>
    obtain ⟨r, hr, e⟩ := List.mem_map.mp hp
    rw [← e] at hm
    exact absurd (hm.key.symm.trans hkey) (hdist r hr)
  | old k j t h v hsrc hlt ht hrole hm hname hresp hmsg =>
    obtain ⟨r, hr, e⟩ := List.mem_map.mp hresp
    rw [← e] at hmsg
    exact absurd (hmsg.key.symm.trans hkey) (hdist r hr)
  | err j hdr body e hsrc ht _ hm =>
    refine ⟨j, hdr, e, hcar, hsrc, hD.std ▸ hm, ?_⟩
    rw [hm.seq] at hseq
    have ht2 := ht
    obtain ⟨b, t1, t2⟩ := ht2
    rcases taken_origin hD hdecl inv ht with ⟨c', cl', r', k, hc', hr', ek', er', eh, eb, erx⟩ | ⟨p, pb, hp, t, ht', es, erx⟩
    · have esq : hdr.seq_no = cl'.rqst.header.seq_no := by rw [eh]; rfl
      refine .inl ⟨c', cl', ⟨hc', ⟨b, t1, (isFrame_iff ..).mpr (by rw [← eb]; exact t2)⟩, ⟨keyLen k, ?_⟩, esq⟩, by rw [← esq]; exact hseq, r', hr', ek', erx⟩
      rw [eh]
      exact (shrink_shortened cl'.rqst k).key
    · exact .inr ⟨p, pb, b, body, hp, t1, (isFrame_iff ..).mpr t2, es, by rw [← es]; exact hseq⟩

/-- The same for errors, in whatever session: they are for messages of this one. -/
theorem error_message (a : App V E SC Ctx) (S : SysCfg V E SC Ctx) (hD : Routes a S.disp)
    (hdecl : Declared a S.kkind) (hcfg : S.cfg.err_key = a.std.error)
    (hdist : ∀ r ∈ a.endpoint_list.endpoints, short (keyLen S.kkind) r.resp ≠ short (keyLen S.kkind) a.std.error)
    (hdist' : ∀ t ∈ a.topic_out_list.topics, short (keyLen S.kkind) t.key ≠ short (keyLen S.kkind) a.std.error)
    {s : Sys V E SC Ctx} (inv : SysInv a S s)
    (hlen : s.client.calls.length < 2 ^ 32) {c : Nat} {cl : Call} {f : RpcFrame} {i : Nat}
    (hc : s.client.calls[c]? = some cl) (hres : result cl = some (true, f, i)) :
    ∃ o ∈ s.outs, ∃ j hdr e, CarriesPart S.enc o f ∧ o.src = .req j ∧ IsMsg S.kkind a.std.error hdr.seq_no (.err e) o.frame ∧
      ((RequestOf s c cl j hdr ∧ ∃ r ∈ a.endpoint_list.endpoints, cl.rqst.header.key = .Key8 r.req ∧
          (LongEnough S.disp hdr → rxShort S.disp hdr = short (keyLen S.disp.n) r.req)) ∨
        ∃ (p : Nat) (pb : Pub) (b body : Bytes), s.client.pubs[p]? = some pb ∧ s.client.tx[j]? = some b ∧ IsFrame b hdr body ∧
          hdr.seq_no = pb.orig.header.seq_no ∧ seqVal pb.orig.header.seq_no = seqVal cl.rqst.header.seq_no) := by
  obtain ⟨o, ho, j, hdr, e, h1, h2, h3, ⟨c', cl', hs, hseq, h4⟩ | h4⟩ := error_from a S hD hdecl hcfg hdist hdist' inv hc hres
  · have honly := typed_only inv hlen hc
    have ec : c' = c := honly c' cl' hs.call hseq
    subst ec
    have ee := hc.symm.trans hs.call
    cases ee
    exact ⟨o, ho, j, hdr, e, h1, h2, h3,
      .inl ⟨⟨hc, hs.sent, hs.key, hs.seq, fun c2 cl2 h2 e2 => honly c2 cl2 h2 (by rw [e2, hs.seq])⟩, h4⟩⟩
  · exact ⟨o, ho, j, hdr, e, h1, h2, h3, .inr h4⟩

/-- The same, without what is known of the keys. -/
theorem error_begins (a : App V E SC Ctx) (S : SysCfg V E SC Ctx) (hD : Routes a S.disp)
    (hdecl : Declared a S.kkind) (hcfg : S.cfg.err_key = a.std.error)
    (hdist : ∀ r ∈ a.endpoint_list.endpoints, short (keyLen S.kkind) r.resp ≠ short (keyLen S.kkind) a.std.error)
    (hdist' : ∀ t ∈ a.topic_out_list.topics, short (keyLen S.kkind) t.key ≠ short (keyLen S.kkind) a.std.error)
    {s : Sys V E SC Ctx} (inv : SysInv a S s)
    (hlen : s.client.calls.length < 2 ^ 32) {c : Nat} {cl : Call} {f : RpcFrame} {i : Nat}
    (hc : s.client.calls[c]? = some cl) (hres : result cl = some (true, f, i)) :
    ∃ o ∈ s.outs, ∃ j hdr e, CarriesPart S.enc o f ∧ o.src = .req j ∧ o.frame.body = .err e ∧
      (RequestOf s c cl j hdr ∨
        ∃ (p : Nat) (pb : Pub) (b body : Bytes), s.client.pubs[p]? = some pb ∧ s.client.tx[j]? = some b ∧ IsFrame b hdr body ∧
          hdr.seq_no = pb.orig.header.seq_no ∧ seqVal pb.orig.header.seq_no = seqVal cl.rqst.header.seq_no) := by
  obtain ⟨o, ho, j, hdr, e, h1, h2, h3, h4⟩ := error_message a S hD hdecl hcfg hdist hdist' inv hlen hc hres
  exact ⟨o, ho, j, hdr, e, h1, h2, h3.body, h4.imp (·.1) id⟩

/-- C74, errors: over such a link a call that returned an error frame got an error the server sent for a frame with the call's
sequence number, or a beginning of it: for
the call's own request or, as publications take any sequence number, a publication. -/
theorem c74_error_begins (a : App V E SC Ctx) (S : SysCfg V E SC Ctx) (hD : define_dispatch a = .ok S.disp)
    (hdecl : Declared a S.kkind) (hcfg : S.cfg.err_key = a.std.error)
    (hdist : ∀ r ∈ a.endpoint_list.endpoints, short (keyLen S.kkind) r.resp ≠ short (keyLen S.kkind) a.std.error)
    (hdist' : ∀ t ∈ a.topic_out_list.topics, short (keyLen S.kkind) t.key ≠ short (keyLen S.kkind) a.std.error)
    {ls : List (SLabel V)} {c0 : Ctx} {s : Sys V E SC Ctx} (hu : ∀ l ∈ ls, Used a l) (hrun : sys_run S ls (Sys.new c0) = some s)
    (hlen : s.client.calls.length < 2 ^ 32) {c : Nat} {cl : Call} {f : RpcFrame} {i : Nat}
    (hc : s.client.calls[c]? = some cl) (hres : result cl = some (true, f, i)) :
    ∃ o ∈ s.outs, ∃ j hdr e, CarriesPart S.enc o f ∧ o.src = .req j ∧ o.frame.body = .err e ∧
      (RequestOf s c cl j hdr ∨
        ∃ (p : Nat) (pb : Pub) (b body : Bytes), s.client.pubs[p]? = some pb ∧ s.client.tx[j]? = some b ∧ IsFrame b hdr body ∧
          hdr.seq_no = pb.orig.header.seq_no ∧ seqVal pb.orig.header.seq_no = seqVal cl.rqst.header.seq_no) :=
  error_begins a S hD hdecl hcfg hdist hdist' (sys_run_inv hrun hu (sysInv_new a S c0)) hlen hc hres

/-- C45 for applications in which the shortened error key differs from every shortened response key.  Missing: the macro does
not check this (see C44). -/
theorem c45_end_to_end_partial (a : App V E SC Ctx) (S : SysCfg V E SC Ctx) (hD : define_dispatch a = .ok S.disp)
    (hdecl : Declared a S.kkind) (hapart : KeysApart a S) (hclean : Clean S)
    (hdist : ∀ r ∈ a.endpoint_list.endpoints, short (keyLen S.kkind) r.resp ≠ short (keyLen S.kkind) a.std.error)
    {ls : List (SLabel V)} {c0 : Ctx} {s : Sys V E SC Ctx} (hu : ∀ l ∈ ls, Used a l) (hrun : sys_run S ls (Sys.new c0) = some s)
    (hlen : s.client.calls.length < 2 ^ 32) {c : Nat} {cl : Call} {f : RpcFrame} {i : Nat}
    (hc : s.client.calls[c]? = some cl) (hres : result cl = some (false, f, i)) :
    ∃ o ∈ s.outs, ∃ j hdr req, Carries S.enc o f ∧ RequestOf s c cl j hdr ∧ cl.rqst.header.key = .Key8 req ∧
      ReplyTo S.disp s j hdr cl.rqst.body req cl.resp_key o := by
  obtain ⟨o, ho, j, hdr, req, h1, h2⟩ := c74_reply_begins a S hD hdecl hapart hdist hu hrun hlen hc hres
  have inv := sys_run_inv hrun hu (sysInv_new a S c0)
  exact ⟨o, ho, j, hdr, req, h1.whole (clean_whole hclean inv ho h1), h2⟩

/-- C45, errors: a call that returned an error frame got an error the server sent for a frame with the call's sequence number:
the call's own request or, as publications take any sequence number, a publication. -/
theorem c45_end_to_end_errors_partial (a : App V E SC Ctx) (S : SysCfg V E SC Ctx) (hD : define_dispatch a = .ok S.disp)
    (hdecl : Declared a S.kkind) (hclean : Clean S) (hcfg : S.cfg.err_key = a.std.error)
    (hdist : ∀ r ∈ a.endpoint_list.endpoints, short (keyLen S.kkind) r.resp ≠ short (keyLen S.kkind) a.std.error)
    (hdist' : ∀ t ∈ a.topic_out_list.topics, short (keyLen S.kkind) t.key ≠ short (keyLen S.kkind) a.std.error)
    {ls : List (SLabel V)} {c0 : Ctx} {s : Sys V E SC Ctx} (hu : ∀ l ∈ ls, Used a l) (hrun : sys_run S ls (Sys.new c0) = some s)
    (hlen : s.client.calls.length < 2 ^ 32) {c : Nat} {cl : Call} {f : RpcFrame} {i : Nat}
    (hc : s.client.calls[c]? = some cl) (hres : result cl = some (true, f, i)) :
    ∃ o ∈ s.outs, ∃ j hdr e, Carries S.enc o f ∧ o.src = .req j ∧ o.frame.body = .err e ∧
      (RequestOf s c cl j hdr ∨
        ∃ (p : Nat) (pb : Pub) (b body : Bytes), s.client.pubs[p]? = some pb ∧ s.client.tx[j]? = some b ∧ IsFrame b hdr body ∧
          hdr.seq_no = pb.orig.header.seq_no ∧ seqVal pb.orig.header.seq_no = seqVal cl.rqst.header.seq_no) := by
  obtain ⟨o, ho, j, hdr, e, h1, h2⟩ := c74_error_begins a S hD hdecl hcfg hdist hdist' hu hrun hlen hc hres
  have inv := sys_run_inv hrun hu (sysInv_new a S c0)
  exact ⟨o, ho, j, hdr, e, h1.whole (clean_whole hclean inv ho h1), h2⟩

/-! ### A concrete system -/

/-- `exApp` with the topic its asynchronous topic handler publishes declared, and an incoming topic without handler. -/
def exSysApp : App Nat WireTxErrorKind Nat Nat :=
  { exApp with
    topic_in_list := ⟨.ToServer, [], [⟨[], exKey 6#8⟩, ⟨[], exKey 7#8⟩, ⟨[], exKey 8#8⟩]⟩
    topic_out_list := ⟨.ToClient, [], [⟨[], exKey 0x90#8⟩, ⟨[], exKey 0x91#8⟩, ⟨[], exKey 0x95#8⟩]⟩ }

def exSysDisp : Dispatcher Nat WireTxErrorKind Nat Nat :=
  { exDisp with device_map := ⟨[], exSysApp.endpoint_list.endpoints, exSysApp.topic_in_list.topics, exSysApp.topic_out_list.topics, .Key1⟩ }

theorem exSysApp_ok : define_dispatch exSysApp = .ok exSysDisp := by
  have h : needed_sz exSysApp.sizer = .ok 1 := by decide +kernel
  unfold define_dispatch
  rw [h]
  simp only [Exec.ok_bind, kind_of_sz, if_true, merge_types_eq]
  rfl

/-- A serializer good enough for the examples. -/
def exEnc : Body Nat → Bytes
  | .val v => [BitVec.ofNat 8 v]
  | .err _ => [0xEE]
  | _ => [0xAA]

def exSys : SysCfg Nat WireTxErrorKind Nat Nat := ⟨⟨.Seq4, exKey 0xE0#8, 8, false⟩, exSysDisp, .Key1, exEnv, id, exEnc, fun _ _ => 0⟩

/-- Starting call `c`. -/
def sysCall (c : Nat) (req resp : Byte) (body : Bytes) : List (SLabel Nat) :=
  [.client (.call_begin (exKey req) (exKey resp) body), .client (.call_kind c), .client (.call_reg_ok c),
    .client (.call_reg_err c), .client (.call_send c)]

/-- The client's transmit worker sends one frame. -/
def sysSend : List (SLabel Nat) := [.client .out_poll, .client .out_recv, .client (.out_done true), .client .out_yield]

/-- The client receives a frame and gives it to the waiter `w`. -/
def sysRecv (b : Bytes) (w : Option WaitId) : List (SLabel Nat) :=
  [.client .in_poll, .client (.in_recv (some b)), .client .in_lookup, .client (.in_wake w), .client .in_yield]

/-- Two calls of the spawned endpoint and one of the blocking one; the second task replies first, the blocking call in
between. -/
def exSysRun : List (SLabel Nat) :=
  sysCall 0 5#8 0x85#8 [1] ++ sysCall 1 5#8 0x85#8 [2] ++ sysCall 2 3#8 0x83#8 [7] ++ sysSend ++ sysSend ++ sysSend ++
  [.serve, .serve, .task_reply 1 22, .serve, .flush, .task_reply 0 11] ++
  sysRecv [0x20, 0x85, 1, 0, 0, 0, 22] (some ⟨1, false⟩) ++ sysRecv [0x20, 0x83, 2, 0, 0, 0, 0xCF] (some ⟨2, false⟩) ++
  sysRecv [0x20, 0x85, 0, 0, 0, 0, 11] (some ⟨0, false⟩) ++ [.client (.call_ok 0), .client (.call_ok 1), .client (.call_ok 2)]

/-- Every call of the run gets the reply to its own request. -/
theorem exSysRun_result : (sys_run exSys exSysRun (Sys.new 0)).map (fun s => (s.client.calls.map result, s.outs.map Out.src)) =
    some ([some (false, ⟨⟨.Key1 ⟨0x85⟩, .Seq4 0⟩, [11]⟩, 2), some (false, ⟨⟨.Key1 ⟨0x85⟩, .Seq4 1⟩, [22]⟩, 0),
      some (false, ⟨⟨.Key1 ⟨0x83⟩, .Seq4 2⟩, [0xCF]⟩, 1)], [.task 1, .req 2, .task 0]) := by
  decide +kernel

instance decUsed (l : SLabel Nat) : Decidable (Used exSysApp l) := by
  cases l with
  | client l => cases l <;> simp only [Used] <;> infer_instance
  | _ => simp only [Used] <;> infer_instance

theorem exSysApp_declared : Declared exSysApp .Key1 where
  ping := by decide
  schemas := by decide
  schema_topic := by decide
  names := by decide
  sends := by
    intro t ht g hg c hdr v fr hm
    simp only [exSysApp, exApp, List.mem_cons, List.not_mem_nil, or_false] at ht
    rcases ht with rfl | rfl
    · cases hg
    · cases hg
      cases hm with
      | now => exact ⟨⟨[], exKey 0x95#8⟩, by decide, hdr.seq_no, .val v, rfl, rfl, rfl⟩
      | later _ _ _ _ h => cases h

theorem exSysApp_apart : KeysApart exSysApp exSys :=
  apart_of_distinct (c10_dispatcher_key_length _ _ (define_dispatch_ok exSysApp_ok).1).2.2.1

/-- The theorem applies to the run. -/
example : define_dispatch exSysApp = .ok exSys.disp ∧ Declared exSysApp exSys.kkind ∧ KeysApart exSysApp exSys ∧ Clean exSys ∧
    (∀ r ∈ exSysApp.endpoint_list.endpoints, short (keyLen exSys.kkind) r.resp ≠ short (keyLen exSys.kkind) exSysApp.std.error) ∧
    (∀ l ∈ exSysRun, Used exSysApp l) ∧ ∃ s, sys_run exSys exSysRun (Sys.new 0) = some s ∧ s.client.calls.length < 2 ^ 32 ∧
      ∃ cl, s.client.calls[0]? = some cl ∧ result cl = some (false, ⟨⟨.Key1 ⟨0x85⟩, .Seq4 0⟩, [11]⟩, 2) := by
  refine ⟨exSysApp_ok, exSysApp_declared, exSysApp_apart, fun _ _ => rfl, by decide, by decide, ?_⟩
  obtain ⟨s, e1, e2⟩ := Option.map_eq_some_iff.mp exSysRun_result
  simp only [Prod.mk.injEq] at e2
  have hl : s.client.calls.length = 3 := by simpa using congrArg List.length e2.1
  refine ⟨s, e1, by omega, ?_⟩
  have : (s.client.calls.map result)[0]? = some (some (false, ⟨⟨.Key1 ⟨0x85⟩, .Seq4 0⟩, [11]⟩, 2)) := by rw [e2.1]; rfl
  rw [List.getElem?_map] at this
  exact Option.map_eq_some_iff.mp this

/-- A call with a body its handler cannot decode. -/
def exErrRun : List (SLabel Nat) :=
  sysCall 0 3#8 0x83#8 [1, 2] ++ sysSend ++ [.serve, .flush] ++ sysRecv [0x20, 0xE0, 0, 0, 0, 0, 0xEE] (some ⟨0, true⟩) ++
  [.client (.call_err 0)]

theorem exErrRun_result : (sys_run exSys exErrRun (Sys.new 0)).map (fun s => (s.client.calls.map result, s.outs.map Out.src)) =
    some ([some (true, ⟨⟨.Key1 ⟨0xE0⟩, .Seq4 0⟩, [0xEE]⟩, 0)], [.req 0]) := by decide +kernel

example : exSys.cfg.err_key = exSysApp.std.error ∧
    (∀ t ∈ exSysApp.topic_out_list.topics, short (keyLen exSys.kkind) t.key ≠ short (keyLen exSys.kkind) exSysApp.std.error) ∧
    ∀ l ∈ exErrRun, Used exSysApp l := by
  refine ⟨rfl, by decide, by decide⟩

/-- The second alternative of the errors theorem happens: the call of endpoint 5 is still being worked on when a publication
with the same sequence number, of a declared topic that has no handler, makes it fail. -/
def exPubRun : List (SLabel Nat) :=
  sysCall 0 5#8 0x85#8 [1] ++ [.client (.pub_begin ⟨⟨.Key8 (exKey 8#8), .Seq4 0⟩, []⟩), .client (.pub_send 0)] ++ sysSend ++ sysSend ++
  [.serve, .serve, .flush] ++ sysRecv [0x20, 0xE0, 0, 0, 0, 0, 0xEE] (some ⟨0, true⟩) ++ [.client (.call_err 0)]

theorem c45_publication_fails_call : (∀ l ∈ exPubRun, Used exSysApp l) ∧
    (sys_run exSys exPubRun (Sys.new 0)).map (fun s => (s.client.calls.map result, s.outs.map Out.src, s.tasks.length)) =
      some ([some (true, ⟨⟨.Key1 ⟨0xE0⟩, .Seq4 0⟩, [0xEE]⟩, 0)], [.req 1], 1) :=
  ⟨by decide, by decide +kernel⟩

/-! ### The counterexample -/

/-- The application with an error key that agrees with the first endpoint's response key in its one-byte form. -/
def exSysClash : App Nat WireTxErrorKind Nat Nat :=
  { exSysApp with std := { exStd with error := ⟨0#8, 0x83#8, 0#8, 0#8, 0#8, 0#8, 0#8, 0#8⟩ } }

def exClashSys : SysCfg Nat WireTxErrorKind Nat Nat :=
  { exSys with
    cfg := ⟨.Seq4, ⟨0#8, 0x83#8, 0#8, 0#8, 0#8, 0#8, 0#8, 0#8⟩, 8, false⟩
    disp := { exSysDisp with std := exSysClash.std } }

theorem exSysClash_ok : define_dispatch exSysClash = .ok exClashSys.disp := by
  have h : needed_sz exSysClash.sizer = .ok 1 := by decide +kernel
  unfold define_dispatch
  rw [h]
  simp only [Exec.ok_bind, kind_of_sz, if_true, merge_types_eq]
  rfl

theorem exSysClash_declared : Declared exSysClash .Key1 :=
  ⟨by decide, by decide, by decide, by decide, exSysApp_declared.sends⟩

/-- A call with a body its handler cannot decode. -/
def exClashSysRun : List (SLabel Nat) :=
  sysCall 0 3#8 0x83#8 [1, 2] ++ sysSend ++ [.serve, .flush] ++ sysRecv [0x20, 0x83, 0, 0, 0, 0, 0xEE] (some ⟨0, false⟩) ++
  [.client (.call_ok 0)]

/-- The message is a protocol error. -/
def isErr : Body Nat → Bool
  | .err _ => true
  | _ => false

set_option synthInstance.maxSize 1000 in
/-- C45 is false: with such an error key the call returns the server's error as its reply. -/
theorem c45_end_to_end_false : ¬ c45_statement := by
  intro h
  have h0 : (sys_run exClashSys exClashSysRun (Sys.new 0)).map (fun s => (s.client.calls.map result, s.outs.map Out.src,
      s.outs.map fun o => isErr o.frame.body)) =
      some ([some (false, ⟨⟨.Key1 ⟨0x83⟩, .Seq4 0⟩, [0xEE]⟩, 0)], [.req 0], [true]) := by decide +kernel
  obtain ⟨s, e1, e2⟩ := Option.map_eq_some_iff.mp h0
  simp only [Prod.mk.injEq] at e2
  obtain ⟨e2, e3, e4⟩ := e2
  have hl : s.client.calls.length = 1 := by simpa using congrArg List.length e2
  have hr : (s.client.calls.map result)[0]? = some (some (false, ⟨⟨.Key1 ⟨0x83⟩, .Seq4 0⟩, [0xEE]⟩, 0)) := by rw [e2]; rfl
  rw [List.getElem?_map] at hr
  obtain ⟨cl, hc, hres⟩ := Option.map_eq_some_iff.mp hr
  obtain ⟨o, ho, j, hdr, req, _, _, _, hrep⟩ := h _ _ _ _ exSysClash exClashSys exSysClash_ok exSysClash_declared exSysApp_apart (fun _ _ => rfl) exClashSysRun 0 s
    (by intro l hl; have : Used exSysApp l := (by decide : ∀ l ∈ exClashSysRun, Used exSysApp l) l hl; exact this) e1 (by omega) 0 cl _ _ hc hres
  have hb : isErr o.frame.body = true := by
    have : isErr o.frame.body ∈ s.outs.map fun o => isErr o.frame.body := List.mem_map.mpr ⟨o, ho, rfl⟩
    rw [e4] at this
    exact List.mem_singleton.mp this
  cases hrep with
  | called _ _ _ _ _ _ _ _ _ _ _ _ hv => simp only at hb; rw [hv] at hb; cases hb
  | spawned _ _ _ _ _ _ _ _ _ _ _ _ _ _ hv => simp only at hb; rw [hv] at hb; cases hb
  | ping _ _ _ _ _ _ _ _ hv => simp only at hb; rw [hv] at hb; cases hb
  | schemas _ _ _ _ _ _ _ hv => simp only at hb; rw [hv] at hb; cases hb

end PRpc.Props
