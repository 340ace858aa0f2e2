import Verif.Lemmas.Workbook
/-! Helper lemma for C95 and C96: what a `ping` that returned a number returned. -/

namespace PRpc

open Spec

theorem same_sig {cs cs' : List Call} (e : cs'.map Call.sig = cs.map Call.sig) {c : Nat} {cl : Call} (h : cs'[c]? = some cl) :
    ∃ cl0, cs[c]? = some cl0 ∧ cl0.rqst = cl.rqst := by
  have h1 : (cs'.map Call.sig)[c]? = some cl.sig := by rw [List.getElem?_map, h]; rfl
  rw [e, List.getElem?_map, Option.map_eq_some_iff] at h1
  obtain ⟨cl0, a, b⟩ := h1
  simp only [Call.sig, Prod.mk.injEq] at b
  exact ⟨cl0, a, b.1⟩

/-- What answers a `ping` is the number asked with. -/
theorem ping_body {V E SC Ctx : Type} {a : App V E SC Ctx} {S : SysCfg V E SC Ctx} (hD : Dispatches a S.disp) (hdecl : Declared a S.kkind)
    (hap : KeysApart a S)
    (hdist : ∀ r ∈ a.endpoint_list.endpoints, short (keyLen S.kkind) r.resp ≠ short (keyLen S.kkind) a.std.error)
    (hkey : a.std.schemas_req ≠ a.std.ping_req) {val : BitVec 32 → V}
    (hping : S.disp.ping_decode = fun b => (from_bytes take_u32 b).map val)
    {s : Sys V E SC Ctx} (inv : SysInv a S s) (hold : s.old = 0) (hlen : s.client.calls.length < 2 ^ 32) {c : Nat} {cl : Call} {f : RpcFrame}
    {i : Nat} {n : BitVec 32} (hc : s.client.calls[c]? = some cl) (hrq : cl.rqst.header.key = .Key8 a.std.ping_req)
    (hbody : cl.rqst.body = enc_u32 n) (hres : cl.phase = .done (.Resp f i)) :
    ∃ o ∈ s.outs, CarriesPart S.enc o f ∧ o.frame.body = .val (val n) := by
  obtain ⟨o, ho, ⟨j, hdr, req, h1, h2, h3, h4⟩ | ⟨_, k, j, t, h2, _⟩⟩ :=
    Props.reply_begins a S hD hdecl hap hdist inv hlen hc (f := f) (i := i) (by rw [result, hres])
  · rw [hrq] at h3
    cases h3
    have std : ∀ {h : EpHandler V Ctx}, ForEndpoint S.disp hdr h → h.req = a.std.ping_req → o.frame.body = .val (val n) := by
      intro h hh hq
      have := hh.here
      rw [hq, ← hD.std] at this
      exact absurd this hh.notStd.1
    refine ⟨o, ho, h1, ?_⟩
    cases h4 with
    | called h g v ctx fr cut hh hq => exact std hh hq
    | spawned h v w i sc fr cut hh hq => exact std hh hq
    | ping v fr cut _ _ _ _ hd hfr =>
      rw [hping, hbody] at hd
      simp only [reads_from (reads_u32 n)] at hd
      cases hd
      exact hfr
    | schemas t fr cut _ _ hq => exact absurd hq (by rw [hD.std]; exact hkey)
  · have := h2.earlier
    rw [hold] at this
    exact absurd this (Nat.not_lt_zero _)

theorem ping_value {V E SC Ctx : Type} {a : App V E SC Ctx} {S : SysCfg V E SC Ctx} (hD : Dispatches a S.disp) (hdecl : Declared a S.kkind)
    (hap : KeysApart a S)
    (hdist : ∀ r ∈ a.endpoint_list.endpoints, short (keyLen S.kkind) r.resp ≠ short (keyLen S.kkind) a.std.error)
    (hkey : a.std.schemas_req ≠ a.std.ping_req) {val : BitVec 32 → V}
    (hping : S.disp.ping_decode = fun b => (from_bytes take_u32 b).map val) (hval : ∀ n, S.enc (.val (val n)) = enc_u32 n)
    {s : Sys V E SC Ctx} (inv : SysInv a S s) (hold : s.old = 0) (hlen : s.client.calls.length < 2 ^ 32) {c : Nat} {cl : Call} {f : RpcFrame}
    {i : Nat} {n v : BitVec 32} (hc : s.client.calls[c]? = some cl) (hrq : cl.rqst.header.key = .Key8 a.std.ping_req)
    (hbody : cl.rqst.body = enc_u32 n) (hres : cl.phase = .done (.Resp f i)) (hv : from_bytes take_u32 f.body = some v) : v = n := by
  obtain ⟨o, ho, h1, hb⟩ := ping_body hD hdecl hap hdist hkey hping inv hold hlen hc hrq hbody hres
  have hu : Understood (from_bytes take_u32) (enc_u32 n) n := understood_of local_u32 (reads_u32 n)
  obtain ⟨k, e⟩ := h1.begins.2
  rw [hb, hval] at e
  have hfull := hu.1 []
  rw [List.append_nil] at hfull
  cases k with
  | nil =>
    rw [List.append_nil] at e
    rw [e, hfull] at hv
    exact (Option.some.inj hv).symm
  | cons x k =>
    have hcut := hu.2 f.body.length (by rw [← e, List.length_append, List.length_cons]; omega)
    rw [← e, List.take_left, hv] at hcut
    cases hcut

end PRpc
