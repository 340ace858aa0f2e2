import Verif.Spec.Linear
import Verif.Spec.Session
import Verif.Lemmas.Published
import Verif.Lemmas.UsbNext
/-! Helper lemmas for C107. -/

namespace PRpc

open Spec

variable {V E SC Ctx : Type}

/-! ### The context over sessions -/

theorem ctxInv_reconnect (S : SysCfg V E SC Ctx) (s : Sys V E SC Ctx) : CtxInv s.srv.ctx S s.reconnect where
  len := rfl
  first := rfl
  chain := fun j h => absurd h (Nat.not_lt_zero _)
  srcs := fun o j h => by rcases h with h | h <;> cases h
  tasks := fun i x hi h => by
    have := getElem?_lt h
    have hi : s.tasks.length ≤ i := hi
    have : i < s.tasks.length := this
    omega

theorem ctxInv_sessions {a : App V E SC Ctx} {S : SysCfg V E SC Ctx} {es : List (Sys V E SC Ctx)} {s0 : Sys V E SC Ctx}
    (h0 : Sessions a S es s0) : CtxInv s0.srv.ctx S s0 := by
  cases h0 with
  | first c => exact ctxInv_new c S
  | next es s s' ls => exact ctxInv_reconnect S s'

/-- The states in which sessions ended, each with the context its session began with. -/
theorem sessions_history {a : App V E SC Ctx} {S : SysCfg V E SC Ctx} {es : List (Sys V E SC Ctx)} {s0 : Sys V E SC Ctx}
    (h0 : Sessions a S es s0) :
    (∀ e ∈ es, ∃ c, CtxInv c S e) ∧ (∀ e, es.getLast? = some e → s0.srv.ctx = e.srv.ctx) ∧
    ∀ (k : Nat) e e', es[k]? = some e → es[k + 1]? = some e' → (contexts e')[0]? = some e.srv.ctx := by
  induction h0 with
  | first c => exact ⟨fun e h => (by cases h), fun e h => (by cases h), fun k e e' h => (by simp at h)⟩
  | next es s s' ls h0 hu hrun hlen ih =>
    obtain ⟨i1, i2, i3⟩ := ih
    have ci := sys_run_ctxInv hrun (ctxInv_sessions h0)
    refine ⟨fun e he => ?_, fun e he => ?_, fun k e e' he he' => ?_⟩
    · rcases List.mem_append.mp he with he | he
      · exact i1 e he
      · cases List.mem_singleton.mp he
        exact ⟨_, ci⟩
    · rw [List.getLast?_append] at he
      cases he
      rfl
    · rcases snoc_get he' with g' | ⟨g', rfl⟩
      · have := getElem?_lt g'
        rw [List.getElem?_append_left (by omega)] at he
        exact i3 k e e' he g'
      · rw [List.getElem?_append_left (by omega)] at he
        have : es.getLast? = some e := by rw [List.getLast?_eq_getElem?, ← g', Nat.add_sub_cancel]; exact he
        rw [← i2 e this]
        exact ci.first

/-! ### The order of requests -/

/-- What has been accepted since state `t` does not come from calls that had sent their request then. -/
structure Since (t s : Sys V E SC Ctx) : Prop where
  past : ∀ (c : Nat) (cl : Call), t.client.calls[c]? = some cl → cl.phase.past → ∃ cl', s.client.calls[c]? = some cl' ∧ cl'.phase.past
  enq : ∃ x, s.client.enq = t.client.enq ++ x
  new : ∀ (i : Nat) (f : RpcFrame), s.client.enq[i]? = some f → t.client.enq.length ≤ i →
    (∃ (c : Nat) (cl : Call) (k : VarKeyKind), s.client.calls[c]? = some cl ∧ f = cl.rqst.shrink k ∧
      ∀ cl0, t.client.calls[c]? = some cl0 → ¬ cl0.phase.past) ∨
    ∃ (p : Nat) (pb : Pub) (k : VarKeyKind), s.client.pubs[p]? = some pb ∧ f = pb.orig.shrink k

theorem Since.refl (s : Sys V E SC Ctx) : Since s s :=
  ⟨fun _ cl h hp => ⟨cl, h, hp⟩, same_nil _, fun i f h hi => by have := getElem?_lt h; omega⟩

/-- A step that leaves the client alone. -/
theorem Since.same {t s s' : Sys V E SC Ctx} (h : Since t s) (e : s'.client = s.client) : Since t s' :=
  ⟨by rw [e]; exact h.past, by rw [e]; exact h.enq, by rw [e]; exact h.new⟩

theorem since_step {S : SysCfg V E SC Ctx} {t s s' : Sys V E SC Ctx} {l : SLabel V} (hr : Reachable S.cfg s.client)
    (h : sys_step S s l = some s') (hs : Since t s) : Since t s' := by
  by_cases hcl : ∃ k, l = .client k
  · obtain ⟨k, rfl⟩ := hcl
    obtain ⟨c, air, hst, e, _⟩ := client_shape h
    have ec : s'.client = c := by rw [e]
    have he := sys_step_enq h
    refine ⟨fun n cl hn hp => ?_, ?_, fun i f hf hi => ?_⟩
    · obtain ⟨cl', h1, h2⟩ := hs.past n cl hn hp
      obtain ⟨cl'', g1, g2, _⟩ := past_calls hst h1 h2
      exact ⟨cl'', by rw [ec]; exact g1, g2⟩
    · obtain ⟨x, ex⟩ := hs.enq
      obtain ⟨y, ey⟩ := he
      exact ⟨x ++ y, by rw [ey, ex, List.append_assoc]⟩
    · rw [ec] at hf ⊢
      have keep : ∀ (n : Nat) (cl : Call), s.client.calls[n]? = some cl → ∃ cl', c.calls[n]? = some cl' ∧ cl'.rqst = cl.rqst := by
        intro n cl hn
        obtain ⟨cl', g1, g2⟩ := step_rqst hst hn
        exact ⟨cl', g1, congrArg (fun x => x.1) g2⟩
      have old : s.client.enq[i]? = some f →
          (∃ (c' : Nat) (cl : Call) (k : VarKeyKind), c.calls[c']? = some cl ∧ f = cl.rqst.shrink k ∧
            ∀ cl0, t.client.calls[c']? = some cl0 → ¬ cl0.phase.past) ∨
          ∃ (p : Nat) (pb : Pub) (k : VarKeyKind), c.pubs[p]? = some pb ∧ f = pb.orig.shrink k := by
        intro h
        rcases hs.new i f h hi with ⟨n, cl, k, h1, h2, h3⟩ | ⟨p, pb, k, h1, h2⟩
        · obtain ⟨cl', g1, g2⟩ := keep n cl h1
          exact .inl ⟨n, cl', k, g1, by rw [g2]; exact h2, h3⟩
        · obtain ⟨pb', g1, _, g3, _⟩ := step_pub_kept hst h1
          exact .inr ⟨p, pb', k, g1, by rw [g3]; exact h2⟩
      rcases step_enq hst with g | ⟨n, cl, k', _, g1, g2, g3, g⟩ | ⟨p, pb, _, g1, _, g3, g⟩
      · exact old (by rw [← g]; exact hf)
      · rw [g] at hf
        rcases snoc_get hf with hf | ⟨_, rfl⟩
        · exact old hf
        · refine .inl ⟨n, _, k', g3, rfl, fun cl0 h0 hp => ?_⟩
          obtain ⟨cl', h1, h2⟩ := hs.past n cl0 h0 hp
          rw [g1] at h1
          cases h1
          rw [g2] at h2
          exact h2
      · rw [g] at hf
        rcases snoc_get hf with hf | ⟨_, rfl⟩
        · exact old hf
        · obtain ⟨k', ek⟩ := (reachable_origin hr).1 p pb g1
          exact .inr ⟨p, _, k', g3, ek⟩
  · refine hs.same ?_
    by_cases hsv : l = .serve
    · subst hsv
      obtain ⟨_, up, srv, _, e, _⟩ := serve_handle h
      rw [e]; rfl
    · by_cases hrj : l = .reject
      · subst hrj
        simp only [sys_step, reject] at h
        split at h <;> cases h
        rfl
      · rw [(other_log h hsv hrj fun k hk => hcl ⟨k, hk⟩).1]

theorem since_run {a : App V E SC Ctx} {S : SysCfg V E SC Ctx} {t : Sys V E SC Ctx} {ls : List (SLabel V)} :
    ∀ {s s' : Sys V E SC Ctx}, SysInv a S s → (∀ l ∈ ls, Used a l) → sys_run S ls s = some s' → Since t s → Since t s' := by
  induction ls with
  | nil => intro s s' _ _ h hs; cases h; exact hs
  | cons l ls ih =>
    intro s s' inv hu h hs
    have one : ∀ {x}, sys_step S s l = some x → SysInv a S x := fun {x} hx =>
      sys_run_inv (ls := [l]) (by simp only [sys_run, hx]) (fun m hm => by
        rw [List.mem_singleton.mp hm]; exact hu l (List.mem_cons_self ..)) inv
    simp only [sys_run] at h
    split at h
    · rename_i x hx
      exact ih (one hx) (fun m hm => hu m (List.mem_cons_of_mem _ hm)) h (since_step inv.reach hx hs)
    · cases h

/-- The request of a call that had sent it is among what had been accepted. -/
theorem asked_before {a : App V E SC Ctx} {S : SysCfg V E SC Ctx} {s s' : Sys V E SC Ctx} (hD : Receives a S.disp)
    (inv' : SysInv a S s') (hlen : s'.client.calls.length < 2 ^ 32) (hs : Since s s') {c j : Nat} {cl0 : Call}
    (hc : s.client.calls[c]? = some cl0) (hp : cl0.phase.past) (ha : AskedAt S.disp s' c j) : j < s.client.enq.length := by
  rcases Nat.lt_or_ge j s.client.enq.length with hj | hj
  · exact hj
  · exfalso
    obtain ⟨cl, b, hdr, req, hc', hb, hf, hq, hk, hl, hrx⟩ := ha.asked
    obtain ⟨f, hfe, hfb⟩ := reachable_tx_at inv'.reach hb
    have e : f.header = hdr := by
      rw [RpcFrame.to_bytes, write_to_vec_eq] at hfb
      cases hfb
      have := (isFrame_iff ..).mp hf
      rw [take_enc] at this
      have := Exec.ok.inj this
      exact congrArg Prod.fst (Option.some.inj this)
    rcases hs.new j f hfe hj with ⟨c1, cl1, k, g1, g2, g3⟩ | ⟨p, pb, k, g1, g2⟩
    · have : c1 = c := calls_apart inv' hlen hc' g1 (by rw [← hq, ← e, g2]; rfl)
      subst this
      exact g3 cl0 hc hp
    · obtain ⟨t, ht, et⟩ := inv'.pubs p pb g1
      obtain ⟨r, hr, ek, _⟩ := inv'.calls c cl hc'
      rw [hk] at ek
      cases ek
      have : rxShort S.disp hdr = short (keyLen S.disp.n) t.key :=
        rxShort_of_long hl (k := k) (by rw [← e, g2]; exact shrink8_key _ _ et)
      exact absurd (hrx.symm.trans this)
        (apart_parts hD.apart (List.mem_map.mpr ⟨r, hr, rfl⟩) (List.mem_map.mpr ⟨t, ht, rfl⟩))

theorem result_past {cl : Call} {r : Bool × RpcFrame × Nat} (h : result cl = some r) : cl.phase.past := by
  unfold result at h
  split at h
  · rename_i e; rw [e]; trivial
  · rename_i e; rw [e]; trivial
  · cases h

end PRpc
