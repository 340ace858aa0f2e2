import Verif.Spec.Linear
import Verif.Lemmas.System
import Verif.Props.Context
/-! Helper lemmas for C88. -/

namespace PRpc

open Spec

variable {V E SC Ctx : Type}

/-! ### Each request is sent once -/

/-- Where an accepted frame comes from: a call that has sent its request, or a publication. -/
def FromOk (s : Client) (f : RpcFrame) : Option Nat → Prop
  | some c => ∃ cl k, s.calls[c]? = some cl ∧ cl.phase.past ∧ f = cl.rqst.shrink k
  | none => ∃ (p : Nat) (pb : Pub) (k : VarKeyKind), s.pubs[p]? = some pb ∧ f = pb.orig.shrink k

/-- The accepted frames with their origins, no call twice. -/
def OriginInv (s : Client) : Prop :=
  (∀ (p : Nat) (pb : Pub), s.pubs[p]? = some pb → ∃ k, pb.frame = pb.orig.shrink k) ∧
  ∃ og : List (Option Nat), og.length = s.enq.length ∧
    (∀ (i : Nat) f o, s.enq[i]? = some f → og[i]? = some o → FromOk s f o) ∧
    ∀ (i i' c : Nat), og[i]? = some (some c) → og[i']? = some (some c) → i = i'

theorem past_calls {cfg : Cfg} {s s' : Client} {l : Label} (h : step cfg s l = some s') {c : Nat} {cl : Call}
    (hc : s.calls[c]? = some cl) (hp : cl.phase.past) : ∃ cl', s'.calls[c]? = some cl' ∧ cl'.phase.past ∧ cl'.rqst = cl.rqst := by
  obtain ⟨cl', h1, h2⟩ := past_step (step_core h) (c := c) ⟨cl, hc, hp⟩
  obtain ⟨cl'', g1, g2⟩ := step_rqst h hc
  have h1 : s'.calls[c]? = some cl' := h1
  rw [h1] at g1
  cases g1
  exact ⟨cl', h1, h2, congrArg (fun x => x.1) g2⟩

theorem fromOk_step {cfg : Cfg} {s s' : Client} {l : Label} (h : step cfg s l = some s') {f : RpcFrame} {o : Option Nat}
    (hf : FromOk s f o) : FromOk s' f o := by
  cases o with
  | some c =>
    obtain ⟨cl, k, h1, h2, h3⟩ := hf
    obtain ⟨cl', g1, g2, g3⟩ := past_calls h h1 h2
    exact ⟨cl', k, g1, g2, by rw [g3]; exact h3⟩
  | none =>
    obtain ⟨p, pb, k, h1, h2⟩ := hf
    obtain ⟨pb', g1, _, g3, _⟩ := step_pub_kept h h1
    exact ⟨p, pb', k, g1, by rw [g3]; exact h2⟩

theorem getElem?_lt {α : Type} {l : List α} {i : Nat} {a : α} (h : l[i]? = some a) : i < l.length := by
  rcases Nat.lt_or_ge i l.length with h' | h'
  · exact h'
  · rw [List.getElem?_eq_none h'] at h; cases h

theorem snoc_get {α : Type} {l : List α} {x a : α} {i : Nat} (h : (l ++ [x])[i]? = some a) :
    l[i]? = some a ∨ (i = l.length ∧ a = x) := by
  rcases Nat.lt_or_ge i l.length with hi | hi
  · rw [List.getElem?_append_left hi] at h; exact .inl h
  · have := getElem?_lt h
    rw [List.length_append] at this
    have e : i = l.length := by simp only [List.length_singleton] at this; omega
    subst e
    simp at h
    exact .inr ⟨rfl, h.symm⟩

theorem reachable_origin {cfg : Cfg} {s : Client} (hr : Reachable cfg s) : OriginInv s := by
  refine reachable_induct OriginInv ?_ ?_ hr
  · exact ⟨fun p pb h => by simp [Client.new] at h, [], rfl, fun i f o h => by simp [Client.new] at h, fun i i' c h => by simp at h⟩
  · intro s l s' ⟨hp, og, h1, h2, h3⟩ hs
    refine ⟨fun p pb h => ?_, ?_⟩
    · rcases step_pub hs h with ⟨pb0, g1, g2, g3⟩ | ⟨f, _, g2, g3⟩
      · obtain ⟨k, e⟩ := hp p pb0 g1
        exact ⟨k, by rw [g2, g3]; exact e⟩
      · exact ⟨s.kkind, by rw [g2, g3]⟩
    rcases step_enq hs with e | ⟨c, cl, k, _, g1, g2, g3, e⟩ | ⟨p, pb, _, g1, _, g3, e⟩
    · exact ⟨og, by rw [e]; exact h1, fun i f o a b => fromOk_step hs (h2 i f o (by rw [← e]; exact a) b), h3⟩
    · refine ⟨og ++ [some c], by rw [e, List.length_append, List.length_append, h1]; rfl, fun i f o a b => ?_, ?_⟩
      · rw [e] at a
        rcases snoc_get a with a | ⟨rfl, rfl⟩
        · rcases snoc_get b with b | ⟨b, _⟩
          · exact fromOk_step hs (h2 i f o a b)
          · have := getElem?_lt a; omega
        · rw [← h1] at b
          rcases snoc_get b with b | ⟨_, rfl⟩
          · have := getElem?_lt b; omega
          · exact ⟨_, k, g3, trivial, rfl⟩
      · have fresh : ∀ i : Nat, og[i]? ≠ some (some c) := by
          intro i hi
          have hl := getElem?_lt hi
          obtain ⟨cl', _, a1, a2, _⟩ := h2 i s.enq[i] (some c) (List.getElem?_eq_getElem (by omega)) hi
          rw [g1] at a1
          cases a1
          rw [g2] at a2
          exact a2
        intro i i' c' a b
        rcases snoc_get a with a | ⟨rfl, ea⟩ <;> rcases snoc_get b with b | ⟨rfl, eb⟩
        · exact h3 i i' c' a b
        · cases eb; exact absurd a (fresh i)
        · cases ea; exact absurd b (fresh i')
        · rfl
    · refine ⟨og ++ [none], by rw [e, List.length_append, List.length_append, h1]; rfl, fun i f o a b => ?_, ?_⟩
      · rw [e] at a
        rcases snoc_get a with a | ⟨rfl, rfl⟩
        · rcases snoc_get b with b | ⟨b, _⟩
          · exact fromOk_step hs (h2 i f o a b)
          · have := getElem?_lt a; omega
        · rw [← h1] at b
          rcases snoc_get b with b | ⟨_, rfl⟩
          · have := getElem?_lt b; omega
          · obtain ⟨k, ek⟩ := hp p pb g1
            exact ⟨p, _, k, g3, ek⟩
      · intro i i' c' a b
        rcases snoc_get a with a | ⟨rfl, ea⟩ <;> rcases snoc_get b with b | ⟨rfl, eb⟩
        · exact h3 i i' c' a b
        · cases eb
        · cases ea
        · rfl

/-- What was handed to the transport as byte string `j` is the `j`-th accepted frame. -/
theorem reachable_tx_at {cfg : Cfg} {s : Client} (hr : Reachable cfg s) {j : Nat} {b : Bytes} (h : s.tx[j]? = some b) :
    ∃ f, s.enq[j]? = some f ∧ f.to_bytes = .ok b := by
  obtain ⟨pre, rest, e1, e2, _⟩ := reachable_outInv hr
  have h1 : (s.tx.map Exec.ok)[j]? = some (.ok b) := by rw [List.getElem?_map, h]; rfl
  rw [← e2, List.getElem?_map, Option.map_eq_some_iff] at h1
  obtain ⟨f, a, b⟩ := h1
  refine ⟨f, ?_, b⟩
  rw [e1, List.getElem?_append_left (getElem?_lt a)]
  exact a

theorem calls_apart {a : App V E SC Ctx} {S : SysCfg V E SC Ctx} {s : Sys V E SC Ctx} (inv : SysInv a S s)
    (hlen : s.client.calls.length < 2 ^ 32) {c c' : Nat} {cl cl' : Call} (h : s.client.calls[c]? = some cl)
    (h' : s.client.calls[c']? = some cl') (e : seqVal cl'.rqst.header.seq_no = seqVal cl.rqst.header.seq_no) : c' = c := by
  have typed : ∀ x ∈ s.client.calls, x.typed = true := by
    intro x hx
    obtain ⟨n, hn⟩ := List.mem_iff_getElem?.mp hx
    exact inv.typed n x hn
  by_cases hne : c' = c
  · exact hne
  · exact absurd e (Props.c37_sequence_condition inv.reach typed hlen h c' cl' hne h')

/-- A byte string that is the request of a call was accepted as such. -/
theorem asked_origin {a : App V E SC Ctx} {S : SysCfg V E SC Ctx} {s : Sys V E SC Ctx} (hD : Receives a S.disp)
    (inv : SysInv a S s) (hlen : s.client.calls.length < 2 ^ 32) {c j : Nat} (h : AskedAt S.disp s c j) {og : List (Option Nat)}
    (h1 : og.length = s.client.enq.length)
    (h2 : ∀ (i : Nat) f o, s.client.enq[i]? = some f → og[i]? = some o → FromOk s.client f o) : og[j]? = some (some c) := by
  obtain ⟨cl, b, hdr, req, hc, hb, hf, hs, hk, hl, hrx⟩ := h.asked
  obtain ⟨f, hfe, hfb⟩ := reachable_tx_at inv.reach hb
  obtain ⟨r, hr, ek, _⟩ := inv.calls c cl hc
  rw [hk] at ek
  cases ek
  have e : f.header = hdr := by
    rw [RpcFrame.to_bytes, write_to_vec_eq] at hfb
    cases hfb
    have := (isFrame_iff ..).mp hf
    rw [take_enc] at this
    have := Exec.ok.inj this
    exact congrArg Prod.fst (Option.some.inj this)
  have hj : j < og.length := by rw [h1]; exact getElem?_lt hfe
  obtain ⟨o, ho⟩ : ∃ o, og[j]? = some o := ⟨_, List.getElem?_eq_getElem hj⟩
  have := h2 j f o hfe ho
  cases o with
  | some c' =>
    obtain ⟨cl', k, g1, _, g3⟩ := this
    have : c' = c := calls_apart inv hlen hc g1 (by rw [← hs, ← e, g3]; rfl)
    rw [ho, this]
  | none =>
    obtain ⟨p, pb, k, g1, g2⟩ := this
    obtain ⟨t, ht, et⟩ := inv.pubs p pb g1
    have : rxShort S.disp hdr = short (keyLen S.disp.n) t.key :=
      rxShort_of_long hl (k := k) (by rw [← e, g2]; exact shrink8_key _ _ et)
    exact absurd (hrx.symm.trans this)
      (apart_parts hD.apart (List.mem_map.mpr ⟨r, hr, rfl⟩) (List.mem_map.mpr ⟨t, ht, rfl⟩))

/-- The server gets the request of a call at most once. -/
theorem asked_once {a : App V E SC Ctx} {S : SysCfg V E SC Ctx} {s : Sys V E SC Ctx} (hD : Receives a S.disp)
    (inv : SysInv a S s) (hlen : s.client.calls.length < 2 ^ 32) {c j j' : Nat} (h : AskedAt S.disp s c j) (h' : AskedAt S.disp s c j') :
    j = j' := by
  obtain ⟨_, og, h1, h2, h3⟩ := reachable_origin inv.reach
  exact h3 j j' c (asked_origin hD inv hlen h h1 h2) (asked_origin hD inv hlen h' h1 h2)

/-! ### The contexts -/

/-- What is behind the contexts of a session. -/
structure CtxInv (c0 : Ctx) (S : SysCfg V E SC Ctx) (s : Sys V E SC Ctx) : Prop where
  len : s.before.length = s.taken
  first : (contexts s)[0]? = some c0
  chain : ∀ j, j < s.taken → ∃ ctx ctx', (contexts s)[j]? = some ctx ∧ (contexts s)[j + 1]? = some ctx' ∧ Effect S.disp s j ctx ctx'
  srcs : ∀ o j, o ∈ s.outs ∨ o ∈ s.pending → o.src = .req j → j < s.taken
  tasks : ∀ (i : Nat) (x : Nat × Task V SC), s.old ≤ i → s.tasks[i]? = some x → x.1 < s.taken

theorem ctxInv_new (c0 : Ctx) (S : SysCfg V E SC Ctx) : CtxInv c0 S (Sys.new c0) where
  len := rfl
  first := rfl
  chain := fun j h => absurd h (Nat.not_lt_zero _)
  srcs := fun o j h => by rcases h with h | h <;> cases h
  tasks := fun i x _ h => by simp [Sys.new] at h

/-- Steps after which the server has received what it had before. -/
theorem ctxInv_same {c0 : Ctx} {S : SysCfg V E SC Ctx} {s s' : Sys V E SC Ctx} (inv : CtxInv c0 S s) (h1 : s'.before = s.before)
    (h2 : s'.taken = s.taken) (h3 : s'.srv.ctx = s.srv.ctx) (h4 : s'.tasks = s.tasks) (h5 : s'.old = s.old)
    (h6 : ∃ x, s'.client.tx = s.client.tx ++ x)
    (h7 : ∀ o j, o ∈ s'.outs ∨ o ∈ s'.pending → o.src = .req j → o ∈ s.outs ∨ o ∈ s.pending) : CtxInv c0 S s' := by
  have hc : contexts s' = contexts s := by unfold contexts; rw [h1, h3]
  refine ⟨by rw [h1, h2]; exact inv.len, by rw [hc]; exact inv.first, fun j hj => ?_, fun o j ho e => ?_, fun i x ho hx => ?_⟩
  · rw [hc]
    obtain ⟨ctx, ctx', a, b, e⟩ := inv.chain j (by rw [← h2]; exact hj)
    refine ⟨ctx, ctx', a, b, ?_⟩
    cases e with
    | handled b hdr body sends ctx' e1 e2 e3 => exact .handled b hdr body sends ctx' (get_append h6 e1) e2 e3
    | dropped e1 e2 =>
      exact .dropped (fun o ho e => e1 o (h7 o j ho e) e) (fun i x hi hx => e2 i x (by rw [← h5]; exact hi) (by rw [← h4]; exact hx))
  · rw [h2]; exact inv.srcs o j (h7 o j ho e) e
  · rw [h2]; exact inv.tasks i x (by rw [← h5]; exact ho) (by rw [← h4]; exact hx)

/-- One more byte string. -/
theorem ctxInv_next {c0 : Ctx} {S : SysCfg V E SC Ctx} {s s' : Sys V E SC Ctx} (inv : CtxInv c0 S s)
    (h1 : s'.before = s.before ++ [s.srv.ctx]) (h2 : s'.taken = s.taken + 1) (h4 : ∃ x, s'.tasks = s.tasks ++ x ∧ ∀ t ∈ x, t.1 = s.taken)
    (h5 : s'.old = s.old) (h6 : s'.client = s.client) (h7 : s'.outs = s.outs) (h8 : ∀ o ∈ s'.pending, o.src = .req s.taken)
    (h9 : (∃ b hdr body sends, s.client.tx[s.taken]? = some b ∧ IsFrame b hdr body ∧ Leaves S.disp hdr body s.srv.ctx sends s'.srv.ctx) ∨
      (s'.srv.ctx = s.srv.ctx ∧ s'.pending = [] ∧ s'.tasks = s.tasks)) : CtxInv c0 S s' := by
  have hlen := inv.len
  have hc : contexts s' = contexts s ++ [s'.srv.ctx] := by unfold contexts; rw [h1]
  have hcl : (contexts s).length = s.taken + 1 := by unfold contexts; rw [List.length_append, hlen]; rfl
  obtain ⟨x, hx, hxt⟩ := h4
  have tnew : ∀ (i : Nat) (y : Nat × Task V SC), s'.tasks[i]? = some y → s.tasks[i]? = some y ∨ y.1 = s.taken := by
    intro i y hy
    rw [hx] at hy
    rcases Nat.lt_or_ge i s.tasks.length with hi | hi
    · rw [List.getElem?_append_left hi] at hy; exact .inl hy
    · rw [List.getElem?_append_right hi] at hy; exact .inr (hxt y (List.mem_iff_getElem?.mpr ⟨_, hy⟩))
  refine ⟨by rw [h1, h2, List.length_append, hlen]; rfl, ?_, fun j hj => ?_, fun o j ho e => ?_, fun i y ho hy => ?_⟩
  · rw [hc]; exact get_append ⟨_, rfl⟩ inv.first
  · rw [h2] at hj
    rcases Nat.lt_or_ge j s.taken with hj' | hj'
    · obtain ⟨ctx, ctx', a, b, e⟩ := inv.chain j hj'
      rw [hc]
      refine ⟨ctx, ctx', get_append ⟨_, rfl⟩ a, get_append ⟨_, rfl⟩ b, ?_⟩
      cases e with
      | handled b hdr body sends ctx' e1 e2 e3 => exact .handled b hdr body sends ctx' (by rw [h6]; exact e1) e2 e3
      | dropped e1 e2 =>
        refine .dropped (fun o ho e => ?_) (fun i y hi hy => ?_)
        · rcases ho with ho | ho
          · exact e1 o (.inl (by rw [← h7]; exact ho)) e
          · rw [h8 o ho] at e; cases e; omega
        · rcases tnew i y hy with hy | hy
          · exact e2 i y (by rw [← h5]; exact hi) hy
          · omega
    · have e : j = s.taken := by omega
      subst e
      refine ⟨s.srv.ctx, s'.srv.ctx, ?_, ?_, ?_⟩
      · rw [hc]
        refine get_append ⟨_, rfl⟩ ?_
        unfold contexts
        rw [← hlen, List.getElem?_append_right (Nat.le_refl _)]
        simp
      · rw [hc, ← hcl, List.getElem?_append_right (Nat.le_refl _)]
        simp
      · rcases h9 with ⟨b, hdr, body, sends, g1, g2, g3⟩ | ⟨g1, g2, g3⟩
        · exact .handled b hdr body sends _ (by rw [h6]; exact g1) g2 g3
        · rw [g1]
          refine .dropped (fun o ho e => ?_) (fun i y hi hy e => ?_)
          · rw [g2, h7] at ho
            rcases ho with ho | ho
            · have := inv.srcs o _ (.inl ho) e; omega
            · cases ho
          · rw [g3] at hy
            have := inv.tasks i y (by rw [← h5]; exact hi) hy
            omega
  · rw [h2]
    rcases ho with ho | ho
    · have := inv.srcs o j (.inl (by rw [← h7]; exact ho)) e; omega
    · rw [h8 o ho] at e; cases e; omega
  · rw [h2]
    rcases tnew i y hy with hy | hy
    · have := inv.tasks i y (by rw [← h5]; exact ho) hy; omega
    · omega

/-- What handling a frame does to the context. -/
theorem serve_leaves {S : SysCfg V E SC Ctx} {s s' : Sys V E SC Ctx} (h : serve S s = some s') :
    (∃ b hdr body sends, s.client.tx[s.taken]? = some b ∧ IsFrame b hdr body ∧ Leaves S.disp hdr body s.srv.ctx sends s'.srv.ctx) ∨
      (s'.srv.ctx = s.srv.ctx ∧ s'.pending = [] ∧ s'.tasks = s.tasks) := by
  simp only [serve] at h
  split at h
  · split at h
    · cases h
    · rename_i b hb
      rcases take_cases b with e | ⟨hdr, body, e⟩
      · simp only [server_run, e, Exec.ok_bind] at h
        rw [← Option.some.inj h]
        exact .inr ⟨rfl, by simp [Sys.served, sent_ok], by simp [Sys.served, spawned_ok]⟩
      · simp only [server_run, e, Exec.ok_bind] at h
        cases hh : handle S.env S.disp S.kkind hdr body s.srv with
        | panic => rw [hh] at h; simp at h
        | ok q =>
          obtain ⟨r, srv⟩ := q
          rw [hh] at h
          simp only [Exec.ok_bind] at h
          obtain ⟨ev, _, h2⟩ := Props.c69_context _ _ _ _ _ _ _ _ hh
          have fin : ∀ up, some (s.served S up srv) = some s' →
              ∃ b hdr body sends, s.client.tx[s.taken]? = some b ∧ IsFrame b hdr body ∧ Leaves S.disp hdr body s.srv.ctx sends s'.srv.ctx := by
            intro up h
            rw [← Option.some.inj h]
            exact ⟨b, hdr, body, _, hb, (isFrame_iff ..).mpr e, h2⟩
          left
          cases r with
          | none => exact fin _ h
          | some x =>
            simp only at h
            cases hk : S.tx_kind x with
            | ConnectionClosed => rw [hk] at h; exact fin _ h
            | Other => rw [hk] at h; exact fin _ h
            | Timeout => rw [hk] at h; exact fin _ h
  · cases h

theorem put_ctxInv {c0 : Ctx} {S : SysCfg V E SC Ctx} {s s' : Sys V E SC Ctx} {o : Out V} (h : Sys.put S s o = some s')
    (ho : ∀ j, o.src = .req j → j < s.taken ∧ ∃ o' , (o' ∈ s.outs ∨ o' ∈ s.pending) ∧ o'.src = .req j) (inv : CtxInv c0 S s) : CtxInv c0 S s' := by
  simp only [Sys.put] at h
  split at h
  · cases h
    refine ⟨inv.len, inv.first, fun j hj => ?_, fun o' j h e => ?_, inv.tasks⟩
    · obtain ⟨ctx, ctx', a, b, e⟩ := inv.chain j hj
      refine ⟨ctx, ctx', a, b, ?_⟩
      cases e with
      | handled b hdr body sends ctx' e1 e2 e3 => exact .handled b hdr body sends ctx' e1 e2 e3
      | dropped e1 e2 =>
        refine .dropped (fun o' h e => ?_) e2
        rcases h with h | h
        · rcases List.mem_append.mp h with h | h
          · exact e1 o' (.inl h) e
          · rw [List.mem_singleton.mp h] at e
            obtain ⟨_, o'', g1, g2⟩ := ho j e
            exact e1 o'' g1 g2
        · exact e1 o' (.inr h) e
    · rcases h with h | h
      · rcases List.mem_append.mp h with h | h
        · exact inv.srcs o' j (.inl h) e
        · rw [List.mem_singleton.mp h] at e
          exact (ho j e).1
      · exact inv.srcs o' j (.inr h) e
  · cases h

theorem send_ctxInv {c0 : Ctx} {S : SysCfg V E SC Ctx} {s s' : Sys V E SC Ctx} {src : Src} {r : Option E × St V E SC Ctx}
    {f : Frame V} (h : Sys.send S s src r f = some s') (hr : r.2.ctx = s.srv.ctx) (hs : ∀ j, src ≠ .req j) (inv : CtxInv c0 S s) :
    CtxInv c0 S s' := by
  have inv2 : CtxInv c0 S { s with srv := r.2 } :=
    ctxInv_same inv rfl rfl hr rfl rfl (same_nil _) (fun o j h _ => h)
  simp only [Sys.send] at h
  split at h
  · exact put_ctxInv h (fun j e => absurd e (hs j)) inv2
  · exact put_ctxInv h (fun j e => absurd e (hs j)) inv2

theorem sys_step_ctxInv {c0 : Ctx} {S : SysCfg V E SC Ctx} {s s' : Sys V E SC Ctx} {l : SLabel V}
    (h : sys_step S s l = some s') (inv : CtxInv c0 S s) : CtxInv c0 S s' := by
  cases l with
  | client l =>
    simp only [sys_step, client_step] at h
    split at h
    · split at h
      · cases h
      · split at h
        · split at h
          · rename_i c hc
            cases h
            exact ctxInv_same inv rfl rfl rfl rfl rfl (step_tx hc) (fun o j h _ => h)
          · cases h
        · cases h
    · split at h
      · rename_i c hc
        cases h
        exact ctxInv_same inv rfl rfl rfl rfl rfl (step_tx hc) (fun o j h _ => h)
      · cases h
  | serve =>
    have hl := serve_leaves h
    obtain ⟨b, up, srv, hb, rfl, hp, _⟩ := serve_cases h
    refine ctxInv_next inv rfl rfl ⟨_, rfl, fun t ht => (spawned_ok_mem ht).1⟩ rfl rfl rfl (fun o ho => (sent_ok_mem ho).1) hl
  | reject =>
    simp only [sys_step, reject] at h
    split at h
    · rename_i hc
      have hp : s.pending = [] := List.length_eq_zero_iff.mp hc.2.1
      cases h
      exact ctxInv_next inv rfl rfl ⟨[], (List.append_nil _).symm, fun t ht => by cases ht⟩ rfl rfl rfl
        (fun o ho => by simp only [hp] at ho; cases ho) (.inr ⟨rfl, hp, rfl⟩)
    · cases h
  | flush =>
    simp only [sys_step] at h
    split at h
    · cases h
    · rename_i o rest e
      simp only [Sys.put] at h
      split at h
      · cases h
        refine ctxInv_same inv rfl rfl rfl rfl rfl (same_nil _) (fun o' j ho _ => ?_)
        rcases ho with ho | ho
        · rcases List.mem_append.mp ho with ho | ho
          · exact .inl ho
          · rw [List.mem_singleton.mp ho, e]; exact .inr (List.mem_cons_self ..)
        · rw [e]; exact .inr (List.mem_cons_of_mem _ ho)
      · cases h
  | task_reply i v =>
    simp only [sys_step, task_reply] at h
    split at h
    · cases h
    · split at h
      · cases h
      · split at h
        · cases h
        · refine send_ctxInv h ?_ (fun j e => by cases e) inv
          rw [sender_reply_eq]; rfl
  | app_publish key seq v =>
    refine send_ctxInv h ?_ (fun j e => by cases e) inv
    rfl

theorem sys_run_ctxInv {c0 : Ctx} {S : SysCfg V E SC Ctx} {ls : List (SLabel V)} {s s' : Sys V E SC Ctx}
    (h : sys_run S ls s = some s') (inv : CtxInv c0 S s) : CtxInv c0 S s' := by
  induction ls generalizing s with
  | nil => cases h; exact inv
  | cons l ls ih =>
    simp only [sys_run] at h
    split at h
    · rename_i s1 hs
      exact ih h (sys_step_ctxInv hs inv)
    · cases h

/-! ### Later states -/

/-- What the client has sent and called stays. -/
structure Later (s s' : Sys V E SC Ctx) : Prop where
  tx : ∃ x, s'.client.tx = s.client.tx ++ x
  calls : ∀ (c : Nat) (cl : Call), s.client.calls[c]? = some cl → ∃ cl', s'.client.calls[c]? = some cl' ∧ cl'.sig = cl.sig

theorem Later.refl (s : Sys V E SC Ctx) : Later s s := ⟨same_nil _, fun _ cl h => ⟨cl, h, rfl⟩⟩

theorem Later.trans {s t u : Sys V E SC Ctx} (h : Later s t) (h' : Later t u) : Later s u := by
  refine ⟨?_, fun c cl hc => ?_⟩
  · obtain ⟨x, e⟩ := h.tx
    obtain ⟨y, e'⟩ := h'.tx
    exact ⟨x ++ y, by rw [e', e, List.append_assoc]⟩
  · obtain ⟨cl1, a, b⟩ := h.calls c cl hc
    obtain ⟨cl2, a', b'⟩ := h'.calls c cl1 a
    exact ⟨cl2, a', b'.trans b⟩

theorem sys_step_later {S : SysCfg V E SC Ctx} {s s' : Sys V E SC Ctx} {l : SLabel V} (h : sys_step S s l = some s') : Later s s' := by
  have same : s'.client = s.client → Later s s' := fun e => ⟨⟨[], by rw [e, List.append_nil]⟩, fun c cl hc => ⟨cl, by rw [e]; exact hc, rfl⟩⟩
  have put : ∀ {t : Sys V E SC Ctx} {o : Out V}, Sys.put S t o = some s' → t.client = s.client → s'.client = s.client := by
    intro t o h e
    simp only [Sys.put] at h
    split at h
    · cases h; exact e
    · cases h
  have send : ∀ {src r f}, Sys.send S s src r f = some s' → s'.client = s.client := by
    intro src r f h
    simp only [Sys.send] at h
    split at h
    · exact put h rfl
    · exact put h rfl
  cases l with
  | client l =>
    simp only [sys_step, client_step] at h
    split at h
    · split at h
      · cases h
      · split at h
        · split at h
          · rename_i c hc
            cases h
            exact ⟨step_tx hc, fun c cl h => step_rqst hc h⟩
          · cases h
        · cases h
    · split at h
      · rename_i c hc
        cases h
        exact ⟨step_tx hc, fun c cl h => step_rqst hc h⟩
      · cases h
  | serve =>
    obtain ⟨b, up, srv, hb, rfl, hp, _⟩ := serve_cases h
    exact same rfl
  | reject =>
    simp only [sys_step, reject] at h
    split at h
    · cases h; exact same rfl
    · cases h
  | flush =>
    simp only [sys_step] at h
    split at h
    · cases h
    · exact same (put h rfl)
  | task_reply i v =>
    simp only [sys_step, task_reply] at h
    repeat' split at h
    all_goals first
      | (cases h; done)
      | exact same (send h)
  | app_publish key seq v => exact same (send h)

theorem sys_run_later {S : SysCfg V E SC Ctx} {ls : List (SLabel V)} {s s' : Sys V E SC Ctx} (h : sys_run S ls s = some s') : Later s s' := by
  induction ls generalizing s with
  | nil => cases h; exact .refl _
  | cons l ls ih =>
    simp only [sys_run] at h
    split at h
    · rename_i s1 hs
      exact (sys_step_later hs).trans (ih h)
    · cases h

theorem asked_later {D : Dispatcher V E SC Ctx} {s s' : Sys V E SC Ctx} (h : Later s s') {c j : Nat} (ha : AskedAt D s c j) :
    AskedAt D s' c j := by
  obtain ⟨cl, b, hdr, req, hc, hb, hf, hs, hk, hl, hrx⟩ := ha.asked
  obtain ⟨cl', hc', e⟩ := h.calls c cl hc
  have e : cl'.rqst = cl.rqst := congrArg (fun x => x.1) e
  exact ⟨cl', b, hdr, req, hc', get_append h.tx hb, by rw [e]; exact hf, by rw [e]; exact hs, by rw [e]; exact hk, hl, hrx⟩

/-- The request of a call begun later is sent later. -/
theorem asked_after {a : App V E SC Ctx} {S : SysCfg V E SC Ctx} {s s' : Sys V E SC Ctx} (hD : Receives a S.disp)
    (hdecl : Declared a S.kkind) (inv : SysInv a S s) (inv' : SysInv a S s')
    (hlen : s'.client.calls.length < 2 ^ 32) (h : Later s s') {c j : Nat} (hc : s.client.calls.length ≤ c) (ha : AskedAt S.disp s' c j) :
    s.client.tx.length ≤ j := by
  rcases Nat.lt_or_ge j s.client.tx.length with hj | hj
  · exfalso
    obtain ⟨cl, b, hdr, req, hc', hb, hf, hs, hk, hl, hrx⟩ := ha.asked
    have hb0 : s.client.tx[j]? = some b := by
      obtain ⟨x, e⟩ := h.tx
      rw [e, List.getElem?_append_left hj] at hb
      exact hb
    have ht : Taken s j hdr cl.rqst.body := ⟨b, hb0, (isFrame_iff ..).mp hf⟩
    rcases taken_origin hD hdecl inv ht with ⟨c1, cl1, r, k, g1, _, _, _, eh, _, _⟩ | ⟨p, pb, _, t, ht', _, erx⟩
    · obtain ⟨cl2, g2, e2⟩ := h.calls c1 cl1 g1
      have e2 : cl2.rqst = cl1.rqst := congrArg (fun x => x.1) e2
      have : c1 = c := calls_apart inv' hlen hc' g2 (by rw [← hs, eh, e2]; rfl)
      have := getElem?_lt g1
      omega
    · obtain ⟨r, hr, ek, _⟩ := inv'.calls c cl hc'
      rw [hk] at ek
      cases ek
      exact absurd (hrx.symm.trans (erx hl))
        (apart_parts hD.apart (List.mem_map.mpr ⟨r, hr, rfl⟩) (List.mem_map.mpr ⟨t, ht', rfl⟩))
  · exact hj

/-! ### Replies -/

theorem reply_asked {D : Dispatcher V E SC Ctx} {s : Sys V E SC Ctx} {c j : Nat} {cl : Call} {hdr : VarHeader} {req resp : Key} {o : Out V}
    (h : RequestOf s c cl j hdr) (hk : cl.rqst.header.key = .Key8 req) (hr : ReplyTo D s j hdr cl.rqst.body req resp o) :
    AskedAt D s c j := by
  obtain ⟨b, hb, hf⟩ := h.sent
  have : LongEnough D hdr ∧ rxShort D hdr = short (keyLen D.n) req := by
    cases hr with
    | called h g v ctx fr cut h1 h2 => exact ⟨h1.long, by rw [← h2]; exact h1.here⟩
    | spawned h v w i sc fr cut h1 h2 => exact ⟨h1.long, by rw [← h2]; exact h1.here⟩
    | ping v fr cut h1 h2 h3 => exact ⟨h1, by rw [← h3]; exact h2⟩
    | schemas t fr cut h1 h2 h3 => exact ⟨h1, by rw [← h3]; exact h2⟩
  exact ⟨cl, b, hdr, req, h.call, hb, hf, h.seq, hk, this.1, this.2⟩

theorem reply_applied {c0 : Ctx} {S : SysCfg V E SC Ctx} {s : Sys V E SC Ctx} (inv : CtxInv c0 S s) {j : Nat} {b body : Bytes}
    {hdr : VarHeader} {req resp : Key} {o : Out V} (hb : s.client.tx[j]? = some b) (hf : IsFrame b hdr body)
    (ho : o ∈ s.outs) (hr : ReplyTo S.disp s j hdr body req resp o) : Applied S.disp s j hdr body o.frame := by
  have leaves : (o.src = .req j ∨ ∃ i t, s.old ≤ i ∧ s.tasks[i]? = some (j, t)) →
      ∃ ctx ctx' sends, (contexts s)[j]? = some ctx ∧ (contexts s)[j + 1]? = some ctx' ∧ j < s.before.length ∧ Leaves S.disp hdr body ctx sends ctx' := by
    intro hs
    have hj : j < s.taken := by
      rcases hs with hs | ⟨i, t, h1, h2⟩
      · exact inv.srcs o j (.inl ho) hs
      · exact inv.tasks i _ h1 h2
    obtain ⟨ctx, ctx', h1, h2, e⟩ := inv.chain j hj
    cases e with
    | handled b' hdr' body' sends ctx' e1 e2 e3 =>
      rw [hb] at e1
      cases e1
      obtain ⟨rfl, rfl⟩ := isFrame_unique hf e2
      exact ⟨ctx, ctx', sends, h1, h2, by rw [inv.len]; exact hj, e3⟩
    | dropped e1 e2 =>
      exfalso
      rcases hs with hs | ⟨i, t, h1, h2⟩
      · exact e1 o (.inl ho) hs
      · exact e2 i _ h1 h2 rfl
  have notEp : ∀ {h t}, ForEndpoint S.disp hdr h → ¬ ForTopic S.disp hdr t := fun h1 h2 => h2.notEp _ h1.mem h1.here
  cases hr with
  | called h g v ctx fr cut h1 h2 h3 h4 h5 h6 h7 =>
    obtain ⟨ctx0, ctx', sends, g1, g2, g3, hl⟩ := leaves (.inl rfl)
    have : ctx0 = ctx := by
      unfold contexts at g1
      rw [List.getElem?_append_left g3, h6] at g1
      exact (Option.some.inj g1).symm
    subst this
    refine .called h g v ctx0 h1 h4 h5 g1 h7 ?_
    rw [g2]
    cases hl with
    | @endpoint h' req f hf hd hfl =>
      cases forEndpoint_unique h1 hf
      rw [h5] at hd
      cases hd
      have : f = g := by
        rcases h4 with h4 | h4 <;> rcases hfl with hfl | hfl <;> rw [h4] at hfl <;> cases hfl <;> rfl
      rw [this]
    | @endpoint_spawn h' req hf hd hfl =>
      cases forEndpoint_unique h1 hf
      rcases h4 with h4 | h4 <;> rw [h4] at hfl <;> cases hfl
    | topic hf => exact absurd hf (notEp h1)
    | topic_async hf => exact absurd hf (notEp h1)
    | topic_spawn hf => exact absurd hf (notEp h1)
    | untouched hn =>
      have := hn.1 h h1
      rw [h5] at this
      cases this
  | spawned h v w i sc fr cut h1 h2 h3 h4 h5 h6 h7 h8 =>
    obtain ⟨ctx, ctx', sends, g1, g2, g3, hl⟩ := leaves (.inr ⟨i, _, h6, h7⟩)
    refine .spawned h v w i sc ctx h1 h4 h5 g1 h7 h8 ?_
    rw [g2]
    cases hl with
    | @endpoint h' req f hf hd hfl =>
      cases forEndpoint_unique h1 hf
      rcases hfl with hfl | hfl <;> rw [h4] at hfl <;> cases hfl
    | endpoint_spawn hf hd hfl => rfl
    | topic hf => exact absurd hf (notEp h1)
    | topic_async hf => exact absurd hf (notEp h1)
    | topic_spawn hf => exact absurd hf (notEp h1)
    | untouched hn =>
      have := hn.1 h h1
      rw [h5] at this
      cases this
  | ping v fr cut h1 h2 h3 h4 h5 h6 =>
    obtain ⟨ctx, ctx', sends, g1, g2, g3, hl⟩ := leaves (.inl rfl)
    refine .ping v ctx h2 h5 h6 g1 ?_
    rw [g2]
    cases hl with
    | endpoint hf => exact absurd h2 hf.notStd.1
    | endpoint_spawn hf => exact absurd h2 hf.notStd.1
    | topic hf => exact absurd h2 hf.notStd.1
    | topic_async hf => exact absurd h2 hf.notStd.1
    | topic_spawn hf => exact absurd h2 hf.notStd.1
    | untouched hn => rfl
  | schemas t fr cut h1 h2 h3 h4 h5 =>
    obtain ⟨ctx, ctx', sends, g1, g2, g3, hl⟩ := leaves (.inl rfl)
    refine .schemas t ctx h2 h5 g1 ?_
    rw [g2]
    cases hl with
    | endpoint hf => exact absurd h2 hf.notStd.2
    | endpoint_spawn hf => exact absurd h2 hf.notStd.2
    | topic hf => exact absurd h2 hf.notStd.2
    | topic_async hf => exact absurd h2 hf.notStd.2
    | topic_spawn hf => exact absurd h2 hf.notStd.2
    | untouched hn => rfl

end PRpc
