import Verif.Lemmas.RawOnce
import Verif.Props.EndToEnd
/-! Helper lemmas for C100: sequence numbers that are used again. -/

namespace PRpc

open Spec

variable {V E SC Ctx : Type}

/-! ### The wait map -/

theorem hdr_eq_symm (a b : VarHeader) : a.eq b = b.eq a := by
  have : a.seq_no.eq b.seq_no = b.seq_no.eq a.seq_no := by
    rw [Bool.eq_iff_iff, seq_eq_iff, seq_eq_iff]
    exact eq_comm
  rw [VarHeader.eq, VarHeader.eq, eq_symm, this]

/-- No two waiters of the map are registered under equal headers. -/
theorem reachable_mapOne {cfg : Cfg} {s : Client} (hr : Reachable cfg s) : ∀ x ∈ s.map, ∀ y ∈ s.map, x.2.eq y.2 = true → x = y := by
  refine reachable_induct (fun s => ∀ x ∈ s.map, ∀ y ∈ s.map, x.2.eq y.2 = true → x = y) (fun x hx => nomatch hx) ?_ hr
  intro s l s' ih hs
  have hc := step_core hs
  have snoc : ∀ (m : List (WaitId × VarHeader)) z, (∀ x ∈ m, ∀ y ∈ m, x.2.eq y.2 = true → x = y) → (∀ x ∈ m, x.2.eq z.2 = false) →
      ∀ x ∈ m ++ [z], ∀ y ∈ m ++ [z], x.2.eq y.2 = true → x = y := by
    intro m z h1 h2 x hx y hy e
    rcases List.mem_append.mp hx with hx | hx <;> rcases List.mem_append.mp hy with hy | hy
    · exact h1 x hx y hy e
    · rw [List.mem_singleton.mp hy, h2 x hx] at e; cases e
    · rw [List.mem_singleton.mp hx, hdr_eq_symm, h2 y hy] at e; cases e
    · rw [List.mem_singleton.mp hx, List.mem_singleton.mp hy]
  have main : ∀ {a b : Core}, CoreStep cfg a b → (∀ x ∈ a.map, ∀ y ∈ a.map, x.2.eq y.2 = true → x = y) →
      ∀ x ∈ b.map, ∀ y ∈ b.map, x.2.eq y.2 = true → x = y := by
    intro a b hs ih
    cases hs with
    | skip | add | kind | dupOk | sent | nowake => exact ih
    | regOk m w cs sn c cl k hc h hd => exact snoc m _ ih hd
    | regErr m w cs sn c cl k hc h hd => exact snoc m _ ih hd
    | finish | take | wake =>
      exact fun x hx y hy e => ih x (List.mem_filter.mp hx).1 y (List.mem_filter.mp hy).1 e
  exact main hc ih

/-! ### Calls that have sent their requests -/

/-- The request has been handed over, and the call waits or is over. -/
def Phase.after : Phase → Prop
  | .waiting _ => True
  | .done .BadResponse => False
  | .done _ => True
  | .dropped => True
  | _ => False

theorem after_set {P : Phase → Prop} {cs : List Call} {c d : Nat} {cl x : Call} (hc : cs[c]? = some cl) (hx : (P cl.phase → P x.phase) ∧ x.sig = cl.sig)
    {dl : Call} (hd : cs[d]? = some dl) (hp : P dl.phase) : ∃ cl', (cs.set c x)[d]? = some cl' ∧ P cl'.phase ∧ cl'.sig = dl.sig := by
  rw [set_get hc]
  split
  · rename_i e
    subst e
    rw [hc] at hd; cases hd
    exact ⟨x, rfl, hx.1 hp, hx.2⟩
  · exact ⟨dl, hd, hp, rfl⟩

/-- What holds of a call from some point on. -/
structure Lasting (P : Phase → Prop) : Prop where
  begun : ¬ P .begun
  kinded : ∀ k, ¬ P (.kinded k)
  half : ∀ k, ¬ P (.half k)
  registered : ∀ k, ¬ P (.registered k)
  waiting : ∀ k, P (.waiting k) → ∀ r, r ≠ .BadResponse → P (.done r)
  dropped : ∀ p, P p → (∀ r, p ≠ .done r) → P .dropped

theorem step_lasting {P : Phase → Prop} (hP : Lasting P) {cfg : Cfg} {s s' : Client} {l : Label} (h : step cfg s l = some s') {c : Nat} {cl : Call}
    (hc : s.calls[c]? = some cl) (hp : P cl.phase) : ∃ cl', s'.calls[c]? = some cl' ∧ P cl'.phase ∧ cl'.sig = cl.sig := by
  have other : ∀ {d : Nat} {dl x : Call}, s.calls[d]? = some dl → ¬ P dl.phase →
      ∃ cl', (s.calls.set d x)[c]? = some cl' ∧ P cl'.phase ∧ cl'.sig = cl.sig := by
    intro d dl x hd hn
    rw [set_get hd]
    split
    · rename_i e; subst e
      rw [hc] at hd; cases hd
      exact absurd hp hn
    · exact ⟨cl, hc, hp, rfl⟩
  have keep : s'.calls = s.calls → ∃ cl', s'.calls[c]? = some cl' ∧ P cl'.phase ∧ cl'.sig = cl.sig := fun e => ⟨cl, by rw [e]; exact hc, hp, rfl⟩
  cases l with
  | call_begin req resp body =>
    simp only [step, send_resp_begin] at h
    split at h
    · cases h; exact ⟨cl, append_get hc _, hp, rfl⟩
    · cases h
  | call_begin_raw rqst resp =>
    simp only [step] at h
    split at h
    · cases h; exact ⟨cl, append_get hc _, hp, rfl⟩
    · cases h
  | call_kind d =>
    simp only [step, Client.set_phase] at h
    split at h
    · rename_i dl hd
      split at h
      · rename_i e
        cases h; exact other hd (by rw [e]; exact hP.begun)
      · cases h
    · cases h
  | call_reg_ok d =>
    simp only [step, call_reg_ok, Client.set_phase] at h
    split at h
    · rename_i dl hd
      split at h
      · rename_i k e
        cases h
        split
        · exact other hd (by rw [e]; exact hP.kinded k)
        · exact other hd (by rw [e]; exact hP.kinded k)
      · cases h
    · cases h
  | call_reg_err d =>
    simp only [step, call_reg_err, Client.set_phase, Client.drop_waits] at h
    split at h
    · rename_i dl hd
      split at h
      · rename_i k e
        cases h
        split
        · exact other hd (by rw [e]; exact hP.half k)
        · exact other hd (by rw [e]; exact hP.half k)
      · cases h
    · cases h
  | call_send d =>
    simp only [step, call_send, Client.set_phase, Client.drop_waits] at h
    split at h
    · rename_i dl hd
      split at h
      · rename_i k e
        split at h
        · cases h; exact other hd (by rw [e]; exact hP.registered k)
        · split at h
          · cases h; exact other hd (by rw [e]; exact hP.registered k)
          · cases h
      · cases h
    · cases h
  | call_closed d =>
    simp only [step, Client.set_phase, Client.drop_waits] at h
    split at h
    · rename_i dl hd
      split at h
      · rename_i k e
        split at h
        · cases h; refine after_set hd ?_ hc hp; exact ⟨fun hp => hP.waiting k (by rw [← e]; exact hp) _ nofun, rfl⟩
        · cases h
      · cases h
    · cases h
  | call_ok d =>
    simp only [step, call_take, Client.set_phase, Client.drop_waits] at h
    split at h
    · rename_i dl hd
      split at h
      · rename_i k e
        split at h
        · cases h
        · cases h; refine after_set hd ?_ hc hp; exact ⟨fun hp => hP.waiting k (by rw [← e]; exact hp) _ nofun, rfl⟩
      · cases h
    · cases h
  | call_err d =>
    simp only [step, call_take, Client.set_phase, Client.drop_waits] at h
    split at h
    · rename_i dl hd
      split at h
      · rename_i k e
        split at h
        · cases h
        · cases h; refine after_set hd ?_ hc hp; exact ⟨fun hp => hP.waiting k (by rw [← e]; exact hp) _ nofun, rfl⟩
      · cases h
    · cases h
  | call_drop d =>
    simp only [step, Client.set_phase, Client.drop_waits] at h
    split at h
    · rename_i dl hd
      split at h
      · cases h
      · rename_i hn
        cases h; refine after_set hd ?_ hc hp; exact ⟨fun hp => hP.dropped _ hp hn, rfl⟩
    · cases h
  | _ =>
    simp only [step, publish_raw_begin, pub_send,
      out_poll, out_recv, out_done, in_poll, in_recv, in_lookup, in_full_send, in_full_timeout, after_lookup, in_wake] at h
    repeat' split at h
    all_goals first
      | (cases h; done)
      | (cases h; exact keep rfl)

theorem lasting_after : Lasting Phase.after := ⟨id, fun _ => id, fun _ => id, fun _ => id, fun _ _ r hr => by cases r <;> first | trivial | exact hr rfl, fun _ _ _ => trivial⟩

theorem step_after {cfg : Cfg} {s s' : Client} {l : Label} (h : step cfg s l = some s') {c : Nat} {cl : Call}
    (hc : s.calls[c]? = some cl) (hp : cl.phase.after) : ∃ cl', s'.calls[c]? = some cl' ∧ cl'.phase.after ∧ cl'.sig = cl.sig :=
  step_lasting lasting_after h hc hp

theorem lasting_gone : Lasting (fun p => p = .dropped ∨ p = .done .Closed) where
  begun := by rintro (h | h) <;> cases h
  kinded := by rintro k (h | h) <;> cases h
  half := by rintro k (h | h) <;> cases h
  registered := by rintro k (h | h) <;> cases h
  waiting := by rintro k (h | h) <;> cases h
  dropped := fun _ _ _ => .inl rfl

/-- What is kept at the end was kept all along. -/
theorem numberKept_back {cfg : Cfg} {s s' : Client} {l : Label} (h : step cfg s l = some s') {n : Nat} (hk : NumberKept s' n) : NumberKept s n := by
  refine ⟨fun cl hcl hn => ?_, fun pb hpb hn => ?_⟩
  · obtain ⟨c, hc⟩ := List.mem_iff_getElem?.mp hcl
    have : ¬ (cl.phase = .dropped ∨ cl.phase = .done .Closed) := by
      intro hp
      obtain ⟨cl', h1, h2, h3⟩ := step_lasting lasting_gone h hc hp
      have e : cl'.rqst = cl.rqst := congrArg (fun x => x.1) h3
      obtain ⟨g1, g2⟩ := hk.1 cl' (List.mem_of_getElem? h1) (by rw [e]; exact hn)
      rcases h2 with h2 | h2
      · exact g1 h2
      · exact g2 h2
    exact ⟨fun e => this (.inl e), fun e => this (.inr e)⟩
  · obtain ⟨p, hp⟩ := List.mem_iff_getElem?.mp hpb
    obtain ⟨pb', h1, _, h3, _⟩ := step_pub_kept h hp
    exact hk.2 pb' (List.mem_of_getElem? h1) (by rw [h3]; exact hn)

/-! ### What is offered to the wait map -/

/-- A step that offers nothing to the wait map wakes nobody; one that does offers the frame the receive worker holds. -/
theorem step_offers {cfg : Cfg} {s s' : Client} {l : Label} (h : step cfg s l = some s') :
    (s'.seen = s.seen ∧ (∀ w ∈ s'.woken, w ∈ s.woken)) ∨
    ∃ f, s.in_pc = .wake f ∧ s'.in_pc = .recv ∧ s'.seen = s.seen ++ [f] ∧ s'.calls = s.calls ∧ s'.enq = s.enq ∧ (∀ r, l ≠ .in_recv r) ∧
      (s'.woken = s.woken ∨ ∃ id hd, (id, hd) ∈ s.map ∧ hd.eq f.header = true ∧ s'.woken = s.woken ++ [⟨id, f, s.seen.length⟩]) := by
  cases l with
  | in_wake w =>
    simp only [step, in_wake] at h
    split at h
    · rename_i f hp _
      refine .inr ⟨f, hp, ?_⟩
      split at h
      · rename_i id
        split at h
        · rename_i hany
          cases h
          obtain ⟨⟨i, hd⟩, hx, e⟩ := List.any_eq_true.mp hany
          simp only [Bool.and_eq_true, decide_eq_true_eq] at e
          exact ⟨rfl, rfl, rfl, rfl, (fun r e => nomatch e), .inr ⟨id, hd, by rw [← e.1]; exact hx, e.2, rfl⟩⟩
        · cases h
      · split at h
        · cases h
        · cases h; exact ⟨rfl, rfl, rfl, rfl, (fun r e => nomatch e), .inl rfl⟩
    · cases h
  | _ =>
    refine .inl ?_
    simp only [step, send_resp_begin, call_reg_ok, call_reg_err, call_send, call_take, publish_raw_begin, pub_send,
      out_poll, out_recv, out_done, in_poll, in_recv, in_lookup, in_full_send, in_full_timeout, after_lookup,
      Client.set_phase, Client.drop_waits] at h
    repeat' split at h
    all_goals first
      | (cases h; done)
      | (cases h; exact ⟨rfl, fun w hw => hw⟩)
      | (cases h; exact ⟨rfl, fun w hw => (List.mem_filter.mp hw).1⟩)
      | (cases h; split <;> exact ⟨rfl, fun w hw => hw⟩)
      | (cases h; split <;> first | exact ⟨rfl, fun w hw => hw⟩ | exact ⟨rfl, fun w hw => (List.mem_filter.mp hw).1⟩)

/-- The receive worker gets frames to hold from the transport only. -/
theorem step_frame {cfg : Cfg} {s s' : Client} {l : Label} (h : step cfg s l = some s') (hl : ∀ b, l ≠ .in_recv (some b)) {f : RpcFrame}
    (hf : s'.in_pc.frame = some f) : s.in_pc.frame = some f := by
  cases l with
  | in_recv r =>
    cases r with
    | some b => exact absurd rfl (hl b)
    | none =>
      simp only [step, in_recv] at h
      split at h
      · cases h; cases hf
      · cases h
  | in_lookup =>
    simp only [step, in_lookup, after_lookup] at h
    split at h
    · rename_i g hp _
      rw [hp]
      split at h
      · rename_i handled _ _
        cases h
        cases handled with
        | true => cases hf
        | false => exact hf
      · cases h; exact hf
    · cases h
  | _ =>
    simp only [step, send_resp_begin, call_reg_ok, call_reg_err, call_send, call_take, publish_raw_begin, pub_send,
      out_poll, out_recv, out_done, in_poll, in_full_send, in_full_timeout, after_lookup, in_wake,
      Client.set_phase, Client.drop_waits] at h
    repeat' split at h
    all_goals first
      | (cases h; done)
      | (cases h; exact hf)
      | (cases h; cases hf; done)
      | (rename_i hn; exact absurd trivial hn)

/-! ### Whose answers the calls get -/

/-- The call `c` was given `f`, offered to the wait map as frame `i`: it is the answer to its own request. -/
def GotOwn (a : App V E SC Ctx) (S : SysCfg V E SC Ctx) (s : Sys V E SC Ctx) (og : List (Option Nat)) (ps : List Nat) (c : Nat) (f : RpcFrame)
    (i : Nat) : Prop :=
  ∃ p o j, ps[i]? = some p ∧ s.outs[p]? = some o ∧ s.lab a S o = some j ∧ og[j]? = some (some c) ∧ CarriesPart S.enc o f

/-- The invariant for the calls with number `n`.  `og`: which call each accepted message is the request of; `ps`: which outgoing
message each frame offered to the wait map is. -/
structure GetInv (a : App V E SC Ctx) (S : SysCfg V E SC Ctx) (n : Nat) (s0 : Sys V E SC Ctx) (ls0 : List (SLabel V)) (s : Sys V E SC Ctx)
    (og : List (Option Nat)) (ps : List Nat) : Prop where
  ogLen : og.length = s.client.enq.length
  ogFrom : ∀ (i : Nat) f o, s.client.enq[i]? = some f → og[i]? = some o → FromOk s.client f o
  ogAfter : ∀ (i c : Nat), og[i]? = some (some c) → ∃ cl, s.client.calls[c]? = some cl ∧ cl.phase.after
  ogInj : ∀ (i i' c : Nat), og[i]? = some (some c) → og[i']? = some (some c) → i = i'
  ogSent : ∀ (i c : Nat), og[i]? = some (some c) → SentAt S s0 ls0 c i
  pubsOk : ∀ (p : Nat) (pb : Pub), s.client.pubs[p]? = some pb → ∃ k, pb.frame = pb.orig.shrink k
  psLen : ps.length = s.client.seen.length
  psInj : ∀ (i i' p : Nat), ps[i]? = some p → ps[i']? = some p → i = i'
  flow : s.client.in_pc.over = false → ∃ dn os, s.outs = dn ++ os ∧ s.air = os.flatMap (Out.bits S.enc) ∧ (∀ p ∈ ps, p < dn.length) ∧
    ∀ f, s.client.in_pc.frame = some f → ∃ d0 o, dn = d0 ++ [o] ∧ CarriesPart S.enc o f ∧ ∀ p ∈ ps, p < d0.length
  woke : ∀ w ∈ s.client.woken, ∀ cl, s.client.calls[w.id.call]? = some cl → seqVal cl.rqst.header.seq_no = n →
    GotOwn a S s og ps w.id.call w.frame w.idx
  got : ∀ (c : Nat) cl err f i, s.client.calls[c]? = some cl → cl.phase.result = some (err, f, i) → seqVal cl.rqst.header.seq_no = n →
    GotOwn a S s og ps c f i

theorem nodup_lab {α β : Type} {l : List α} {f : α → Option β} (h : (l.filterMap f).Nodup) : ∀ {i j : Nat} {x y : α} {b : β},
    l[i]? = some x → l[j]? = some y → f x = some b → f y = some b → i = j := by
  induction l with
  | nil => intro i j x y b h; simp at h
  | cons z l ih =>
    intro i j x y b hi hj hx hy
    have tail : (l.filterMap f).Nodup := by
      rw [List.filterMap_cons] at h
      split at h
      · exact h
      · exact (List.nodup_cons.mp h).2
    have head : f z = some b → b ∉ l.filterMap f := by
      intro e
      rw [List.filterMap_cons, e] at h
      exact (List.nodup_cons.mp h).1
    cases i with
    | zero =>
      cases j with
      | zero => rfl
      | succ j =>
        simp only [List.getElem?_cons_zero, Option.some.injEq] at hi
        subst hi
        exact absurd (List.mem_filterMap.mpr ⟨y, List.mem_of_getElem? (by simpa using hj), hy⟩) (head hx)
    | succ i =>
      cases j with
      | zero =>
        simp only [List.getElem?_cons_zero, Option.some.injEq] at hj
        subst hj
        exact absurd (List.mem_filterMap.mpr ⟨x, List.mem_of_getElem? (by simpa using hi), hx⟩) (head hy)
      | succ j => exact congrArg (· + 1) (ih tail (by simpa using hi) (by simpa using hj) hx hy)

/-- Key and number of a frame that wakes a waiter. -/
theorem waiter_key {a : App V E SC Ctx} {S : SysCfg V E SC Ctx} {s : Sys V E SC Ctx} (hD : Routes a S.disp)
    (hdecl : Declared a S.kkind) (inv : SysInvR a S s) {c : Nat} {cl : Call} {err : Bool} {k : VarKeyKind} {f : RpcFrame} {o : Out V}
    (hc : s.client.calls[c]? = some cl) (hw : cl.phase.hasWait err = some k) (he : (waitHdr S.cfg cl k err).eq f.header = true)
    (ho : o ∈ s.outs) (hcar : CarriesPart S.enc o f) :
    keyBytes o.frame.hdr.key = short (keyLen S.kkind) (wantKey S.cfg cl err) ∧
      seqVal o.frame.hdr.seq_no = seqVal cl.rqst.header.seq_no := by
  have ha := (waitHdr_answers S.cfg cl k err f.header).mp he
  have hk := out_kind hD hdecl inv (inv.outs o ho)
  have hkk : k = .Key8 ∨ k = S.kkind := by
    refine (consist_kinds inv.reach (sys_consist hD hdecl inv)).2 c cl k hc ?_
    revert hw
    cases cl.phase <;> cases err <;> simp [Phase.hasWait, Phase.kind]
  refine ⟨?_, by rw [← hcar.header]; exact ha.seq⟩
  have hl : (keyBytes f.header.key).length = keyLen S.kkind := by rw [hcar.header, ← kind_len, outKind_kind hk]
  have hle : keyLen S.kkind ≤ keyLen k := by
    rcases hkk with rfl | rfl
    · exact keyLen_le _
    · exact Nat.le_refl _
  have key := ha.key
  rw [KeyAgrees, hl, Nat.min_eq_right hle] at key
  rw [← hcar.header, ← key]
  have := fold_self f.header.key
  rw [hl] at this
  exact this.symm

/-- The accepted message behind a received one. -/
theorem taken_enq {a : App V E SC Ctx} {S : SysCfg V E SC Ctx} {s : Sys V E SC Ctx} (inv : SysInvR a S s) {j : Nat} {hdr : VarHeader} {body : Bytes}
    (ht : Taken s j hdr body) : s.client.enq[j]? = some ⟨hdr, body⟩ := by
  obtain ⟨b, h1, h2⟩ := ht
  obtain ⟨f, hf, hb⟩ := reachable_tx_at inv.reach h1
  rw [hf]
  rw [RpcFrame.to_bytes, write_to_vec_eq] at hb
  cases hb
  rw [take_enc] at h2
  cases h2
  rfl

/-- What wakes a call with number `n` is the answer to its own request. -/
theorem delivered {a : App V E SC Ctx} {S : SysCfg V E SC Ctx} {n : Nat} {s0 : Sys V E SC Ctx} {ls0 : List (SLabel V)} {s : Sys V E SC Ctx}
    {og : List (Option Nat)} {ps : List Nat} (x : OnceCtx a S) (si : SysInvR a S s) (on : OnceInv a S s) (inv : GetInv a S n s0 ls0 s og ps)
    (hkept : NumberKept s.client n) (hown : ∀ o ∈ s.outs, ∀ i, o.src = .task i → s.old ≤ i)
    {f : RpcFrame} {id : WaitId} {hd : VarHeader} (hm : (id, hd) ∈ s.client.map) (he : hd.eq f.header = true)
    {cl : Call} (hc : s.client.calls[id.call]? = some cl) (hn : seqVal cl.rqst.header.seq_no = n)
    {d0 os : List (Out V)} {o : Out V} (houts : s.outs = d0 ++ o :: os) (hcar : CarriesPart S.enc o f) (hps : ∀ p ∈ ps, p < d0.length) :
    ∃ j, s.lab a S o = some j ∧ og[j]? = some (some id.call) := by
  have hD := x.disp
  have ci := reachable_coreInv si.reach
  have ho : o ∈ s.outs := by rw [houts]; exact List.mem_append_right _ (List.mem_cons_self ..)
  have hpos : s.outs[d0.length]? = some o := by rw [houts, List.getElem?_append_right (Nat.le_refl _), Nat.sub_self]; rfl
  obtain ⟨cl1, k, h1, hw, hhd, _⟩ := ci.mapOk id hd hm
  have h1 : s.client.calls[id.call]? = some cl1 := h1
  rw [hc] at h1; cases h1
  obtain ⟨hkey, hseq⟩ := waiter_key hD.toRoutes x.decl si hc hw (by rw [← hhd]; exact he) ho hcar
  have hcut := clean_wholeR x.clean si ho hcar
  obtain ⟨r, hr, ek, er⟩ := si.calls _ cl hc
  have hrm : r.resp ∈ a.endpoint_list.endpoints.map (·.resp) := List.mem_map.mpr ⟨r, hr, rfl⟩
  -- the answer is to a request `j` with this number, and the call that made it waits for the same key
  have main : ∃ j hdr body, s.lab a S o = some j ∧ Taken s j hdr body ∧ seqVal hdr.seq_no = n ∧
      ∀ (r' : EpRow), r' ∈ a.endpoint_list.endpoints → (LongEnough S.disp hdr → rxShort S.disp hdr = short (keyLen S.disp.n) r'.req) →
        id.err = false → r'.resp = cl.resp_key := by
    cases out_kind hD.toRoutes x.decl si (si.outs o ho) with
    | err j hdr body e hsrc ht _ hmsg =>
      refine ⟨j, hdr, body, lab_req hcut ?_ hsrc, ht, by rw [← hmsg.seq, hseq, hn], fun r' _ _ herr => ?_⟩
      · simp only [ansKey, decide_eq_true_eq]
        exact List.mem_map.mpr ⟨a.std.error, List.mem_append_right _ (List.mem_singleton.mpr rfl), hmsg.key.symm⟩
      · rw [herr] at hkey
        have hkey : keyBytes o.frame.hdr.key = short (keyLen S.kkind) r.resp := by rw [hkey, wantKey, ← er]; rfl
        exact absurd (hkey.symm.trans hmsg.key) (x.resp_err r hr)
    | out t seq b ht hmsg =>
      exfalso
      cases herr : id.err with
      | true =>
        rw [herr] at hkey
        have hkey : keyBytes o.frame.hdr.key = short (keyLen S.kkind) a.std.error := by rw [hkey, wantKey, ← x.err_key]; rfl
        exact x.topic_err t ht (hmsg.key.symm.trans hkey)
      | false =>
        rw [herr] at hkey
        have hkey : keyBytes o.frame.hdr.key = short (keyLen S.kkind) r.resp := by rw [hkey, wantKey, ← er]; rfl
        exact apart_parts x.apart hrm (List.mem_map.mpr ⟨t, ht, rfl⟩) (hkey.symm.trans hmsg.key)
    | reply j hdr body b req resp ht hq hp hl hrx hmsg hrep =>
      have hans : ansKey a S.kkind o.frame = true := by
        simp only [ansKey, decide_eq_true_eq]
        exact List.mem_map.mpr ⟨resp, List.mem_append_left _ hp, hmsg.key.symm⟩
      refine ⟨j, hdr, body, ?_, ht, by rw [← hmsg.seq, hseq, hn], fun r' hr' hrx' herr => ?_⟩
      · cases hrep with
        | called => exact lab_req hcut hans rfl
        | spawned h v w i sc fr cut _ _ _ _ _ hold htask => exact lab_task hcut hans rfl hold htask
        | ping => exact lab_req hcut hans rfl
        | schemas => exact lab_req hcut hans rfl
      · rw [herr] at hkey
        have hkey : keyBytes o.frame.hdr.key = short (keyLen S.kkind) r.resp := by rw [hkey, wantKey, ← er]; rfl
        have e1 : resp = r.resp := apart_eq x.apart (List.mem_append_left _ hp) (List.mem_append_left _ hrm) (hmsg.key.symm.trans hkey)
        have e2 : req = r'.req := apart_eq hD.apart (List.mem_append_left _ hq)
          (List.mem_append_left _ (List.mem_map.mpr ⟨r', hr', rfl⟩)) (hrx.symm.trans (hrx' hl))
        rw [er, ← e1]
        have row : ∃ r'' ∈ a.endpoint_list.endpoints, r''.req = req ∧ r''.resp = resp := by
          have han : ∀ h, ForEndpoint S.disp hdr h → h.req = req → h.resp = resp → ∃ r'' ∈ a.endpoint_list.endpoints, r''.req = req ∧ r''.resp = resp := by
            intro h hf q1 q2
            obtain ⟨r'', m, q3, q4⟩ := x.handled h (by rw [← hD.eps]; exact hf.mem)
            exact ⟨r'', m, q3.trans q1, q4.trans q2⟩
          cases hrep with
          | called h g v ctx fr cut hf q1 q2 => exact han h hf q1 q2
          | spawned h v w i sc fr cut hf q1 q2 => exact han h hf q1 q2
          | ping v fr cut _ _ q1 q2 =>
            obtain ⟨r'', m, q3, q4⟩ := x.decl.ping
            rw [hD.std] at q1 q2
            exact ⟨r'', m, q3.trans q1, q4.trans q2⟩
          | schemas t fr cut _ _ q1 q2 =>
            obtain ⟨r'', m, q3, q4⟩ := x.decl.schemas
            rw [hD.std] at q1 q2
            exact ⟨r'', m, q3.trans q1, q4.trans q2⟩
        obtain ⟨r'', m, q1, q2⟩ := row
        rw [← q2]
        exact hD.answers r' hr' r'' m (by rw [q1, e2])
    | old i j t h v hsrc hlt =>
      have := hown o ho i hsrc
      omega
  obtain ⟨j, hdr, body, hlab, ht, hjn, hresp⟩ := main
  have henq := taken_enq si ht
  have hj : j < og.length := by rw [inv.ogLen]; exact getElem?_lt henq
  have hog : og[j]? = some og[j] := List.getElem?_eq_getElem hj
  have hfrom := inv.ogFrom j _ _ henq hog
  refine ⟨j, hlab, ?_⟩
  rw [hog]
  cases hd' : og[j] with
  | none =>
    rw [hd'] at hfrom
    obtain ⟨p, pb, k', hp, e⟩ := hfrom
    have : hdr.seq_no = pb.orig.header.seq_no := congrArg (fun f : RpcFrame => f.header.seq_no) e
    rw [this] at hjn
    exact absurd hjn (hkept.2 pb (List.mem_of_getElem? hp))
  | some d =>
    rw [hd'] at hfrom hog
    obtain ⟨dl, k', hdl, _, e⟩ := hfrom
    have hdn : seqVal dl.rqst.header.seq_no = n := by
      have : hdr.seq_no = dl.rqst.header.seq_no := congrArg (fun f : RpcFrame => f.header.seq_no) e
      rw [← this]; exact hjn
    obtain ⟨g1, g2⟩ := hkept.1 dl (List.mem_of_getElem? hdl) hdn
    obtain ⟨dl', e1, haft⟩ := inv.ogAfter j d hog
    rw [hdl] at e1; cases e1
    have twice : ∀ f' i', GotOwn a S s og ps d f' i' → False := by
      intro f' i' ⟨p, o', j', q1, q2, q3, q4, _⟩
      have ej := inv.ogInj j' j d q4 hog
      subst ej
      have hnd : (s.outs.filterMap (s.lab a S)).Nodup := by
        have := on.nd
        rw [List.filterMap_append] at this
        exact (List.nodup_append.mp this).1
      have ep := nodup_lab hnd q2 hpos q3 hlab
      have := hps p (List.mem_of_getElem? q1)
      omega
    cases hph : dl.phase with
    | waiting k2 =>
      have hwait : dl.phase.hasWait id.err = some k2 := by rw [hph]; cases id.err <;> rfl
      rcases ci.here d dl id.err k2 hdl hwait with ⟨h', hm'⟩ | ⟨w, hw1, hw2⟩
      · obtain ⟨dl2, k3, b1, b2, b3, _⟩ := ci.mapOk _ h' hm'
        have b1 : s.client.calls[d]? = some dl2 := b1
        rw [hdl] at b1; cases b1
        have eqh : hd.eq h' = true := by
          rw [hhd, b3]
          have hnn : dl.rqst.header.seq_no.eq cl.rqst.header.seq_no = true := (seq_eq_iff ..).mpr (by rw [hn, hdn])
          cases herr : id.err with
          | true => exact err_hdrs_eq S.cfg cl dl k k3 (by rw [hn, hdn])
          | false =>
            obtain ⟨r', hr', ek', er'⟩ := si.calls d dl hdl
            have hk8 : keyBytes hdr.key = short (keyLen k') r'.req := by
              have : hdr.key = (dl.rqst.shrink k').header.key := congrArg (fun f : RpcFrame => f.header.key) e
              rw [this]
              exact shrink8_key _ _ ek'
            have er2 := hresp r' hr' (fun hl => rxShort_of_long hl hk8) herr
            show (cl.ok_hdr k).eq (dl.ok_hdr k3) = true
            rw [Call.ok_hdr, Call.ok_hdr, VarHeader.eq, Bool.and_eq_true, er', er2]
            exact ⟨shrunk_eq _ _ _, (seq_eq_iff ..).mpr (by rw [hn, hdn])⟩
        have := reachable_mapOne si.reach _ hm _ hm' eqh
        have : id = ⟨d, id.err⟩ := congrArg Prod.fst this
        rw [this]
      · have hw1 : w ∈ s.client.woken := hw1
        have := inv.woke w hw1 dl (by rw [hw2]; exact hdl) hdn
        rw [hw2] at this
        exact (twice _ _ this).elim
    | done res =>
      cases res with
      | Resp f' i' => exact (twice _ _ (inv.got d dl false f' i' hdl (by rw [hph]; rfl) hdn)).elim
      | ErrResp f' i' => exact (twice _ _ (inv.got d dl true f' i' hdl (by rw [hph]; rfl) hdn)).elim
      | Closed => exact absurd hph g2
      | BadResponse => rw [hph] at haft; exact haft.elim
    | dropped => exact absurd hph g1
    | begun => rw [hph] at haft; exact haft.elim
    | kinded => rw [hph] at haft; exact haft.elim
    | half => rw [hph] at haft; exact haft.elim
    | registered => rw [hph] at haft; exact haft.elim

theorem GotOwn.mono {a : App V E SC Ctx} {S : SysCfg V E SC Ctx} {s s' : Sys V E SC Ctx} {og og' : List (Option Nat)} {ps ps' : List Nat} {c : Nat}
    {f : RpcFrame} {i : Nat} (h : GotOwn a S s og ps c f i) (ho : ∃ x, s'.outs = s.outs ++ x)
    (hl : ∀ o ∈ s.outs, s'.lab a S o = s.lab a S o) (hog : ∃ x, og' = og ++ x) (hps : ∃ x, ps' = ps ++ x) : GotOwn a S s' og' ps' c f i := by
  obtain ⟨p, o, j, h1, h2, h3, h4, h5⟩ := h
  exact ⟨p, o, j, get_append hps h1, get_append ho h2, by rw [hl o (List.mem_of_getElem? h2)]; exact h3, get_append hog h4, h5⟩

theorem sentAt_more {S : SysCfg V E SC Ctx} {s0 : Sys V E SC Ctx} {ls : List (SLabel V)} {c j : Nat} (h : SentAt S s0 ls c j) (l : SLabel V) :
    SentAt S s0 (ls ++ [l]) c j := by
  obtain ⟨b, af, s1, s2, e, h⟩ := h
  exact ⟨b, af ++ [l], s1, s2, by rw [e]; simp, h⟩

/-- A step of anything but the client. -/
theorem GetInv.server {a : App V E SC Ctx} {S : SysCfg V E SC Ctx} {n : Nat} {s0 : Sys V E SC Ctx} {ls0 : List (SLabel V)} {s s' : Sys V E SC Ctx}
    {og : List (Option Nat)} {ps : List Nat} (inv : GetInv a S n s0 ls0 s og ps) (l : SLabel V) (hc : s'.client = s.client)
    {xs : List (Out V)} (ho : s'.outs = s.outs ++ xs) (ha : s'.air = s.air ++ xs.flatMap (Out.bits S.enc))
    (hl : ∀ o ∈ s.outs, s'.lab a S o = s.lab a S o) : GetInv a S n s0 (ls0 ++ [l]) s' og ps where
  ogLen := by rw [hc]; exact inv.ogLen
  ogFrom := by rw [hc]; exact inv.ogFrom
  ogAfter := by rw [hc]; exact inv.ogAfter
  ogInj := inv.ogInj
  ogSent := fun i c h => sentAt_more (inv.ogSent i c h) l
  pubsOk := by rw [hc]; exact inv.pubsOk
  psLen := by rw [hc]; exact inv.psLen
  psInj := inv.psInj
  flow := by
    rw [hc]
    intro hov
    obtain ⟨dn, os, h1, h2, h3, h4⟩ := inv.flow hov
    exact ⟨dn, os ++ xs, by rw [ho, h1, List.append_assoc], by rw [ha, h2, List.flatMap_append], h3, h4⟩
  woke := by
    rw [hc]
    exact fun w hw cl h1 h2 => (inv.woke w hw cl h1 h2).mono ⟨xs, ho⟩ hl ⟨[], by simp⟩ ⟨[], by simp⟩
  got := by
    rw [hc]
    exact fun c cl err f i h1 h2 h3 => (inv.got c cl err f i h1 h2 h3).mono ⟨xs, ho⟩ hl ⟨[], by simp⟩ ⟨[], by simp⟩

/-- What a step of the client does to the rest. -/
theorem client_shape {S : SysCfg V E SC Ctx} {s s' : Sys V E SC Ctx} {l : Label} (h : sys_step S s (.client l) = some s') :
    ∃ c air, step S.cfg s.client l = some c ∧ s' = { s with client := c, air := air } ∧
      ((∃ b, l = .in_recv (some b) ∧ s.air = b :: air) ∨ ((∀ b, l ≠ .in_recv (some b)) ∧ air = s.air)) := by
  simp only [sys_step, client_step] at h
  split at h
  · rename_i b
    split at h
    · cases h
    · rename_i b' air e
      split at h
      · rename_i eb
        subst eb
        split at h
        · rename_i c hc
          cases h
          exact ⟨c, air, hc, rfl, .inl ⟨b, rfl, e⟩⟩
        · cases h
      · cases h
  · rename_i hne
    split at h
    · rename_i c hc
      cases h
      exact ⟨c, s.air, hc, rfl, .inr ⟨fun b e => hne b e, rfl⟩⟩
    · cases h

/-- The origins of the accepted messages after a step of the client. -/
theorem origin_step {a : App V E SC Ctx} {S : SysCfg V E SC Ctx} {n : Nat} {s0 : Sys V E SC Ctx} {ls0 : List (SLabel V)} {s s' : Sys V E SC Ctx}
    {og : List (Option Nat)} {ps : List Nat} (inv : GetInv a S n s0 ls0 s og ps) (hrun : sys_run S ls0 s0 = some s) {l : Label}
    (h : sys_step S s (.client l) = some s') : ∃ og', (∃ x, og' = og ++ x) ∧ og'.length = s'.client.enq.length ∧
      (∀ (i : Nat) f o, s'.client.enq[i]? = some f → og'[i]? = some o → FromOk s'.client f o) ∧
      (∀ (i c : Nat), og'[i]? = some (some c) → ∃ cl, s'.client.calls[c]? = some cl ∧ cl.phase.after) ∧
      (∀ (i i' c : Nat), og'[i]? = some (some c) → og'[i']? = some (some c) → i = i') ∧
      ∀ (i c : Nat), og'[i]? = some (some c) → SentAt S s0 (ls0 ++ [.client l]) c i := by
  obtain ⟨c', air, hs, hsh, _⟩ := client_shape h
  have hcl : s'.client = c' := by rw [hsh]
  have aft : ∀ {c : Nat}, (∃ cl, s.client.calls[c]? = some cl ∧ cl.phase.after) → ∃ cl, s'.client.calls[c]? = some cl ∧ cl.phase.after := by
    intro c ⟨cl, h1, h2⟩
    obtain ⟨cl', g1, g2, _⟩ := step_after hs h1 h2
    rw [hcl]
    exact ⟨cl', g1, g2⟩
  have frm : ∀ {f o}, FromOk s.client f o → FromOk s'.client f o := fun hf => by rw [hcl]; exact fromOk_step hs hf
  have len := inv.ogLen
  rcases step_enq hs with e | ⟨c, cl, k, el, g1, g2, g3, e⟩ | ⟨p, pb, _, g1, _, g3, e⟩
  · rw [← hcl] at e
    exact ⟨og, ⟨[], by simp⟩, by rw [e]; exact len, fun i f o q1 q2 => frm (inv.ogFrom i f o (by rw [← e]; exact q1) q2),
      fun i c q => aft (inv.ogAfter i c q), inv.ogInj, fun i c q => sentAt_more (inv.ogSent i c q) _⟩
  · rw [← hcl] at e g3
    have fresh : ∀ i : Nat, og[i]? ≠ some (some c) := by
      intro i hi
      obtain ⟨cl', a1, a2⟩ := inv.ogAfter i c hi
      rw [g1] at a1
      cases a1
      rw [g2] at a2
      exact a2
    refine ⟨og ++ [some c], ⟨_, rfl⟩, by rw [e, List.length_append, List.length_append, len]; rfl, fun i f o q1 q2 => ?_, fun i d q => ?_, ?_, fun i d q => ?_⟩
    · rw [e] at q1
      rcases snoc_get q1 with q1 | ⟨rfl, rfl⟩
      · rcases snoc_get q2 with q2 | ⟨q2, _⟩
        · exact frm (inv.ogFrom i f o q1 q2)
        · have := getElem?_lt q1; omega
      · rw [← len] at q2
        rcases snoc_get q2 with q2 | ⟨_, rfl⟩
        · have := getElem?_lt q2; omega
        · exact ⟨_, k, g3, trivial, rfl⟩
    · rcases snoc_get q with q | ⟨_, q⟩
      · exact aft (inv.ogAfter i d q)
      · cases q; exact ⟨_, g3, trivial⟩
    · intro i i' d q1 q2
      rcases snoc_get q1 with q1 | ⟨rfl, ea⟩ <;> rcases snoc_get q2 with q2 | ⟨rfl, eb⟩
      · exact inv.ogInj i i' d q1 q2
      · cases eb; exact absurd q1 (fresh i)
      · cases ea; exact absurd q2 (fresh i')
      · rfl
    · rcases snoc_get q with q' | ⟨rfl, q'⟩
      · exact sentAt_more (inv.ogSent i d q') _
      · cases q'
        subst el
        exact ⟨ls0, [], s, s', rfl, hrun, h, len.symm, by rw [e, List.length_append, len]; rfl⟩
  · rw [← hcl] at e g3
    refine ⟨og ++ [none], ⟨_, rfl⟩, by rw [e, List.length_append, List.length_append, len]; rfl, fun i f o q1 q2 => ?_, fun i d q => ?_, ?_, fun i d q => ?_⟩
    · rw [e] at q1
      rcases snoc_get q1 with q1 | ⟨rfl, rfl⟩
      · rcases snoc_get q2 with q2 | ⟨q2, _⟩
        · exact frm (inv.ogFrom i f o q1 q2)
        · have := getElem?_lt q1; omega
      · rw [← len] at q2
        rcases snoc_get q2 with q2 | ⟨_, rfl⟩
        · have := getElem?_lt q2; omega
        · obtain ⟨k, ek⟩ := inv.pubsOk p pb g1
          exact ⟨p, _, k, g3, ek⟩
    · rcases snoc_get q with q | ⟨_, q⟩
      · exact aft (inv.ogAfter i d q)
      · cases q
    · intro i i' d q1 q2
      rcases snoc_get q1 with q1 | ⟨rfl, ea⟩ <;> rcases snoc_get q2 with q2 | ⟨rfl, eb⟩
      · exact inv.ogInj i i' d q1 q2
      · cases eb
      · cases ea
      · rfl
    · rcases snoc_get q with q | ⟨_, q⟩
      · exact sentAt_more (inv.ogSent i d q) _
      · cases q

theorem getInv_client {a : App V E SC Ctx} {S : SysCfg V E SC Ctx} {n : Nat} {s0 : Sys V E SC Ctx} {ls0 : List (SLabel V)} {s s' : Sys V E SC Ctx}
    {og : List (Option Nat)} {ps : List Nat} (x : OnceCtx a S) (si : SysInvR a S s) (on : OnceInv a S s) (inv : GetInv a S n s0 ls0 s og ps)
    (hkept : NumberKept s.client n) (hown : ∀ o ∈ s.outs, ∀ i, o.src = .task i → s.old ≤ i) (hrun : sys_run S ls0 s0 = some s) {l : Label}
    (h : sys_step S s (.client l) = some s') : ∃ og' ps', GetInv a S n s0 (ls0 ++ [.client l]) s' og' ps' := by
  obtain ⟨og', ox, o1, o2, o3, o4, o5⟩ := origin_step inv hrun h
  obtain ⟨c', air, hs, rfl, hair⟩ := client_shape h
  have ci := reachable_coreInv si.reach
  have pubs : ∀ (p : Nat) (pb : Pub), c'.pubs[p]? = some pb → ∃ k, pb.frame = pb.orig.shrink k := by
    intro p pb hp
    rcases step_pub hs hp with ⟨pb0, g1, g2, g3⟩ | ⟨f, _, g2, g3⟩
    · obtain ⟨k, e⟩ := inv.pubsOk p pb0 g1
      exact ⟨k, by rw [g2, g3]; exact e⟩
    · exact ⟨s.client.kkind, by rw [g2, g3]⟩
  -- what had been given to calls before
  have old : ∀ {ps'}, (∃ y, ps' = ps ++ y) → ∀ w ∈ s.client.woken, ∀ cl, c'.calls[w.id.call]? = some cl → seqVal cl.rqst.header.seq_no = n →
      GotOwn a S { s with client := c', air := air } og' ps' w.id.call w.frame w.idx := by
    intro ps' hps' w hw cl h1 h2
    obtain ⟨cl0, _, g1, _⟩ := ci.wokenOk w hw
    have g1 : s.client.calls[w.id.call]? = some cl0 := g1
    obtain ⟨cl1, g2, g3⟩ := step_rqst hs g1
    rw [h1] at g2; cases g2
    have e : cl.rqst = cl0.rqst := congrArg (fun x => x.1) g3
    exact (inv.woke w hw cl0 g1 (by rw [← e]; exact h2)).mono ⟨[], by simp⟩ (fun _ _ => rfl) ox hps'
  have got : ∀ {ps'}, (∃ y, ps' = ps ++ y) → ∀ (c : Nat) cl err f i, c'.calls[c]? = some cl → cl.phase.result = some (err, f, i) →
      seqVal cl.rqst.header.seq_no = n → GotOwn a S { s with client := c', air := air } og' ps' c f i := by
    intro ps' hps' c cl err f i h1 h2 h3
    have before : s.client.calls[c]? = some cl → GotOwn a S { s with client := c', air := air } og' ps' c f i := fun g =>
      (inv.got c cl err f i g h2 h3).mono ⟨[], by simp⟩ (fun _ _ => rfl) ox hps'
    rcases step_take hs with ⟨_, hb⟩ | ⟨d, dl, k, err', v, a1, a2, a3, a4, a5, a6⟩
    · exact before (hb c cl _ h1 h2)
    · rw [a6, set_get a1] at h1
      split at h1
      · rename_i e
        subst e
        cases h1
        have e2 : (Phase.done (if err' then .ErrResp v.frame v.idx else .Resp v.frame v.idx)).result = some (err', v.frame, v.idx) := by
          cases err' <;> rfl
        rw [show _ = some (err', v.frame, v.idx) from e2] at h2
        cases h2
        have := inv.woke v a3 dl (by rw [a4]; exact a1) h3
        rw [a4] at this
        exact this.mono ⟨[], by simp⟩ (fun _ _ => rfl) ox hps'
      · exact before h1
  rcases step_offers hs with ⟨e1, e2⟩ | ⟨f, e1, e2, e3, e4, e5, e6, e7⟩
  · refine ⟨og', ps, ⟨o1, o2, o3, o4, o5, pubs, by show ps.length = c'.seen.length; rw [e1]; exact inv.psLen, inv.psInj, ?_,
      fun w hw => old ⟨[], by simp⟩ w (e2 w hw), got ⟨[], by simp⟩⟩⟩
    intro hov
    have hov : c'.in_pc.over = false := hov
    obtain ⟨dn, os, f1, f2, f3, f4⟩ := inv.flow ((step_arr hs).1 hov).1
    rcases hair with ⟨b, rfl, hb⟩ | ⟨hne, rfl⟩
    · rw [f2] at hb
      obtain ⟨sk, o, rest, q1, q2, q3, q4⟩ := next_bits hb
      refine ⟨dn ++ sk ++ [o], rest, by show s.outs = _; rw [f1, q1]; simp, q4, fun p hp => ?_, fun f hf => ?_⟩
      · have := f3 p hp
        simp only [List.length_append]
        omega
      · refine ⟨dn ++ sk, o, rfl, ?_, fun p hp => by have := f3 p hp; simp only [List.length_append]; omega⟩
        have fate := bits_fate q3
        have hf : c'.in_pc.frame = some f := hf
        simp only [step, in_recv] at hs
        split at hs
        · rename_i hpc
          split at hs
          · cases hs
          · cases hs
            rw [hpc.1] at hf; cases hf
          · rename_i hdr body ht
            cases hs
            cases hf
            rw [ht] at fate
            exact fate
        · cases hs
    · exact ⟨dn, os, f1, f2, f3, fun f hf => f4 f (step_frame hs hne hf)⟩
  · have hov : s.client.in_pc.over = false := by rw [e1]; rfl
    obtain ⟨dn, os, f1, f2, f3, f4⟩ := inv.flow hov
    obtain ⟨d0, o, rfl, f5, f6⟩ := f4 f (by rw [e1]; rfl)
    have hairs : air = s.air := by
      rcases hair with ⟨b, e, _⟩ | ⟨_, e⟩
      · exact absurd e (e6 _)
      · exact e
    have f1' : s.outs = d0 ++ o :: os := by rw [f1, List.append_assoc]; rfl
    refine ⟨og', ps ++ [d0.length], ⟨o1, o2, o3, o4, o5, pubs, ?_, ?_, fun _ => ?_, ?_, got ⟨_, rfl⟩⟩⟩
    · show (ps ++ [d0.length]).length = c'.seen.length
      rw [e3, List.length_append, List.length_append, inv.psLen]; rfl
    · intro i i' p q1 q2
      rcases snoc_get q1 with q1 | ⟨rfl, ea⟩ <;> rcases snoc_get q2 with q2 | ⟨rfl, eb⟩
      · exact inv.psInj i i' p q1 q2
      · have := f6 p (List.mem_of_getElem? q1); omega
      · have := f6 p (List.mem_of_getElem? q2); omega
      · rfl
    · refine ⟨d0 ++ [o], os, f1, by rw [← f2]; exact hairs, fun p hp => ?_, fun g hg => ?_⟩
      · rcases List.mem_append.mp hp with hp | hp
        · exact f3 p hp
        · rw [List.mem_singleton.mp hp]; simp
      · have hg : c'.in_pc.frame = some g := hg
        rw [e2] at hg; cases hg
    · intro w hw cl h1 h2
      have hw : w ∈ c'.woken := hw
      have h1 : c'.calls[w.id.call]? = some cl := h1
      rcases e7 with e7 | ⟨id, hd, g1, g2, e7⟩
      · rw [e7] at hw; exact old ⟨_, rfl⟩ w hw cl h1 h2
      · rw [e7] at hw
        rcases List.mem_append.mp hw with hw | hw
        · exact old ⟨_, rfl⟩ w hw cl h1 h2
        · rw [List.mem_singleton] at hw
          subst hw
          rw [e4] at h1
          obtain ⟨j, r1, r2⟩ := delivered x si on inv hkept hown g1 g2 h1 h2 f1' f5 f6
          refine ⟨d0.length, o, j, ?_, ?_, r1, get_append ox r2, f5⟩
          · show (ps ++ [d0.length])[s.client.seen.length]? = _
            rw [← inv.psLen, List.getElem?_append_right (Nat.le_refl _), Nat.sub_self]; rfl
          · show s.outs[d0.length]? = some o
            rw [f1', List.getElem?_append_right (Nat.le_refl _), Nat.sub_self]; rfl

theorem getInv_step {a : App V E SC Ctx} {S : SysCfg V E SC Ctx} {n : Nat} {s0 : Sys V E SC Ctx} {ls0 : List (SLabel V)} {s s' : Sys V E SC Ctx}
    {og : List (Option Nat)} {ps : List Nat} (x : OnceCtx a S) (si : SysInvR a S s) (on : OnceInv a S s) (inv : GetInv a S n s0 ls0 s og ps)
    (hkept : NumberKept s.client n) (hown : ∀ o ∈ s.outs, ∀ i, o.src = .task i → s.old ≤ i) (hrun : sys_run S ls0 s0 = some s) {l : SLabel V}
    (h : sys_step S s l = some s') : ∃ og' ps', GetInv a S n s0 (ls0 ++ [l]) s' og' ps' := by
  cases l with
  | client l => exact getInv_client x si on inv hkept hown hrun h
  | serve =>
    obtain ⟨b, up, srv, hb, rfl, hp, hc⟩ := serve_handle h
    exact ⟨og, ps, inv.server _ rfl (xs := []) (by simp [Sys.served]) (by simp [Sys.served])
      fun o ho => lab_grow (s' := s.served S up srv) ⟨spawned_ok s.taken (srv.log.drop s.srv.log.length), rfl⟩ rfl (si.outs o ho)⟩
  | reject =>
    simp only [sys_step, reject] at h
    split at h
    · cases h
      exact ⟨og, ps, inv.server _ rfl (xs := []) (by simp) (by simp) fun o ho => rfl⟩
    · cases h
  | flush =>
    simp only [sys_step] at h
    split at h
    · cases h
    · rename_i o rest e
      rw [put_shape h]
      exact ⟨og, ps, inv.server _ rfl (xs := [o]) rfl (by simp) fun o ho => rfl⟩
  | task_reply i v =>
    simp only [sys_step, task_reply] at h
    split at h
    · cases h
    · split at h
      · cases h
      · split at h
        · cases h
        · obtain ⟨cut, srv, rfl⟩ := send_shape h
          exact ⟨og, ps, inv.server _ rfl (xs := [_]) rfl (by simp) fun o ho => rfl⟩
  | app_publish key seq v =>
    simp only [sys_step, app_publish] at h
    obtain ⟨cut, srv, rfl⟩ := send_shape h
    exact ⟨og, ps, inv.server _ rfl (xs := [_]) rfl (by simp) fun o ho => rfl⟩

theorem sys_numberKept_back {S : SysCfg V E SC Ctx} {s s' : Sys V E SC Ctx} {l : SLabel V} (h : sys_step S s l = some s') {n : Nat}
    (hk : NumberKept s'.client n) : NumberKept s.client n := by
  cases l with
  | client l =>
    obtain ⟨c, air, hs, rfl, _⟩ := client_shape h
    exact numberKept_back hs hk
  | serve =>
    obtain ⟨b, up, srv, hb, rfl, _⟩ := serve_cases h
    exact hk
  | reject =>
    simp only [sys_step, reject] at h
    split at h
    · cases h; exact hk
    · cases h
  | flush =>
    simp only [sys_step] at h
    split at h
    · cases h
    · rw [put_shape h] at hk; exact hk
  | task_reply i v =>
    simp only [sys_step, task_reply] at h
    repeat' split at h
    all_goals first
      | (cases h; done)
      | (obtain ⟨cut, srv, rfl⟩ := send_shape h; exact hk)
  | app_publish key seq v =>
    simp only [sys_step, app_publish] at h
    obtain ⟨cut, srv, rfl⟩ := send_shape h
    exact hk

theorem sys_run_kept_back {S : SysCfg V E SC Ctx} {ls : List (SLabel V)} : ∀ {s s' : Sys V E SC Ctx}, sys_run S ls s = some s' → ∀ {n : Nat},
    NumberKept s'.client n → NumberKept s.client n := by
  induction ls with
  | nil => intro s s' h n hk; cases h; exact hk
  | cons l ls ih =>
    intro s s' h n hk
    simp only [sys_run] at h
    split at h
    · rename_i t ht
      exact sys_numberKept_back ht (ih h hk)
    · cases h

theorem sys_run_snoc {S : SysCfg V E SC Ctx} {ls : List (SLabel V)} {l : SLabel V} : ∀ {s t u : Sys V E SC Ctx}, sys_run S ls s = some t →
    sys_step S t l = some u → sys_run S (ls ++ [l]) s = some u := by
  induction ls with
  | nil => intro s t u h h'; cases h; simp only [List.nil_append, sys_run, h']
  | cons x ls ih =>
    intro s t u h h'
    simp only [sys_run] at h
    split at h
    · rename_i v hv
      simp only [List.cons_append, sys_run, hv]
      exact ih h h'
    · cases h

theorem repliers_mem {i : Nat} {v : V} {ls : List (SLabel V)} (h : SLabel.task_reply i v ∈ ls) : i ∈ repliers ls := by
  induction ls with
  | nil => cases h
  | cons l ls ih =>
    rcases List.mem_cons.mp h with rfl | h
    · exact List.mem_cons_self ..
    · have := ih h
      cases l <;> first | exact this | exact List.mem_cons_of_mem _ this

/-- What the server has yet to send is for requests. -/
theorem step_pending_req {S : SysCfg V E SC Ctx} {s s' : Sys V E SC Ctx} {l : SLabel V} (h : sys_step S s l = some s')
    (hp : ∀ o ∈ s.pending, ∀ i, o.src ≠ .task i) : ∀ o ∈ s'.pending, ∀ i, o.src ≠ .task i := by
  cases l with
  | client l =>
    obtain ⟨c, air, hs, rfl, _⟩ := client_shape h
    exact hp
  | serve =>
    obtain ⟨b, up, srv, hb, rfl, _⟩ := serve_cases h
    intro o ho i hi
    rw [(sent_ok_mem ho).1] at hi
    cases hi
  | reject =>
    simp only [sys_step, reject] at h
    split at h
    · cases h; exact hp
    · cases h
  | flush =>
    simp only [sys_step] at h
    split at h
    · cases h
    · rename_i o rest e
      rw [put_shape h]
      exact fun o' ho => hp o' (by rw [e]; exact List.mem_cons_of_mem _ ho)
  | task_reply i v =>
    simp only [sys_step, task_reply] at h
    repeat' split at h
    all_goals first
      | (cases h; done)
      | (obtain ⟨cut, srv, rfl⟩ := send_shape h; exact hp)
  | app_publish key seq v =>
    simp only [sys_step, app_publish] at h
    obtain ⟨cut, srv, rfl⟩ := send_shape h
    exact hp

theorem sys_run_get {a : App V E SC Ctx} {S : SysCfg V E SC Ctx} {n : Nat} {s0 : Sys V E SC Ctx} (x : OnceCtx a S) {ls : List (SLabel V)} :
    ∀ {ls0 : List (SLabel V)} {s s' : Sys V E SC Ctx} {og : List (Option Nat)} {ps : List Nat}, sys_run S ls0 s0 = some s → sys_run S ls s = some s' →
      (∀ l ∈ ls, UsedRaw a l) → OwnTasks s.old ls → (repliers ls).Nodup → (∀ i ∈ repliers ls, ¬ Replied s i) →
      s.old ≤ s.tasks.length → (∀ o ∈ s.pending, ∀ i, o.src ≠ .task i) → (∀ o ∈ s.outs, ∀ i, o.src = .task i → s.old ≤ i) → NumberKept s'.client n →
      SysInvR a S s → OnceInv a S s → GetInv a S n s0 ls0 s og ps → ∃ og' ps', GetInv a S n s0 (ls0 ++ ls) s' og' ps' := by
  induction ls with
  | nil => intro ls0 s s' og ps _ h _ _ _ _ _ _ _ _ _ _ inv; cases h; exact ⟨og, ps, by rw [List.append_nil]; exact inv⟩
  | cons l ls ih =>
    intro ls0 s s' og ps h0 h hu hown hnd hrep hlen hpend hown0 hk si on inv
    simp only [sys_run] at h
    split at h
    · rename_i t ht
      have hk0 := sys_numberKept_back ht (sys_run_kept_back h hk)
      have hold := sys_step_old ht
      have hnew : ∀ i v, l = .task_reply i v → ¬ Replied s i := fun i v e => hrep i (by rw [e]; exact List.mem_cons_self ..)
      obtain ⟨og1, ps1, inv1⟩ := getInv_step x si on inv hk0 hown0 h0 ht
      have st := sys_step_sources ht
      obtain ⟨og2, ps2, inv2⟩ := ih (sys_run_snoc h0 ht) h (fun l' hl => hu l' (List.mem_cons_of_mem _ hl))
        (by rw [hold]; exact fun i v hi => hown i v (List.mem_cons_of_mem _ hi))
        (by cases l <;> first | exact hnd | exact (List.nodup_cons.mp hnd).2)
        (by
          intro i hi ⟨o, ho, e⟩
          rcases st.2 o (.inr ho) i e with ho' | ⟨v, rfl⟩
          · rcases ho' with ho' | ho'
            · exact hpend o ho' i e
            · exact hrep i (by cases l <;> first | exact hi | exact List.mem_cons_of_mem _ hi) ⟨o, ho', e⟩
          · exact (List.nodup_cons.mp hnd).1 hi)
        (by obtain ⟨y, hy⟩ := st.1; rw [hold, hy, List.length_append]; omega)
        (step_pending_req ht hpend)
        (by
          intro o ho i e
          rw [hold]
          rcases st.2 o (.inr ho) i e with (ho' | ho') | ⟨v, rfl⟩
          · exact absurd e (hpend o ho' i)
          · exact hown0 o ho' i e
          · exact hown i v (List.mem_cons_self ..))
        hk (sys_step_invR ht (hu l (List.mem_cons_self ..)) si) (onceInv_step x si on hnew hlen ht) inv1
      exact ⟨og2, ps2, by rw [List.append_assoc] at inv2; exact inv2⟩
    · cases h

theorem getInv_start {a : App V E SC Ctx} {S : SysCfg V E SC Ctx} (n : Nat) {s0 : Sys V E SC Ctx} (hc : s0.client = Client.new) (ho : s0.outs = [])
    (ha : s0.air = []) : GetInv a S n s0 [] s0 [] [] where
  ogLen := by rw [hc]; rfl
  ogFrom := fun i f o _ h => by simp at h
  ogAfter := fun i c h => by simp at h
  ogInj := fun i i' c h => by simp at h
  ogSent := fun i c h => by simp at h
  pubsOk := fun p pb h => by rw [hc] at h; simp [Client.new] at h
  psLen := by rw [hc]; rfl
  psInj := fun i i' p h => by simp at h
  flow := fun _ => ⟨[], [], by rw [ho]; rfl, by rw [ha]; rfl, fun p hp => (by cases hp), fun f hf => by rw [hc] at hf; cases hf⟩
  woke := fun w hw => by rw [hc] at hw; cases hw
  got := fun c cl err f i h => by rw [hc] at h; simp [Client.new] at h

theorem sessions_fresh {a : App V E SC Ctx} {S : SysCfg V E SC Ctx} {es : List (Sys V E SC Ctx)} {s0 : Sys V E SC Ctx} (h : Sessions a S es s0) :
    s0.client = Client.new ∧ s0.air = [] := by
  cases h with
  | first c => exact ⟨rfl, rfl⟩
  | next => exact ⟨rfl, rfl⟩

/-- A frame a call returned, if it is (the beginning of) a frame the server sent, has the key the call waits for. -/
theorem completed_at {a : App V E SC Ctx} {S : SysCfg V E SC Ctx} {s : Sys V E SC Ctx} (hD : Routes a S.disp)
    (hdecl : Declared a S.kkind) (inv : SysInvR a S s) {c : Nat} {cl : Call} {err : Bool} {f : RpcFrame} {i : Nat}
    (h1 : s.client.calls[c]? = some cl) (h2 : result cl = some (err, f, i)) {o : Out V} (ho : o ∈ s.outs) (hc : CarriesPart S.enc o f) :
    OutKind a S s o ∧ keyBytes o.frame.hdr.key = short (keyLen S.kkind) (wantKey S.cfg cl err) := by
  rw [result_eq] at h2
  have hk := out_kind hD hdecl inv (inv.outs o ho)
  obtain ⟨k, hkk, ha⟩ := reachable_answered inv.reach (sys_consist hD hdecl inv) h1 h2
  refine ⟨hk, ?_⟩
  have hl : (keyBytes f.header.key).length = keyLen S.kkind := by rw [hc.header, ← kind_len, outKind_kind hk]
  have hle : keyLen S.kkind ≤ keyLen k := by
    rcases hkk with rfl | rfl
    · exact keyLen_le _
    · exact Nat.le_refl _
  have key := ha.key
  rw [KeyAgrees, hl, Nat.min_eq_right hle] at key
  rw [← hc.header, ← key]
  have := fold_self f.header.key
  rw [hl] at this
  exact this.symm

theorem replyTo_at {D : Dispatcher V E SC Ctx} {s : Sys V E SC Ctx} {j j' : Nat} {hdr : VarHeader} {body : Bytes} {req resp : Key} {o : Out V}
    (h : ReplyTo D s j hdr body req resp o) (hl : o.src = .req j' ∨ ∃ i t, o.src = .task i ∧ s.old ≤ i ∧ s.tasks[i]? = some (j', t)) : j = j' := by
  cases h with
  | called => rcases hl with e | ⟨_, _, e, _⟩ <;> cases e; rfl
  | ping => rcases hl with e | ⟨_, _, e, _⟩ <;> cases e; rfl
  | schemas => rcases hl with e | ⟨_, _, e, _⟩ <;> cases e; rfl
  | spawned h v w i sc fr cut _ _ _ _ _ _ ht =>
    rcases hl with e | ⟨_, t, e, _, ht'⟩
    · cases e
    · cases e
      rw [ht] at ht'
      exact congrArg Prod.fst (Option.some.inj ht')

/-- The answer a call returned is the answer to what it sent. -/
theorem own_answer {a : App V E SC Ctx} {S : SysCfg V E SC Ctx} (x : OnceCtx a S)
    {es : List (Sys V E SC Ctx)} {s0 : Sys V E SC Ctx} (h0 : Sessions a S es s0)
    {ls : List (SLabel V)} {s : Sys V E SC Ctx} (hu : ∀ l ∈ ls, UsedRaw a l) (hrun : sys_run S ls s0 = some s)
    (hown : OwnTasks s0.tasks.length ls) (honce : (repliers ls).Nodup)
    {c : Nat} {cl : Call} {err : Bool} {f : RpcFrame} {i : Nat}
    (hc : s.client.calls[c]? = some cl) (hres : result cl = some (err, f, i)) (hkept : NumberKept s.client (seqVal cl.rqst.header.seq_no)) :
    ∃ o ∈ s.outs, ∃ j hdr, Carries S.enc o f ∧ SentFor s c cl j hdr ∧ SentAt S s0 ls c j ∧
      if err then ∃ e, o.src = .req j ∧ o.frame.body = .err e
      else ∃ req, cl.rqst.header.key = .Key8 req ∧ ReplyTo S.disp s j hdr cl.rqst.body req cl.resp_key o := by
  have st := sessions_start h0
  have i0 := st.inv.toSysInvR
  have inv := sys_run_invR hrun hu i0
  obtain ⟨f1, f2⟩ := sessions_fresh h0
  obtain ⟨og, ps, g⟩ := sys_run_get (n := seqVal cl.rqst.header.seq_no) x (ls0 := []) rfl hrun hu (by rw [st.old]; exact hown) honce
    (fun i _ ⟨o, ho, _⟩ => by rw [st.quiet.2] at ho; cases ho) (Nat.le_of_eq st.old)
    (fun o ho => by rw [st.quiet.1] at ho; cases ho) (fun o ho => by rw [st.quiet.2] at ho; cases ho) hkept i0
    (onceInv_start st.quiet.2 st.quiet.1 st.old) (getInv_start _ f1 st.quiet.2 f2)
  obtain ⟨p, o, j, _, hop, hlab, hog, hcar⟩ := g.got c cl err f i hc (by rw [← result_eq]; exact hres) rfl
  have ho := List.mem_of_getElem? hop
  obtain ⟨hcut, hans, hsrc⟩ := lab_src hlab
  obtain ⟨hkind, hkey⟩ := completed_at x.disp.toRoutes x.decl inv hc hres ho hcar
  have hwhole := hcar.whole hcut
  obtain ⟨r, hr, ek, er⟩ := inv.calls c cl hc
  have sentFor : ∀ {hdr body}, Taken s j hdr body → SentFor s c cl j hdr ∧ body = cl.rqst.body ∧ ∃ k, hdr = (cl.rqst.shrink k).header := by
    intro hdr body ht
    obtain ⟨cl', k, h1, _, h3⟩ := g.ogFrom j _ _ (taken_enq inv ht) hog
    rw [hc] at h1
    cases h1
    have eh : hdr = (cl.rqst.shrink k).header := congrArg RpcFrame.header h3
    have eb : body = cl.rqst.body := congrArg RpcFrame.body h3
    obtain ⟨b, t1, t2⟩ := ht
    refine ⟨⟨hc, ⟨b, t1, (isFrame_iff ..).mpr (by rw [← eb]; exact t2)⟩, ⟨keyLen k, ?_⟩, by rw [eh]; rfl⟩, eb, k, eh⟩
    rw [eh]
    exact (shrink_shortened cl.rqst k).key
  have hsent : SentAt S s0 ls c j := g.ogSent j c hog
  cases err with
  | true =>
    have hkey : keyBytes o.frame.hdr.key = short (keyLen S.kkind) a.std.error := by rw [hkey, wantKey, ← x.err_key]; rfl
    cases hkind with
    | out t seq b ht hm => exact absurd (hm.key.symm.trans hkey) (x.topic_err t ht)
    | reply j' hdr body b req resp ht hq hp hl hrx hm hrep =>
      obtain ⟨r, hr, e⟩ := List.mem_map.mp hp
      rw [← e] at hm
      exact absurd (hm.key.symm.trans hkey) (x.resp_err r hr)
    | old k j' t h v hsrc hlt ht hrole hm hname hresp hmsg =>
      obtain ⟨r, hr, e⟩ := List.mem_map.mp hresp
      rw [← e] at hmsg
      exact absurd (hmsg.key.symm.trans hkey) (x.resp_err r hr)
    | err j' hdr body e hs ht _ hm =>
      have : j' = j := by
        rcases hsrc with e | ⟨_, _, e, _⟩ <;> rw [hs] at e <;> cases e
        rfl
      subst this
      exact ⟨o, ho, j', hdr, hwhole, (sentFor ht).1, hsent, e, hs, hm.body⟩
  | false =>
    have hkey : keyBytes o.frame.hdr.key = short (keyLen S.kkind) r.resp := by rw [hkey, wantKey, ← er]; rfl
    cases hkind with
    | err j' hdr body e _ _ _ hm => exact absurd (hkey.symm.trans hm.key) (x.resp_err r hr)
    | out t seq b ht hm =>
      exact absurd (hkey.symm.trans hm.key)
        (apart_parts x.apart (List.mem_map.mpr ⟨r, hr, rfl⟩) (List.mem_map.mpr ⟨t, ht, rfl⟩))
    | old k j' t h v hs hlt =>
      rcases hsrc with e | ⟨_, _, e, hle, _⟩ <;> rw [hs] at e <;> cases e
      omega
    | reply j' hdr body b req resp ht hq hp hl hrx hm hrep =>
      have := replyTo_at hrep hsrc
      subst this
      obtain ⟨h1, rfl, k, eh⟩ := sentFor ht
      have e1 : resp = r.resp := apart_eq x.apart (List.mem_append.mpr (.inl hp))
        (List.mem_append.mpr (.inl (List.mem_map.mpr ⟨r, hr, rfl⟩))) (hm.key.symm.trans hkey)
      have erx : rxShort S.disp hdr = short (keyLen S.disp.n) r.req :=
        rxShort_of_long hl (k := k) (by rw [eh]; exact shrink8_key _ _ ek)
      have e2 : req = r.req := apart_eq x.disp.apart (List.mem_append.mpr (.inl hq))
        (List.mem_append.mpr (.inl (List.mem_map.mpr ⟨r, hr, rfl⟩))) (hrx.symm.trans erx)
      refine ⟨o, ho, j', hdr, hwhole, h1, hsent, r.req, ek, ?_⟩
      rw [er, ← e1, ← e2]
      exact hrep

end PRpc
