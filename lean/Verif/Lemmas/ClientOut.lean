import Verif.Lemmas.Client
/-!
Helper lemmas about the client's transition system: sequence numbers, the outgoing queue, key kinds, closing.
-/

namespace PRpc

/-- The part of a call that never changes. -/
def Call.sig (cl : Call) : RpcFrame × Key × Bool := (cl.rqst, cl.resp_key, cl.typed)

theorem sig_set {cs : List Call} {c : Nat} {cl cl2 : Call} (hc : cs[c]? = some cl) (h : cl2.sig = cl.sig) :
    (cs.set c cl2).map Call.sig = cs.map Call.sig := by
  induction cs generalizing c with
  | nil => cases hc
  | cons x cs ih =>
    cases c with
    | zero =>
      simp only [List.getElem?_cons_zero, Option.some.injEq] at hc
      subst hc
      simp [h]
    | succ c =>
      simp only [List.getElem?_cons_succ] at hc
      simp [ih hc]

theorem sig_set' {cs : List Call} {c : Nat} {cl : Call} (hc : cs[c]? = some cl) (p : Phase) (r : Nat) :
    (cs.set c ⟨cl.rqst, cl.resp_key, cl.typed, p, r⟩).map Call.sig = cs.map Call.sig := sig_set hc rfl

/-- Calls only ever get added; what they were started with does not change. -/
theorem coreStep_sig {cfg : Cfg} {a b : Core} (h : CoreStep cfg a b) :
    b.calls.map Call.sig = a.calls.map Call.sig ∨ ∃ cl : Call, b.calls = a.calls ++ [cl] ∧ cl.phase = .begun := by
  cases h with
  | add m w cs sn cl h => exact .inr ⟨cl, rfl, h⟩
  | skip => exact .inl rfl
  | wake => exact .inl rfl
  | nowake => exact .inl rfl
  | kind m w cs sn c cl k hc h => exact .inl (sig_set hc rfl)
  | regOk m w cs sn c cl k hc h => exact .inl (sig_set hc rfl)
  | dupOk m w cs sn c cl k hc h => exact .inl (sig_set hc rfl)
  | regErr m w cs sn c cl k hc h => exact .inl (sig_set hc rfl)
  | sent m w cs sn c cl k hc h => exact .inl (sig_set hc rfl)
  | finish m w cs sn c cl p hc h => exact .inl (sig_set hc rfl)
  | take m w cs sn c cl k err v hc h => exact .inl (sig_set hc rfl)

/-- The requests of the typed calls, in the order they were started. -/
def typedReqs (cs : List Call) : List RpcFrame := ((cs.map Call.sig).filter fun x => x.2.2).map fun x => x.1

theorem step_seq {cfg : Cfg} {s s' : Client} {l : Label} (h : step cfg s l = some s') :
    (s'.seq = s.seq ∧ typedReqs s'.calls = typedReqs s.calls) ∨
      (∃ req body, s'.seq = s.seq + 1#32 ∧ typedReqs s'.calls = typedReqs s.calls ++ [⟨⟨.Key8 req, .Seq4 s.seq⟩, body⟩]) := by
  have key : s'.seq = s.seq → s'.calls.map Call.sig = s.calls.map Call.sig →
      s'.seq = s.seq ∧ typedReqs s'.calls = typedReqs s.calls := fun h1 h2 => ⟨h1, by simp only [typedReqs, h2]⟩
  cases l with
  | call_begin req resp body =>
    simp only [step] at h
    split at h
    · cases h
      refine .inr ⟨req, body, rfl, ?_⟩
      simp [typedReqs, send_resp_begin, Call.sig]
    · cases h
  | call_begin_raw rqst resp =>
    simp only [step] at h
    split at h
    · cases h
      refine .inl ⟨rfl, ?_⟩
      simp [typedReqs, Call.sig]
    · cases h
  | _ =>
    refine .inl ?_
    simp only [step, call_reg_ok, call_reg_err, call_send, call_take, publish_raw_begin, pub_send, out_poll, out_recv,
      out_done, in_poll, in_recv, in_lookup, in_full_send, in_full_timeout, after_lookup, in_wake, Client.set_phase,
      Client.drop_waits] at h
    repeat' split at h
    all_goals first
      | (cases h; done)
      | (cases h; exact key rfl rfl)
      | (cases h; exact key rfl (sig_set' (by assumption) _ _))
      | (cases h; split <;> exact key rfl (sig_set' (by assumption) _ _))

theorem reachable_seq {cfg : Cfg} {s : Client} (h : Reachable cfg s) :
    s.seq = BitVec.ofNat 32 (typedReqs s.calls).length ∧
      ∀ (i : Nat) f, (typedReqs s.calls)[i]? = some f → f.header.seq_no = .Seq4 (BitVec.ofNat 32 i) := by
  refine reachable_induct (fun s => s.seq = BitVec.ofNat 32 (typedReqs s.calls).length ∧
      ∀ (i : Nat) f, (typedReqs s.calls)[i]? = some f → f.header.seq_no = .Seq4 (BitVec.ofNat 32 i)) ?_ ?_ h
  · refine ⟨rfl, fun i f hf => ?_⟩
    simp [typedReqs, Client.new] at hf
  · intro s l s' ⟨h1, h2⟩ hs
    rcases step_seq hs with ⟨e1, e2⟩ | ⟨req, body, e1, e2⟩
    · rw [e1, e2]; exact ⟨h1, h2⟩
    · rw [e1, e2]
      constructor
      · rw [h1, List.length_append]
        simp [BitVec.ofNat_add]
      · intro i f hf
        rcases Nat.lt_trichotomy i (typedReqs s.calls).length with hi | hi | hi
        · rw [List.getElem?_append_left hi] at hf
          exact h2 i f hf
        · subst hi
          rw [List.getElem?_append_right (Nat.le_refl _)] at hf
          simp at hf
          subst hf
          rw [h1]
        · rw [List.getElem?_eq_none (by simp; omega)] at hf; cases hf

/-! ### Closing -/

theorem step_stopped {cfg : Cfg} {s s' : Client} {l : Label} (h : step cfg s l = some s') (hs : s.stopped = true) :
    s'.stopped = true := by
  cases l with
  | _ =>
    simp only [step, send_resp_begin, call_reg_ok, call_reg_err, call_send, call_take, publish_raw_begin, pub_send,
      out_poll, out_recv, out_done, in_poll, in_recv, in_lookup, in_full_send, in_full_timeout, after_lookup, in_wake,
      Client.set_phase, Client.drop_waits] at h
    repeat' split at h
    all_goals first
      | (cases h; done)
      | (cases h; exact hs)
      | (cases h; rfl)
      | (cases h; split <;> exact hs)

@[simp] theorem subscribe_inner_arrived (s : Subs) (k : Key) (d : Nat) : (subscribe_inner s k d).2.arrived = s.arrived := by
  simp only [subscribe_inner]; repeat' split
  all_goals rfl

@[simp] theorem subscribe_excl_arrived (s : Subs) (k : Key) (d : Nat) :
    (subscribe_inner_exclusive s k d).2.arrived = s.arrived := by
  simp only [subscribe_inner_exclusive]; repeat' split
  all_goals rfl

@[simp] theorem subscribe_multi_arrived (s : Subs) (k : Key) (d : Nat) :
    (subscribe_multi_inner s k d).2.arrived = s.arrived := by
  simp only [subscribe_multi_inner]; repeat' split
  all_goals rfl

@[simp] theorem sub_recv_arrived (s : Subs) (i : Nat) : (sub_recv s i).2.arrived = s.arrived := by
  simp only [sub_recv]; repeat' split
  all_goals rfl

@[simp] theorem multi_recv_arrived (s : Subs) (i : Nat) : (multi_recv s i).2.arrived = s.arrived := by
  simp only [multi_recv]; repeat' split
  all_goals rfl

@[simp] theorem sub_drop_arrived (s : Subs) (i : Nat) : (sub_drop s i).arrived = s.arrived := by
  simp only [sub_drop]; split <;> rfl

@[simp] theorem multi_drop_arrived (s : Subs) (i : Nat) : (multi_drop s i).arrived = s.arrived := by
  simp only [multi_drop]; split <;> rfl

/-- Nothing more can be received: the receive worker has seen the stop, or will see it before it does anything else. -/
def RxOver (s : Client) : Prop := s.in_pc = .purge ∨ s.in_pc = .exited ∨ (s.stopped = true ∧ s.in_polled = false)

theorem step_rxOver {cfg : Cfg} {s s' : Client} {l : Label} (h : step cfg s l = some s') (hs : RxOver s) :
    RxOver s' ∧ s'.seen = s.seen ∧ s'.subs.arrived = s.subs.arrived := by
  cases l with
  | _ =>
    simp only [step, send_resp_begin, call_reg_ok, call_reg_err, call_send, call_take, publish_raw_begin, pub_send,
      out_poll, out_recv, out_done, in_poll, in_recv, in_lookup, in_full_send, in_full_timeout, after_lookup, in_wake,
      Client.set_phase, Client.drop_waits] at h
    repeat' split at h
    all_goals first
      | (cases h; done)
      | (cases h; exact ⟨hs, rfl, rfl⟩)
      | (cases h; rcases hs with hs | hs | hs <;> simp_all [RxOver, subs_purge]; done)
      | (cases h; refine ⟨hs, rfl, ?_⟩; simp; done)
      | (simp only [Option.some.injEq] at h; rcases hs with hs | hs | hs <;> simp_all; done)
      | (cases h; split <;> exact ⟨hs, rfl, rfl⟩)

/-! ### The outgoing queue -/

/-- The frames accepted are those handed to the transport, in order, then (while the worker lives) those still queued. -/
def OutInv (s : Client) : Prop :=
  ∃ pre rest, s.enq = pre ++ rest ∧ pre.map RpcFrame.to_bytes = s.tx.map Exec.ok ∧ (s.out_pc ≠ .exited → rest = s.outq)

theorem outInv_new : OutInv Client.new := ⟨[], [], rfl, rfl, fun _ => rfl⟩

theorem outInv_frame {s s' : Client} (h : OutInv s) (h1 : s'.enq = s.enq) (h2 : s'.tx = s.tx)
    (h3 : s'.out_pc ≠ .exited → s.out_pc ≠ .exited ∧ s'.outq = s.outq) : OutInv s' := by
  obtain ⟨pre, rest, a, b, c⟩ := h
  exact ⟨pre, rest, by rw [h1, a], by rw [h2, b], fun hp => by rw [(h3 hp).2]; exact c (h3 hp).1⟩

theorem outInv_push {s s' : Client} {f : RpcFrame} (h : OutInv s) (h0 : s.out_open = true) (h1 : s'.enq = s.enq ++ [f])
    (h2 : s'.tx = s.tx) (h3 : s'.outq = s.outq ++ [f]) : OutInv s' := by
  obtain ⟨pre, rest, a, b, c⟩ := h
  have : s.out_pc ≠ .exited := by simpa [Client.out_open] using h0
  exact ⟨pre, rest ++ [f], by rw [h1, a, List.append_assoc], by rw [h2, b], fun _ => by rw [h3, c this]⟩

theorem step_outInv {cfg : Cfg} {s s' : Client} {l : Label} (h : step cfg s l = some s') (inv : OutInv s) : OutInv s' := by
  cases l with
  | call_send c =>
    simp only [step] at h
    split at h
    · split at h
      · rw [call_send] at h
        split at h
        · cases h
          exact outInv_frame inv rfl rfl (fun hp => ⟨hp, rfl⟩)
        · rename_i ho
          split at h
          · cases h
            exact outInv_push inv (by simpa using ho) rfl rfl rfl
          · cases h
      · cases h
    · cases h
  | pub_send p =>
    simp only [step, pub_send] at h
    split at h
    · split at h
      · split at h
        · cases h
          exact outInv_frame inv rfl rfl (fun hp => ⟨hp, rfl⟩)
        · rename_i ho
          split at h
          · cases h
            exact outInv_push inv (by simpa using ho) rfl rfl rfl
          · cases h
      · cases h
    · cases h
  | out_recv =>
    simp only [step, out_recv] at h
    split at h
    · rename_i hp
      split at h
      · rename_i f q hq
        split at h
        · rename_i b hb
          cases h
          obtain ⟨pre, rest, a1, a2, a3⟩ := inv
          have hrest := a3 (by rw [hp.1]; simp)
          refine ⟨pre ++ [f], q, ?_, ?_, fun _ => rfl⟩
          · rw [a1, hrest, hq]; simp
          · simp [a2, hb]
        · cases h
      · split at h
        · cases h
        · cases h
          exact outInv_frame inv rfl rfl (fun hp => absurd rfl hp)
    · cases h
  | _ =>
    simp only [step, send_resp_begin, call_reg_ok, call_reg_err, call_take, publish_raw_begin,
      out_poll, out_done, in_poll, in_recv, in_lookup, in_full_send, in_full_timeout, after_lookup, in_wake,
      Client.set_phase, Client.drop_waits] at h
    repeat' split at h
    all_goals first
      | (cases h; done)
      | (cases h; exact outInv_frame inv rfl rfl (fun hp => ⟨hp, rfl⟩))
      | (cases h; exact outInv_frame inv rfl rfl (fun hp => absurd rfl hp))
      | (cases h; refine outInv_frame inv rfl rfl (fun hp => ⟨?_, rfl⟩); simp_all; done)
      | (cases h; split <;> exact outInv_frame inv rfl rfl (fun hp => ⟨hp, rfl⟩))

theorem reachable_outInv {cfg : Cfg} {s : Client} (h : Reachable cfg s) : OutInv s :=
  reachable_induct OutInv outInv_new (fun _ _ _ inv hs => step_outInv hs inv) h

/-- Once the transmit worker is gone nothing is handed to the transport or accepted any more. -/
theorem step_outExited {cfg : Cfg} {s s' : Client} {l : Label} (h : step cfg s l = some s') (he : s.out_pc = .exited) :
    s'.out_pc = .exited ∧ s'.tx = s.tx ∧ s'.enq = s.enq := by
  cases l with
  | _ =>
    simp only [step, send_resp_begin, call_reg_ok, call_reg_err, call_send, call_take, publish_raw_begin, pub_send,
      out_poll, out_recv, out_done, in_poll, in_recv, in_lookup, in_full_send, in_full_timeout, after_lookup, in_wake,
      Client.set_phase, Client.drop_waits] at h
    repeat' split at h
    all_goals first
      | (cases h; done)
      | (cases h; exact ⟨he, rfl, rfl⟩)
      | (simp_all [Client.out_open]; done)
      | (cases h; split <;> exact ⟨he, rfl, rfl⟩)

/-- Which steps put a frame into the outgoing queue. -/
theorem step_enq {cfg : Cfg} {s s' : Client} {l : Label} (h : step cfg s l = some s') :
    s'.enq = s.enq ∨
      (∃ (c : Nat) (cl : Call) (k : VarKeyKind), l = .call_send c ∧ s.calls[c]? = some cl ∧ cl.phase = .registered k ∧
        s'.calls[c]? = some { cl with phase := .waiting k } ∧ s'.enq = s.enq ++ [cl.rqst.shrink k]) ∨
      (∃ (p : Nat) (pb : Pub), l = .pub_send p ∧ s.pubs[p]? = some pb ∧ pb.res = none ∧
        s'.pubs[p]? = some { pb with res := some true } ∧ s'.enq = s.enq ++ [pb.frame]) := by
  cases l with
  | call_send c =>
    simp only [step] at h
    split at h
    · rename_i cl hc
      split at h
      · rename_i k hk
        rw [call_send] at h
        split at h
        · cases h; exact .inl rfl
        · split at h
          · cases h
            exact .inr (.inl ⟨c, cl, k, rfl, hc, hk, (set_get hc _ _).trans (if_pos rfl), rfl⟩)
          · cases h
      · cases h
    · cases h
  | pub_send p =>
    simp only [step, pub_send] at h
    split at h
    · rename_i pb hp
      split at h
      · rename_i hr
        split at h
        · cases h; exact .inl rfl
        · split at h
          · cases h
            refine .inr (.inr ⟨p, pb, rfl, hp, hr, ?_, rfl⟩)
            have : p < s.pubs.length := by
              rcases Nat.lt_or_ge p s.pubs.length with h | h
              · exact h
              · rw [List.getElem?_eq_none h] at hp; cases hp
            simp [this]
          · cases h
      · cases h
    · cases h
  | _ =>
    refine .inl ?_
    simp only [step, send_resp_begin, call_reg_ok, call_reg_err, call_take, publish_raw_begin,
      out_poll, out_recv, out_done, in_poll, in_recv, in_lookup, in_full_send, in_full_timeout, after_lookup, in_wake,
      Client.set_phase, Client.drop_waits] at h
    repeat' split at h
    all_goals first
      | (cases h; done)
      | (cases h; rfl)
      | (cases h; split <;> rfl)

/-! ### Key kinds -/

/-- The key kind a call that has not finished uses. -/
def Phase.kind : Phase → Option VarKeyKind
  | .kinded k => some k
  | .half k => some k
  | .registered k => some k
  | .waiting k => some k
  | _ => none

/-- `k` is the initial kind or the kind of a frame offered to the wait map. -/
def Learned (s : Client) (k : VarKeyKind) : Prop := k = .Key8 ∨ ∃ f ∈ s.seen, f.header.key.kind = k

theorem step_seen {cfg : Cfg} {s s' : Client} {l : Label} (h : step cfg s l = some s') :
    ∃ x, s'.seen = s.seen ++ x := by
  have := step_core h
  generalize ha : s.core = a at this
  generalize hb : s'.core = b at this
  have e1 : s.seen = a.seen := by rw [← ha]; rfl
  have e2 : s'.seen = b.seen := by rw [← hb]; rfl
  rw [e1, e2]
  cases this
  case wake f _ _ => exact ⟨[f], rfl⟩
  case nowake f _ => exact ⟨[f], rfl⟩
  all_goals exact ⟨[], (List.append_nil _).symm⟩

theorem learned_mono {cfg : Cfg} {s s' : Client} {l : Label} (h : step cfg s l = some s') {k : VarKeyKind}
    (hk : Learned s k) : Learned s' k := by
  obtain ⟨x, hx⟩ := step_seen h
  rcases hk with hk | ⟨f, hf, e⟩
  · exact .inl hk
  · exact .inr ⟨f, by rw [hx]; exact List.mem_append.mpr (.inl hf), e⟩

/-- The only steps that change the client's key kind are completions. -/
theorem step_kkind {cfg : Cfg} {s s' : Client} {l : Label} (h : step cfg s l = some s') :
    s'.kkind = s.kkind ∨ ∃ (c : Nat) (cl : Call) (k : VarKeyKind) (err : Bool) (v : Woken),
      (l = if err then .call_err c else .call_ok c) ∧ s.calls[c]? = some cl ∧ cl.phase = .waiting k ∧ v ∈ s.woken ∧
      v.id = ⟨c, err⟩ ∧ v.frame.header.key.kind ≠ k ∧ s'.kkind = v.frame.header.key.kind ∧
      s'.calls[c]? = some { cl with phase := .done (if err then .ErrResp v.frame v.idx else .Resp v.frame v.idx) } := by
  have take : ∀ c cl k err, s.calls[c]? = some cl → cl.phase = .waiting k → call_take s c cl k err = some s' →
      s'.kkind = s.kkind ∨ ∃ (v : Woken), v ∈ s.woken ∧ v.id = ⟨c, err⟩ ∧ v.frame.header.key.kind ≠ k ∧
      s'.kkind = v.frame.header.key.kind ∧
      s'.calls[c]? = some { cl with phase := .done (if err then .ErrResp v.frame v.idx else .Resp v.frame v.idx) } := by
    intro c cl k err hc hp ht
    rw [call_take] at ht
    split at ht
    · cases ht
    · rename_i v hv
      cases ht
      simp only [Client.set_phase, Client.drop_waits, learn]
      split
      · rename_i hne
        exact .inr ⟨v, List.mem_of_find?_eq_some hv, by simpa using List.find?_some hv, hne, rfl,
          (set_get hc _ _).trans (if_pos rfl)⟩
      · exact .inl rfl
  cases l with
  | call_ok c =>
    simp only [step] at h
    split at h
    · rename_i cl hc
      split at h
      · rename_i k hp
        rcases take c cl k false hc hp h with e | ⟨v, a1, a2, a3, a4, a5⟩
        · exact .inl e
        · exact .inr ⟨c, cl, k, false, v, rfl, hc, hp, a1, a2, a3, a4, a5⟩
      · cases h
    · cases h
  | call_err c =>
    simp only [step] at h
    split at h
    · rename_i cl hc
      split at h
      · rename_i k hp
        rcases take c cl k true hc hp h with e | ⟨v, a1, a2, a3, a4, a5⟩
        · exact .inl e
        · exact .inr ⟨c, cl, k, true, v, rfl, hc, hp, a1, a2, a3, a4, a5⟩
      · cases h
    · cases h
  | _ =>
    refine .inl ?_
    simp only [step, send_resp_begin, call_reg_ok, call_reg_err, call_send, publish_raw_begin, pub_send,
      out_poll, out_recv, out_done, in_poll, in_recv, in_lookup, in_full_send, in_full_timeout, after_lookup, in_wake,
      Client.set_phase, Client.drop_waits] at h
    repeat' split at h
    all_goals first
      | (cases h; done)
      | (cases h; rfl)
      | (cases h; split <;> rfl)

/-- Replacing a call's entry without giving it a new key kind. -/
theorem set_kind {cs : List Call} {c : Nat} {cl x : Call} (hc : cs[c]? = some cl)
    (hx : x.phase.kind = none ∨ x.phase.kind = cl.phase.kind) {i : Nat} {cl' : Call} {k : VarKeyKind}
    (hi : (cs.set c x)[i]? = some cl') (hk : cl'.phase.kind = some k) :
    ∃ cl, cs[i]? = some cl ∧ cl.phase.kind = some k := by
  rw [set_get hc] at hi
  split at hi
  · rename_i e
    cases hi
    rcases hx with hx | hx
    · rw [hx] at hk; cases hk
    · exact ⟨cl, by rw [e]; exact hc, hx.symm.trans hk⟩
  · exact ⟨cl', hi, hk⟩

/-- Where every call's key kind comes from. -/
theorem step_phase {cfg : Cfg} {s s' : Client} {l : Label} (h : step cfg s l = some s') {c : Nat} {cl' : Call}
    {k : VarKeyKind} (hc : s'.calls[c]? = some cl') (hk : cl'.phase.kind = some k) :
    (∃ cl, s.calls[c]? = some cl ∧ cl.phase.kind = some k) ∨ k = s.kkind := by
  by_cases hl : ∃ c', l = .call_kind c'
  · obtain ⟨c', rfl⟩ := hl
    simp only [step] at h
    split at h
    · rename_i cl0 hc0
      split at h
      · cases h
        simp only [Client.set_phase] at hc
        rw [set_get hc0] at hc
        split at hc
        · cases hc
          simp only [Phase.kind, Option.some.injEq] at hk
          exact .inr hk.symm
        · exact .inl ⟨cl', hc, hk⟩
      · cases h
    · cases h
  · refine .inl ?_
    have go : s'.calls = s.calls ∨ (∃ x : Call, x.phase = .begun ∧ s'.calls = s.calls ++ [x]) ∨
        ∃ (c : Nat) (cl x : Call), s.calls[c]? = some cl ∧ (x.phase.kind = none ∨ x.phase.kind = cl.phase.kind) ∧
          s'.calls = s.calls.set c x := by
      cases l with
      | call_kind c => exact absurd ⟨c, rfl⟩ hl
      | _ =>
        simp only [step, send_resp_begin, call_reg_ok, call_reg_err, call_send, call_take, publish_raw_begin, pub_send,
          out_poll, out_recv, out_done, in_poll, in_recv, in_lookup, in_full_send, in_full_timeout, after_lookup, in_wake,
          Client.set_phase, Client.drop_waits] at h
        repeat' split at h
        all_goals first
          | (cases h; done)
          | (cases h; exact .inl rfl)
          | (cases h; exact .inr (.inl ⟨_, rfl, rfl⟩))
          | (cases h; exact .inr (.inr ⟨_, _, _, by assumption, .inl rfl, rfl⟩))
          | (cases h; split <;> exact .inr (.inr ⟨_, _, _, by assumption, by simp_all [Phase.kind], rfl⟩))
          | (cases h; exact .inr (.inr ⟨_, _, _, by assumption, by simp_all [Phase.kind], rfl⟩))
    rcases go with e | ⟨x, hx, e⟩ | ⟨c', cl, x, h1, h2, e⟩
    · rw [e] at hc; exact ⟨cl', hc, hk⟩
    · rw [e] at hc
      rcases append_get_cases hc with hc | ⟨_, rfl⟩
      · exact ⟨cl', hc, hk⟩
      · rw [hx] at hk; cases hk
    · rw [e] at hc; exact set_kind h1 h2 hc hk

end PRpc
