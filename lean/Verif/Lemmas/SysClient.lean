import Verif.Lemmas.ClientRun
import Verif.Lemmas.ClientKind
import Verif.Lemmas.ClientOut
/-! Helper lemmas about the client used for the composed system. -/

namespace PRpc

open Spec

/-- The frame the receive worker holds. -/
def InPc.frame : InPc → Option RpcFrame
  | .lookup f => some f
  | .full f _ _ => some f
  | .wake f => some f
  | _ => none

/-- Every frame the receive worker holds or has offered satisfies `P`. -/
def Holds (P : RpcFrame → Prop) (s : Client) : Prop := (∀ f, s.in_pc.frame = some f → P f) ∧ ∀ f ∈ s.seen, P f

theorem step_holds {cfg : Cfg} {P : RpcFrame → Prop} {s s' : Client} {l : Label} (h : step cfg s l = some s')
    (hl : ∀ b hdr body, l = .in_recv (some b) → VarHeader.take_from_slice b = .ok (some (hdr, body)) → P ⟨hdr, body⟩)
    (inv : Holds P s) : Holds P s' := by
  have pc : ∀ {p : InPc}, s'.seen = s.seen → s'.in_pc = p → (∀ f, p.frame = some f → s.in_pc.frame = some f) → Holds P s' := by
    intro p e1 e2 e3
    exact ⟨fun f hf => inv.1 f (e3 f (by rw [← e2]; exact hf)), fun f hf => inv.2 f (by rw [← e1]; exact hf)⟩
  have same : s'.seen = s.seen → s'.in_pc = s.in_pc → Holds P s' := fun e1 e2 => pc e1 e2 (fun _ h => h)
  cases l with
  | in_recv r =>
    simp only [step, in_recv] at h
    split at h
    · split at h
      · cases h; exact pc rfl rfl (fun f hf => by cases hf)
      · split at h
        · cases h
        · cases h; exact inv
        · rename_i hdr body e
          cases h
          refine ⟨fun f hf => ?_, inv.2⟩
          simp only [InPc.frame, Option.some.injEq] at hf
          subst hf
          exact hl _ _ _ rfl e
    · cases h
  | in_lookup =>
    simp only [step, in_lookup] at h
    split at h
    · rename_i f e1 e2
      split at h
      · rename_i hd sb e
        cases h
        cases hd
        · exact pc (p := .wake f) rfl (by simp [after_lookup]) (fun g hg => by rw [e1]; exact hg)
        · exact pc (p := .recv) rfl (by simp [after_lookup]) (fun g hg => by cases hg)
      · cases h
        exact pc rfl rfl (fun g hg => by rw [e1]; exact hg)
    · cases h
  | in_full_send =>
    simp only [step, in_full_send, after_lookup] at h
    repeat' split at h
    all_goals first
      | (cases h; done)
      | (cases h; exact pc (p := .recv) rfl rfl (fun f hf => by cases hf))
      | (exact absurd trivial (by assumption))
  | in_full_timeout =>
    simp only [step, in_full_timeout, after_lookup] at h
    repeat' split at h
    all_goals first
      | (cases h; done)
      | (cases h; exact pc (p := .recv) rfl rfl (fun f hf => by cases hf))
      | (exact absurd trivial (by assumption))
  | in_wake w =>
    have wake : ∀ f, s.in_pc = .wake f → s'.seen = s.seen ++ [f] → s'.in_pc = .recv → Holds P s' := by
      intro f e1 e2 e3
      refine ⟨fun g hg => (by rw [e3] at hg; cases hg), fun g hg => ?_⟩
      rw [e2] at hg
      rcases List.mem_append.mp hg with hg | hg
      · exact inv.2 g hg
      · rw [List.mem_singleton.mp hg]
        exact inv.1 f (by rw [e1]; rfl)
    simp only [step, in_wake] at h
    split at h
    · rename_i f e1 e2
      split at h
      · split at h
        · cases h; exact wake f e1 rfl rfl
        · cases h
      · split at h
        · cases h
        · cases h; exact wake f e1 rfl rfl
    · cases h
  | _ =>
    simp only [step, send_resp_begin, call_reg_ok, call_reg_err, call_send, call_take, publish_raw_begin, pub_send,
      out_poll, out_recv, out_done, in_poll, Client.set_phase, Client.drop_waits] at h
    repeat' split at h
    all_goals first
      | (cases h; done)
      | (cases h; exact same rfl rfl)
      | (cases h; split <;> exact same rfl rfl)
      | (cases h; exact pc rfl rfl (fun f hf => by cases hf))

/-- What was handed to the transport stays. -/
theorem step_tx {cfg : Cfg} {s s' : Client} {l : Label} (h : step cfg s l = some s') : ∃ x, s'.tx = s.tx ++ x := by
  cases l with
  | _ =>
    simp only [step, send_resp_begin, call_reg_ok, call_reg_err, call_send, call_take, publish_raw_begin, pub_send,
      out_poll, out_recv, out_done, in_poll, in_recv, in_lookup, in_full_send, in_full_timeout, after_lookup, in_wake,
      Client.set_phase, Client.drop_waits] at h
    repeat' split at h
    all_goals first
      | (cases h; done)
      | (cases h; exact ⟨[], (List.append_nil _).symm⟩)
      | (cases h; exact ⟨_, rfl⟩)
      | (cases h; split <;> exact ⟨[], (List.append_nil _).symm⟩)

/-- What a call was started with. -/
theorem step_sig {cfg : Cfg} {s s' : Client} {l : Label} (h : step cfg s l = some s') {c : Nat} {cl : Call}
    (hc : s'.calls[c]? = some cl) : (∃ cl0, s.calls[c]? = some cl0 ∧ cl.sig = cl0.sig) ∨
      (∃ req resp body, l = .call_begin req resp body ∧ cl.sig = (⟨⟨.Key8 req, .Seq4 s.seq⟩, body⟩, resp, true)) ∨
      (∃ rqst resp, l = .call_begin_raw rqst resp ∧ cl.sig = (rqst, resp, false)) := by
  have key : s'.calls.map Call.sig = s.calls.map Call.sig → ∃ cl0, s.calls[c]? = some cl0 ∧ cl.sig = cl0.sig := by
    intro e
    have h1 : (s'.calls.map Call.sig)[c]? = some cl.sig := by rw [List.getElem?_map, hc]; rfl
    rw [e, List.getElem?_map, Option.map_eq_some_iff] at h1
    obtain ⟨cl0, a, b⟩ := h1
    exact ⟨cl0, a, b.symm⟩
  cases l with
  | call_begin req resp body =>
    simp only [step] at h
    split at h
    · cases h
      simp only [send_resp_begin] at hc
      rcases append_get_cases hc with hc | ⟨_, rfl⟩
      · exact .inl ⟨cl, hc, rfl⟩
      · exact .inr (.inl ⟨req, resp, body, rfl, rfl⟩)
    · cases h
  | call_begin_raw rqst resp =>
    simp only [step] at h
    split at h
    · cases h
      rcases append_get_cases hc with hc | ⟨_, rfl⟩
      · exact .inl ⟨cl, hc, rfl⟩
      · exact .inr (.inr ⟨rqst, resp, rfl, rfl⟩)
    · cases h
  | _ =>
    refine .inl (key ?_)
    simp only [step, call_reg_ok, call_reg_err, call_send, call_take, publish_raw_begin, pub_send, out_poll, out_recv,
      out_done, in_poll, in_recv, in_lookup, in_full_send, in_full_timeout, after_lookup, in_wake, Client.set_phase,
      Client.drop_waits] at h
    repeat' split at h
    all_goals first
      | (cases h; done)
      | (cases h; rfl)
      | (cases h; exact sig_set' (by assumption) _ _)
      | (cases h; split <;> exact sig_set' (by assumption) _ _)

/-- What a publication was started with. -/
theorem step_pub {cfg : Cfg} {s s' : Client} {l : Label} (h : step cfg s l = some s') {p : Nat} {pb : Pub}
    (hp : s'.pubs[p]? = some pb) : (∃ pb0, s.pubs[p]? = some pb0 ∧ pb.orig = pb0.orig ∧ pb.frame = pb0.frame) ∨
      (∃ f, l = .pub_begin f ∧ pb.orig = f ∧ pb.frame = f.shrink s.kkind) := by
  have set : ∀ {q : Nat} {qb : Pub} {r : Option Bool}, s.pubs[q]? = some qb → s'.pubs = s.pubs.set q { qb with res := r } →
      ∃ pb0, s.pubs[p]? = some pb0 ∧ pb.orig = pb0.orig ∧ pb.frame = pb0.frame := by
    intro q qb r h1 e
    rw [e, List.getElem?_set] at hp
    split at hp
    · rename_i eq
      split at hp
      · cases hp; exact ⟨qb, by rw [← eq]; exact h1, rfl, rfl⟩
      · cases hp
    · exact ⟨pb, hp, rfl, rfl⟩
  cases l with
  | pub_begin f =>
    simp only [step, publish_raw_begin] at h
    split at h
    · cases h
      simp only at hp
      rcases Nat.lt_trichotomy p s.pubs.length with h' | h' | h'
      · rw [List.getElem?_append_left h'] at hp; exact .inl ⟨pb, hp, rfl, rfl⟩
      · subst h'
        rw [List.getElem?_append_right (Nat.le_refl _)] at hp
        simp at hp
        subst hp
        exact .inr ⟨f, rfl, rfl, rfl⟩
      · rw [List.getElem?_eq_none (by simp; omega)] at hp; cases hp
    · cases h
  | _ =>
    refine .inl ?_
    simp only [step, send_resp_begin, call_reg_ok, call_reg_err, call_send, call_take, pub_send,
      out_poll, out_recv, out_done, in_poll, in_recv, in_lookup, in_full_send, in_full_timeout, after_lookup, in_wake,
      Client.set_phase, Client.drop_waits] at h
    repeat' split at h
    all_goals first
      | (cases h; done)
      | (cases h; exact ⟨pb, hp, rfl, rfl⟩)
      | (cases h; split at hp <;> exact ⟨pb, hp, rfl, rfl⟩)
      | (cases h; exact set (by assumption) rfl)

theorem consist_kinds {cfg : Cfg} {n : VarKeyKind} {s : Client} (hr : Reachable cfg s) (hc : Consist n s) :
    (s.kkind = .Key8 ∨ s.kkind = n) ∧
    ∀ (c : Nat) cl k, s.calls[c]? = some cl → cl.phase.kind = some k → k = .Key8 ∨ k = n := by
  have inv := reachable_kindInv hr hc
  refine ⟨?_, fun c cl k h1 h2 => ?_⟩
  · open Classical in
    by_cases hd : AnyDone s
    · exact .inr (inv.done hd)
    · exact .inl (inv.init hd)
  · rcases inv.locals c cl k h1 h2 with e | e
    · exact .inl e
    · exact .inr e.1

/-- When all answers have keys of kind `n`, every call that was answered looked at the full key or at `n` bytes of it. -/
theorem reachable_answered {cfg : Cfg} {n : VarKeyKind} {s : Client} (hr : Reachable cfg s) (hc : Consist n s) {c : Nat} {cl : Call}
    {err : Bool} {f : RpcFrame} {i : Nat} (h1 : s.calls[c]? = some cl) (h2 : cl.phase.result = some (err, f, i)) :
    ∃ k, (k = .Key8 ∨ k = n) ∧ Answers (keyLen k) (wantKey cfg cl err) cl.rqst.header f.header := by
  have main := reachable_induct (cfg := cfg) (fun s => Reachable cfg s ∧ (Consist n s → ∀ (c : Nat) (cl : Call) (err : Bool) (f : RpcFrame) (i : Nat),
    s.calls[c]? = some cl → cl.phase.result = some (err, f, i) →
    ∃ k, (k = .Key8 ∨ k = n) ∧ Answers (keyLen k) (wantKey cfg cl err) cl.rqst.header f.header)) ?_ ?_ hr
  · exact main.2 hc c cl err f i h1 h2
  · exact ⟨⟨[], rfl⟩, fun _ c cl err f i h => by simp [Client.new] at h⟩
  · intro s l s' ⟨hr, ih⟩ hs
    refine ⟨reachable_step hr hs, fun hc c cl err f i h1 h2 => ?_⟩
    have hc0 := consist_back hs hc
    rcases step_take hs with ⟨_, h⟩ | ⟨c', cl', k, err', v, a1, a2, a3, a4, a5, a6⟩
    · exact ih hc0 c cl err f i (h c cl _ h1 h2) h2
    · rw [a6, set_get a1] at h1
      split at h1
      · cases h1
        have e2 : (Phase.done (if err' then .ErrResp v.frame v.idx else .Resp v.frame v.idx)).result = some (err', v.frame, v.idx) := by
          cases err' <;> rfl
        rw [show _ = some (err', v.frame, v.idx) from e2] at h2
        cases h2
        obtain ⟨cl2, k2, b1, b2, b3, _⟩ := (reachable_coreInv hr).wokenOk v a3
        rw [a4] at b1 b2 b3
        have b1 : s.calls[c']? = some cl2 := b1
        rw [a1] at b1; cases b1
        rw [a2] at b2
        simp only [Phase.hasWait, Option.some.injEq] at b2
        subst b2
        exact ⟨k, (consist_kinds hr hc0).2 c' cl' k a1 (by rw [a2]; rfl), (waitHdr_answers cfg cl' k _ _).mp b3⟩
      · exact ih hc0 c cl err f i h1 h2

/-- Where a frame in the outgoing queue comes from. -/
def EnqOk (n : VarKeyKind) (s : Client) (f : RpcFrame) : Prop :=
  (∃ (c : Nat) (cl : Call) (k : VarKeyKind), s.calls[c]? = some cl ∧ (k = .Key8 ∨ k = n) ∧ f = cl.rqst.shrink k) ∨
  (∃ (p : Nat) (pb : Pub) (k : VarKeyKind), s.pubs[p]? = some pb ∧ (k = .Key8 ∨ k = n) ∧ f = pb.orig.shrink k)

theorem step_rqst {cfg : Cfg} {s s' : Client} {l : Label} (h : step cfg s l = some s') {c : Nat} {cl : Call}
    (hc : s.calls[c]? = some cl) : ∃ cl', s'.calls[c]? = some cl' ∧ cl'.sig = cl.sig := by
  rcases coreStep_sig (step_core h) with e | ⟨x, e, _⟩
  · have e : s'.calls.map Call.sig = s.calls.map Call.sig := e
    have h1 : (s'.calls.map Call.sig)[c]? = some cl.sig := by rw [e, List.getElem?_map, hc]; rfl
    rw [List.getElem?_map, Option.map_eq_some_iff] at h1
    exact h1
  · have e : s'.calls = s.calls ++ [x] := e
    exact ⟨cl, by rw [e]; exact append_get hc x, rfl⟩

theorem enqOk_step {cfg : Cfg} {n : VarKeyKind} {s s' : Client} {l : Label} (h : step cfg s l = some s') {f : RpcFrame}
    (hf : EnqOk n s f) : EnqOk n s' f := by
  rcases hf with ⟨c, cl, k, h1, h2, h3⟩ | ⟨p, pb, k, h1, h2, h3⟩
  · obtain ⟨cl', g1, g2⟩ := step_rqst h h1
    refine .inl ⟨c, cl', k, g1, h2, ?_⟩
    have : cl'.rqst = cl.rqst := congrArg (fun x => x.1) g2
    rw [this]; exact h3
  · obtain ⟨pb', g1, _, g3, _⟩ := step_pub_kept h h1
    exact .inr ⟨p, pb', k, g1, h2, by rw [g3]; exact h3⟩

theorem reachable_enqOk {cfg : Cfg} {n : VarKeyKind} {s : Client} (hr : Reachable cfg s) (hc : Consist n s) :
    ∀ f ∈ s.enq, EnqOk n s f := by
  have main := reachable_induct (cfg := cfg) (fun s => Reachable cfg s ∧ (Consist n s → (∀ f ∈ s.enq, EnqOk n s f) ∧
    ∀ (p : Nat) (pb : Pub), s.pubs[p]? = some pb → ∃ k, (k = .Key8 ∨ k = n) ∧ pb.frame = pb.orig.shrink k)) ?_ ?_ hr
  · exact (main.2 hc).1
  · exact ⟨⟨[], rfl⟩, fun _ => ⟨fun f hf => by simp [Client.new] at hf, fun p pb h => by simp [Client.new] at h⟩⟩
  · intro s l s' ⟨hr, ih⟩ hs
    refine ⟨reachable_step hr hs, fun hc => ?_⟩
    have hc0 := consist_back hs hc
    obtain ⟨ih1, ih2⟩ := ih hc0
    have kinds := consist_kinds hr hc0
    refine ⟨fun f hf => ?_, fun p pb hp => ?_⟩
    · rcases step_enq hs with e | ⟨c, cl, k, _, h1, h2, _, e⟩ | ⟨p, pb, _, h1, _, _, e⟩
      · rw [e] at hf; exact enqOk_step hs (ih1 f hf)
      · rw [e] at hf
        rcases List.mem_append.mp hf with hf | hf
        · exact enqOk_step hs (ih1 f hf)
        · rw [List.mem_singleton.mp hf]
          exact enqOk_step hs (.inl ⟨c, cl, k, h1, kinds.2 c cl k h1 (by rw [h2]; rfl), rfl⟩)
      · rw [e] at hf
        rcases List.mem_append.mp hf with hf | hf
        · exact enqOk_step hs (ih1 f hf)
        · rw [List.mem_singleton.mp hf]
          obtain ⟨k, hk, e⟩ := ih2 p pb h1
          exact enqOk_step hs (.inr ⟨p, pb, k, h1, hk, e⟩)
    · rcases step_pub hs hp with ⟨pb0, h1, h2, h3⟩ | ⟨f, _, h2, h3⟩
      · obtain ⟨k, hk, e⟩ := ih2 p pb0 h1
        exact ⟨k, hk, by rw [h2, h3]; exact e⟩
      · exact ⟨s.kkind, kinds.1, by rw [h2, h3]⟩

/-- A byte string handed to the transport is the encoding of an accepted frame. -/
theorem reachable_tx {cfg : Cfg} {s : Client} (hr : Reachable cfg s) {j : Nat} {b : Bytes} (h : s.tx[j]? = some b) :
    ∃ f ∈ s.enq, f.to_bytes = .ok b := by
  obtain ⟨pre, rest, e1, e2, _⟩ := reachable_outInv hr
  have h1 : (s.tx.map Exec.ok)[j]? = some (.ok b) := by rw [List.getElem?_map, h]; rfl
  rw [← e2, List.getElem?_map, Option.map_eq_some_iff] at h1
  obtain ⟨f, a, b⟩ := h1
  exact ⟨f, by rw [e1]; exact List.mem_append.mpr (.inl (List.mem_iff_getElem?.mpr ⟨j, a⟩)), b⟩

end PRpc
