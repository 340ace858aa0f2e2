import Verif.Lemmas.SchemaOuts
import Verif.Lemmas.InOrder
import Verif.Lemmas.Query
import Verif.Lemmas.Linear
/-! Helper lemmas for C91: the query and the server it asks. -/

namespace PRpc

open Spec Props

variable {V E SC Ctx : Type}

/-! ### What the query has collected -/

/-- The collecting task is at work: what it has kept are the items among the frames it has received. -/
structure Collecting (qc : QCfg) (q : Query) (id : Nat) (r : BRx) : Prop where
  here : q.client.subs.brxs[id]? = some r
  key : r.key = qc.topic
  since : r.since = q.begun
  msgs : q.seen = (r.got.filterMap fun f => qc.decode f.body).map .msg

structure GInv (qc : QCfg) (q : Query) : Prop where
  reach : Reachable qc.cfg q.client
  before : q.sub = none → q.seen = [] ∧ q.ended = false ∧ q.call = none
  gather : ∀ id, q.sub = some id → q.ended = false → ∃ r, Collecting qc q id r
  over : q.ended = true → (arrived q.seen).Sublist ((schemaArrivals qc q).filterMap fun f => qc.decode f.body)
  calls : ∀ (c : Nat) cl, q.client.calls[c]? = some cl → cl.rqst.header.key = .Key8 qc.req → q.call = some c
  mine : ∀ c, q.call = some c → ∃ cl, q.client.calls[c]? = some cl ∧ cl.rqst.header.key = .Key8 qc.req ∧ cl.resp_key = qc.resp

/-- What is asked of the labels: the query is the only one to ask for the schemas. -/
def OnlyAsks (qc : QCfg) : QLabel → Prop
  | .client (.call_begin req _ _) => req ≠ qc.req
  | .client (.call_begin_raw _ _) => False
  | _ => True

theorem ginv_new (qc : QCfg) : GInv qc Query.new :=
  ⟨⟨[], rfl⟩, fun _ => ⟨rfl, rfl, rfl⟩, (fun _ h => nomatch h), (fun h => nomatch h), (fun c cl h => by simp [Query.new, Client.new] at h), (fun _ h => nomatch h)⟩

theorem Collecting.sub {qc : QCfg} {q : Query} {id : Nat} {r : BRx} (g : Collecting qc q id r) (hr : Reachable qc.cfg q.client) :
    (r.got ++ r.pending).Sublist (schemaArrivals qc q) := by
  have := (reachable_bcinv hr).1.sub r (List.mem_iff_getElem?.mpr ⟨id, g.here⟩)
  rw [schemaArrivals_eq, ← g.key, ← g.since]
  exact this

/-- A step of the client that is not one of the query's own. -/
theorem collect_client {qc : QCfg} {q : Query} {id : Nat} {r : BRx} {l : Label} {c : Client}
    (g : Collecting qc q id r) (hr : Reachable qc.cfg q.client)
    (h : step qc.cfg q.client l = some c) (hl : l ≠ .recv_multi id) (hl' : l ≠ .drop_multi id) :
    ∃ r', Collecting qc { q with client := c } id r' := by
  obtain ⟨r', hr', ha⟩ := step_brx_alive h hl' g.here
  have bi := (reachable_bcinv hr).1
  have hgot : r'.got = r.got := by
    have := step_gotM h id
    rw [stepOutM_nil hl, List.append_nil, Subs.gotM, Subs.gotM, hr', g.here] at this
    simpa using this
  rcases lost_step (step_bc h) bi hr' with ⟨h0, _⟩ | ⟨r0, h1, h2, h3, h4⟩
  · have h0 : q.client.subs.brxs[id]? = none := h0
    rw [g.here] at h0; cases h0
  · have h1 : q.client.subs.brxs[id]? = some r0 := h1
    rw [g.here] at h1; cases h1
    exact ⟨r', hr', h2.symm.trans g.key, h3.symm.trans g.since, by rw [hgot]; exact g.msgs⟩

theorem sublist_prefix {α : Type} {a b c : List α} (h : a.Sublist b) (hp : b <+: c) : a.Sublist c := h.trans hp.sublist

theorem ginv_client {qc : QCfg} {q : Query} {l : Label} {c : Client} {call : Option Nat} (inv : GInv qc q) (hown : q.owns l = false)
    (h : step qc.cfg q.client l = some c) (hb : q.sub = none → call = none)
    (hcalls : ∀ (i : Nat) cl, c.calls[i]? = some cl → cl.rqst.header.key = .Key8 qc.req → call = some i)
    (hmine : ∀ i, call = some i → ∃ cl, c.calls[i]? = some cl ∧ cl.rqst.header.key = .Key8 qc.req ∧ cl.resp_key = qc.resp) :
    GInv qc { q with client := c, call := call } := by
  refine ⟨reachable_step inv.reach h, fun hs => ⟨(inv.before hs).1, (inv.before hs).2.1, hb hs⟩, ?_, ?_, hcalls, hmine⟩
  · intro id hid he
    have hid : q.sub = some id := hid
    obtain ⟨r, g⟩ := inv.gather id hid he
    obtain ⟨r', g'⟩ := collect_client g inv.reach h (fun e => by rw [e] at hown; simp [Query.owns, hid] at hown)
      (fun e => by rw [e] at hown; simp [Query.owns, hid] at hown)
    exact ⟨r', g'.here, g'.key, g'.since, g'.msgs⟩
  · intro he
    have he : q.ended = true := he
    refine (inv.over he).trans ?_
    refine List.Sublist.filterMap _ ?_
    rw [schemaArrivals_eq, schemaArrivals_eq]
    exact (topicFrames_mono h).sublist

theorem ginv_poll {qc : QCfg} {q : Query} {id : Nat} (inv : GInv qc q) (hid : q.sub = some id) (he : q.ended = false) :
    GInv qc (collect_poll qc q id) := by
  obtain ⟨r, g⟩ := inv.gather id hid he
  have hsub := g.sub inv.reach
  have hrecv : step qc.cfg q.client (.recv_multi id) = some { q.client with subs := (multi_recv q.client.subs id).2 } := rfl
  have hns : q.sub ≠ none := by rw [hid]; exact nofun
  have hend : ∀ (subs : Subs) (e : Collected), Reachable qc.cfg { q.client with subs := subs } → subs.arrived = q.client.subs.arrived →
      (∀ d, e ≠ .msg d) → GInv qc (collect_end q id subs e) := by
    intro subs e hr ha hne
    have hd : step qc.cfg { q.client with subs := subs } (.drop_multi id) = some { q.client with subs := multi_drop subs id } := rfl
    refine ⟨reachable_step hr hd, fun h => absurd h hns, (fun id' _ h => nomatch h), fun _ => ?_, inv.calls, inv.mine⟩
    have harr : schemaArrivals qc (collect_end q id subs e) = schemaArrivals qc q := collect_end_arr qc q id subs e ha
    rw [harr]
    show (arrived (q.seen ++ [e])).Sublist _
    rw [g.msgs, arrived_end hne]
    exact List.Sublist.filterMap _ ((List.sublist_append_left _ _).trans hsub)
  have harr := multi_recv_arrived q.client.subs id
  have hgot := step_gotM hrecv id
  have hreach := reachable_step inv.reach hrecv
  have hbc := fun r' => lost_step (step_bc hrecv) (reachable_bcinv inv.reach).1 (id := id) (r' := r')
  have halive := step_brx_alive hrecv (id := id) nofun g.here
  revert harr hgot hreach hbc halive
  rw [collect_poll]
  have hout : stepOutM q.client id (.recv_multi id) = (match (multi_recv q.client.subs id).1 with | some (.Ok f) => [f] | _ => []) := by
    simp only [stepOutM, if_true]
    rfl
  rw [hout]
  generalize multi_recv q.client.subs id = x
  obtain ⟨x1, x2⟩ := x
  intro harr hgot hreach hbc halive
  simp only at harr hgot hreach hbc halive
  obtain ⟨r', hr', _⟩ := halive
  have hr' : x2.brxs[id]? = some r' := hr'
  have hks : r'.key = r.key ∧ r'.since = r.since := by
    rcases hbc r' hr' with ⟨h0, _⟩ | ⟨r0, h1, h2, h3, _⟩
    · have h0 : q.client.subs.brxs[id]? = none := h0
      rw [g.here] at h0; cases h0
    · have h1 : q.client.subs.brxs[id]? = some r0 := h1
      rw [g.here] at h1; cases h1
      exact ⟨h2.symm, h3.symm⟩
  rw [Subs.gotM, Subs.gotM, hr', g.here] at hgot
  simp only [Option.map_some, Option.getD_some] at hgot
  cases x1 with
  | none =>
    simp only
    split
    · exact hend x2 _ hreach harr nofun
    · refine ⟨inv.reach, fun h => absurd h hns, fun id' hid' _ => ?_, fun h => ?_, inv.calls, inv.mine⟩
      · have hid' : q.sub = some id' := hid'
        rw [hid] at hid'; cases hid'
        exact ⟨r, g.here, g.key, g.since, g.msgs⟩
      · have h : q.ended = true := h
        rw [he] at h; cases h
  | some y =>
    cases y with
    | Ok f =>
      simp only at hgot ⊢
      have keep : ∀ (seen : List Collected) dl, seen = ((r.got ++ [f]).filterMap fun f => qc.decode f.body).map .msg →
          GInv qc { q with client := { q.client with subs := x2 }, seen := seen, deadline := dl } := by
        intro seen dl hs
        refine ⟨hreach, fun h => absurd h hns, fun id' hid' _ => ?_, fun h => ?_, inv.calls, inv.mine⟩
        · have hid' : q.sub = some id' := hid'
          rw [hid] at hid'; cases hid'
          exact ⟨r', hr', hks.1.trans g.key, hks.2.trans g.since, by rw [hgot]; exact hs⟩
        · have h : q.ended = true := h
          rw [he] at h; cases h
      cases hd : qc.decode f.body with
      | none =>
        simp only
        exact keep q.seen _ (by rw [g.msgs]; simp [hd])
      | some d =>
        simp only
        exact keep _ _ (by rw [g.msgs]; simp [hd])
    | IoClosed => exact hend x2 _ hreach harr nofun
    | Lagged n => exact hend x2 _ hreach harr nofun

theorem calls_kept {cfg : Cfg} {s c : Client} {l : Label} {k : Key} {call : Option Nat} (h : step cfg s l = some c)
    (hl : ∀ req resp body, l = .call_begin req resp body → req ≠ k) (hl' : ∀ rqst resp, l ≠ .call_begin_raw rqst resp)
    (hc : ∀ (i : Nat) cl, s.calls[i]? = some cl → cl.rqst.header.key = .Key8 k → call = some i) :
    ∀ (i : Nat) cl, c.calls[i]? = some cl → cl.rqst.header.key = .Key8 k → call = some i := by
  intro i cl hi hk
  rcases step_sig h hi with ⟨cl0, h1, h2⟩ | ⟨req, resp, body, e, h2⟩ | ⟨rqst, resp, e, _⟩
  · simp only [Call.sig, Prod.mk.injEq] at h2
    exact hc i cl0 h1 (by rw [← h2.1]; exact hk)
  · simp only [Call.sig, Prod.mk.injEq] at h2
    rw [h2.1] at hk
    exact absurd (VarKey.Key8.inj hk) (hl req resp body e)
  · exact absurd e (hl' rqst resp)

theorem mine_kept {cfg : Cfg} {s c : Client} {l : Label} {k k' : Key} {call : Option Nat} (h : step cfg s l = some c)
    (hc : ∀ i, call = some i → ∃ cl, s.calls[i]? = some cl ∧ cl.rqst.header.key = .Key8 k ∧ cl.resp_key = k') :
    ∀ i, call = some i → ∃ cl, c.calls[i]? = some cl ∧ cl.rqst.header.key = .Key8 k ∧ cl.resp_key = k' := by
  intro i hi
  obtain ⟨cl, h1, h2, h3⟩ := hc i hi
  obtain ⟨cl', g1, g2⟩ := step_rqst h h1
  simp only [Call.sig, Prod.mk.injEq] at g2
  exact ⟨cl', g1, by rw [g2.1]; exact h2, by rw [g2.2.1]; exact h3⟩

theorem ginv_step {qc : QCfg} {q q' : Query} {l : QLabel} (inv : GInv qc q) (h : q_step qc q l = some q') (hl : OnlyAsks qc l) :
    GInv qc q' := by
  cases l with
  | client l =>
    simp only [q_step] at h
    split at h
    · cases h
    · rename_i hown
      obtain ⟨c, hc, rfl⟩ := Option.map_eq_some_iff.mp h
      exact ginv_client inv (by simpa using hown) hc (fun hs => (inv.before hs).2.2)
        (calls_kept hc (fun req resp body e => by subst e; exact hl) (fun rqst resp e => by subst e; exact hl) inv.calls)
        (mine_kept hc inv.mine)
  | tick =>
    simp only [q_step, Option.some.injEq] at h
    subst h
    exact ⟨inv.reach, inv.before, fun id hid he => by
      obtain ⟨r, g⟩ := inv.gather id hid he
      exact ⟨r, g.here, g.key, g.since, g.msgs⟩, inv.over, inv.calls, inv.mine⟩
  | subscribe =>
    simp only [q_step] at h
    split at h
    · cases h
    · rename_i hno
      have hnone : q.sub = none := by
        cases hq : q.sub with
        | none => rfl
        | some x => exact absurd (Or.inl (by rw [hq]; rfl)) hno
      obtain ⟨hb1, hb2, hb3⟩ := inv.before hnone
      obtain ⟨c, hc, hq'⟩ := Option.map_eq_some_iff.mp h
      have hcs : c.subs = (subscribe_multi_inner q.client.subs qc.topic 64).2 := by
        simp only [step] at hc
        split at hc
        · rw [← Option.some.inj hc]
        · cases hc
      have hreach := reachable_step inv.reach hc
      have hcase := subscribe_multi_cases q.client.subs qc.topic 64
      have hcalls := calls_kept hc (k := qc.req) (fun _ _ _ e => by cases e) (fun _ _ e => by cases e) inv.calls
      have hmine := mine_kept hc inv.mine
      revert hq'
      cases hres : (subscribe_multi_inner q.client.subs qc.topic 64).1 with
      | Ok id =>
        intro hq'
        subst hq'
        obtain ⟨b, hb⟩ := hcase id hres
        refine ⟨hreach, (fun h => by cases h), ?_, ?_, hcalls, hmine⟩
        · intro id' hid' _
          cases hid'
          exact ⟨_, by rw [hcs]; exact hb, rfl, rfl, by simp [hb1]⟩
        · intro he
          have he : q.ended = true := he
          rw [hb2] at he; cases he
      | _ =>
        intro hq'
        subst hq'
        refine ⟨hreach, fun _ => ⟨hb1, hb2, hb3⟩, ?_, ?_, hcalls, hmine⟩
        · intro id' hid' _
          have hid' : q.sub = some id' := hid'
          rw [hnone] at hid'; cases hid'
        · intro he
          have he : q.ended = true := he
          rw [hb2] at he; cases he
  | trigger =>
    simp only [q_step] at h
    split at h
    · rename_i hc0
      obtain ⟨c, hc, rfl⟩ := Option.map_eq_some_iff.mp h
      refine ginv_client inv rfl hc (fun hs => by rw [hs] at hc0; simp at hc0) ?_ ?_
      rotate_left
      · intro i hi
        cases hi
        simp only [step] at hc
        split at hc
        · cases hc
          simp [send_resp_begin]
        · cases hc
      intro i cl hi hk
      simp only [step] at hc
      split at hc
      · cases hc
        simp only [send_resp_begin] at hi
        rcases Nat.lt_or_ge i q.client.calls.length with hlt | hge
        · rw [List.getElem?_append_left hlt] at hi
          have := inv.calls i cl hi hk
          rw [hc0.2] at this
          cases this
        · rcases Nat.eq_or_lt_of_le hge with e | hlt
          · rw [e]
          · rw [List.getElem?_eq_none (by simp; omega)] at hi
            cases hi
      · cases hc
    · cases h
  | poll =>
    simp only [q_step] at h
    split at h
    · rename_i id hid
      split at h
      · cases h
      · rename_i he
        rw [← Option.some.inj h]
        exact ginv_poll inv hid (by simpa using he)
    · cases h

end PRpc
