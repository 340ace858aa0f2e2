import Verif.Spec.Causes
import Verif.Lemmas.ClientKind
import Verif.Lemmas.ClientLag
/-!
Lemmas for C71.
-/

namespace PRpc

open Spec

/-- One step closes an open client only if it is one of these. -/
theorem step_stops {cfg : Cfg} {s s' : Client} {l : Label} (h : step cfg s l = some s') (hs : s.stopped = false)
    (ht : s'.stopped = true) :
    l = .close ∨ l = .out_done false ∨ l = .in_recv none ∨ s.handles = false := by
  cases l with
  | close => exact .inl rfl
  | out_done ok =>
    cases ok with
    | false => exact .inr (.inl rfl)
    | true =>
      simp only [step, out_done] at h
      split at h
      · cases h; exact absurd (hs.symm.trans ht) (by simp)
      · cases h
  | in_recv r =>
    cases r with
    | none => exact .inr (.inr (.inl rfl))
    | some b =>
      simp only [step, in_recv] at h
      repeat' split at h
      all_goals first
        | (cases h; done)
        | (cases h; exact absurd (hs.symm.trans ht) (by simp))
  | out_recv =>
    simp only [step, out_recv] at h
    repeat' split at h
    all_goals first
      | (cases h; done)
      | (cases h; exact absurd (hs.symm.trans ht) (by simp))
      | (rename_i hh; exact .inr (.inr (.inr (by simpa using hh))))
  | _ =>
    simp only [step, send_resp_begin, call_reg_ok, call_reg_err, call_send, call_take, publish_raw_begin, pub_send,
      out_poll, in_poll, in_lookup, in_full_send, in_full_timeout, after_lookup, in_wake,
      Client.set_phase, Client.drop_waits] at h
    repeat' split at h
    all_goals first
      | (cases h; done)
      | (cases h; exact absurd (hs.symm.trans ht) (by simp))
      | (cases h; revert ht; simp only []; split <;> (intro ht; exact absurd (hs.symm.trans ht) (by simp)))

theorem step_handles {cfg : Cfg} {s s' : Client} {l : Label} (h : step cfg s l = some s') (hs : s.handles = true)
    (hl : l ≠ .drop_handles) : s'.handles = true := by
  cases l with
  | drop_handles => exact absurd rfl hl
  | _ =>
    simp only [step, send_resp_begin, call_reg_ok, call_reg_err, call_send, call_take, publish_raw_begin, pub_send,
      out_poll, out_recv, out_done, in_poll, in_recv, in_lookup, in_full_send, in_full_timeout, after_lookup, in_wake,
      Client.set_phase, Client.drop_waits] at h
    repeat' split at h
    all_goals first
      | (cases h; done)
      | (cases h; exact hs)
      | (cases h; split <;> exact hs)

/-- After replacing one entry of the list of calls. -/
theorem set_done {cs : List Call} {c c0 : Nat} {cl cl0 x : Call} {r : CallRes} (h0 : cs[c0]? = some cl0)
    (h : (cs.set c0 x)[c]? = some cl) (hp : cl.phase = .done r) :
    (∃ cl', cs[c]? = some cl' ∧ cl'.phase = .done r) ∨ (c = c0 ∧ cl = x) := by
  rw [set_get h0] at h
  split at h
  · rename_i e
    exact .inr ⟨e, (Option.some.inj h).symm⟩
  · exact .inl ⟨cl, h, hp⟩

/-- A call ends with `Closed` or `BadResponse` in one of these ways. -/
theorem step_refused {cfg : Cfg} {s s' : Client} {l : Label} (h : step cfg s l = some s') {c : Nat} {cl : Call} {r : CallRes}
    (hr : r = .Closed ∨ r = .BadResponse) (hc : s'.calls[c]? = some cl) (hp : cl.phase = .done r) :
    (∃ cl', s.calls[c]? = some cl' ∧ cl'.phase = .done r) ∨
    (r = .Closed ∧ (s.stopped = true ∨ s.out_pc = .exited)) ∨
    (r = .BadResponse ∧ ∃ cl' k, s.calls[c]? = some cl' ∧
      ((cl'.phase = .kinded k ∧ ∃ x ∈ s.map, x.2.eq (cl'.ok_hdr k) = true) ∨
       (cl'.phase = .half k ∧ ∃ x ∈ s.map, x.2.eq (cl'.err_hdr cfg k) = true))) := by
  have same : s'.calls = s.calls → ∃ cl', s.calls[c]? = some cl' ∧ cl'.phase = .done r := fun e => ⟨cl, e ▸ hc, hp⟩
  have app : ∀ x : Call, x.phase = .begun → s'.calls = s.calls ++ [x] → ∃ cl', s.calls[c]? = some cl' ∧ cl'.phase = .done r := by
    intro x hx e
    rw [e] at hc
    rcases append_get_cases hc with h | ⟨_, rfl⟩
    · exact ⟨cl, h, hp⟩
    · rw [hx] at hp; cases hp
  have upd : ∀ (c0 : Nat) (cl0 x : Call), s.calls[c0]? = some cl0 → (∀ r', x.phase ≠ .done r') → s'.calls = s.calls.set c0 x →
      ∃ cl', s.calls[c]? = some cl' ∧ cl'.phase = .done r := by
    intro c0 cl0 x h0 hx e
    rw [e] at hc
    rcases set_done h0 hc hp with h | ⟨_, rfl⟩
    · exact h
    · exact absurd hp (hx r)
  cases l with
  | call_begin req resp body =>
    simp only [step, send_resp_begin] at h
    split at h
    · cases h; exact .inl (app _ rfl rfl)
    · cases h
  | call_begin_raw rqst resp =>
    simp only [step] at h
    split at h
    · cases h; exact .inl (app _ rfl rfl)
    · cases h
  | call_kind c0 =>
    simp only [step] at h
    split at h
    · rename_i cl0 h0
      split at h
      · cases h; exact .inl (upd c0 cl0 _ h0 (by intro r' e; cases e) rfl)
      · cases h
    · cases h
  | call_reg_ok c0 =>
    simp only [step] at h
    split at h
    · rename_i cl0 h0
      split at h
      · rename_i k hk
        cases h
        simp only [call_reg_ok] at hc upd
        cases e : map_enqueue s.map ⟨c0, false⟩ (cl0.ok_hdr k) with
        | none =>
          simp only [e] at hc
          rcases set_done h0 hc hp with h | ⟨rfl, rfl⟩
          · exact .inl h
          · cases hp
            exact .inr (.inr ⟨rfl, cl0, k, h0, .inl ⟨hk, map_enqueue_none e⟩⟩)
        | some m =>
          simp only [e] at upd
          exact .inl (upd c0 cl0 _ h0 (by intro r' e; cases e) rfl)
      · cases h
    · cases h
  | call_reg_err c0 =>
    simp only [step] at h
    split at h
    · rename_i cl0 h0
      split at h
      · rename_i k hk
        cases h
        simp only [call_reg_err] at hc upd
        cases e : map_enqueue s.map ⟨c0, true⟩ (cl0.err_hdr cfg k) with
        | none =>
          simp only [e] at hc
          rcases set_done h0 hc hp with h | ⟨rfl, rfl⟩
          · exact .inl h
          · cases hp
            exact .inr (.inr ⟨rfl, cl0, k, h0, .inr ⟨hk, map_enqueue_none e⟩⟩)
        | some m =>
          simp only [e] at upd
          exact .inl (upd c0 cl0 _ h0 (by intro r' e; cases e) rfl)
      · cases h
    · cases h
  | call_send c0 =>
    simp only [step, call_send] at h
    split at h
    · rename_i cl0 h0
      split at h
      · rename_i k hk
        split at h
        · rename_i ho
          cases h
          rcases set_done h0 hc hp with h | ⟨rfl, rfl⟩
          · exact .inl h
          · cases hp
            exact .inr (.inl ⟨rfl, .inr (by simpa [Client.out_open] using ho)⟩)
        · split at h
          · cases h; exact .inl (upd c0 cl0 _ h0 (by intro r' e; cases e) rfl)
          · cases h
      · cases h
    · cases h
  | call_closed c0 =>
    simp only [step] at h
    split at h
    · rename_i cl0 h0
      split at h
      · split at h
        · rename_i hst
          cases h
          rcases set_done h0 hc hp with h | ⟨rfl, rfl⟩
          · exact .inl h
          · cases hp
            exact .inr (.inl ⟨rfl, .inl hst⟩)
        · cases h
      · cases h
    · cases h
  | call_ok c0 =>
    simp only [step, call_take] at h
    split at h
    · rename_i cl0 h0
      split at h
      · split at h
        · cases h
        · cases h
          rcases set_done h0 hc hp with h | ⟨rfl, rfl⟩
          · exact .inl h
          · cases hp; rcases hr with hr | hr <;> cases hr
      · cases h
    · cases h
  | call_err c0 =>
    simp only [step, call_take] at h
    split at h
    · rename_i cl0 h0
      split at h
      · split at h
        · cases h
        · cases h
          rcases set_done h0 hc hp with h | ⟨rfl, rfl⟩
          · exact .inl h
          · cases hp; rcases hr with hr | hr <;> cases hr
      · cases h
    · cases h
  | call_drop c0 =>
    simp only [step] at h
    split at h
    · rename_i cl0 h0
      split at h
      · cases h
      · cases h; exact .inl (upd c0 cl0 _ h0 (by intro r' e; cases e) rfl)
    · cases h
  | _ =>
    simp only [step, publish_raw_begin, pub_send,
      out_poll, out_recv, out_done, in_poll, in_recv, in_lookup, in_full_send, in_full_timeout, after_lookup, in_wake] at h
    repeat' split at h
    all_goals first
      | (cases h; done)
      | (cases h; exact .inl (same rfl))

theorem pubs_set_false {ps : List Pub} {p p0 : Nat} {pb x : Pub} (h : (ps.set p0 x)[p]? = some pb) (hp : pb.res = some false) :
    (∃ pb', ps[p]? = some pb' ∧ pb'.res = some false) ∨ pb = x := by
  rw [List.getElem?_set] at h
  split at h
  · split at h
    · exact .inr (Option.some.inj h).symm
    · cases h
  · exact .inl ⟨pb, h, hp⟩

/-- A publication fails in one of these ways. -/
theorem step_pub_failed {cfg : Cfg} {s s' : Client} {l : Label} (h : step cfg s l = some s') {p : Nat} {pb : Pub}
    (hc : s'.pubs[p]? = some pb) (hp : pb.res = some false) :
    (∃ pb', s.pubs[p]? = some pb' ∧ pb'.res = some false) ∨ s.stopped = true ∨ s.out_pc = .exited := by
  have same : s'.pubs = s.pubs → ∃ pb', s.pubs[p]? = some pb' ∧ pb'.res = some false := fun e => ⟨pb, e ▸ hc, hp⟩
  cases l with
  | pub_begin f =>
    simp only [step, publish_raw_begin] at h
    split at h
    · cases h
      rcases Nat.lt_trichotomy p s.pubs.length with h' | h' | h'
      · rw [List.getElem?_append_left h'] at hc; exact .inl ⟨pb, hc, hp⟩
      · subst h'
        rw [List.getElem?_append_right (Nat.le_refl _)] at hc
        simp at hc
        subst hc; cases hp
      · rw [List.getElem?_eq_none (by simp; omega)] at hc; cases hc
    · cases h
  | pub_send p0 =>
    simp only [step, pub_send] at h
    split at h
    · split at h
      · split at h
        · rename_i ho
          cases h
          exact .inr (.inr (by simpa [Client.out_open] using ho))
        · split at h
          · cases h
            rcases pubs_set_false hc hp with h | rfl
            · exact .inl h
            · cases hp
          · cases h
      · cases h
    · cases h
  | pub_closed p0 =>
    simp only [step] at h
    split at h
    · split at h
      · rename_i hh; exact .inr (.inl hh.2)
      · cases h
    · cases h
  | _ =>
    simp only [step, send_resp_begin, call_reg_ok, call_reg_err, call_send, call_take,
      out_poll, out_recv, out_done, in_poll, in_recv, in_lookup, in_full_send, in_full_timeout, after_lookup, in_wake,
      Client.set_phase, Client.drop_waits] at h
    repeat' split at h
    all_goals first
      | (cases h; done)
      | (cases h; exact .inl (same rfl))
      | (cases h; exact .inl (same (by split <;> rfl)))

/-- Calls and publications refused because the client is closed. -/
structure ClosedInv (s : Client) : Prop where
  call : ∀ (c : Nat) cl, s.calls[c]? = some cl → cl.phase = .done .Closed → s.stopped = true
  pub : ∀ (p : Nat) pb, s.pubs[p]? = some pb → pb.res = some false → s.stopped = true

theorem reachable_closedInv {cfg : Cfg} {s : Client} (hr : Reachable cfg s) : ClosedInv s := by
  refine (reachable_induct (fun s => PurgeInv s ∧ ClosedInv s) ⟨purgeInv_new, ?_, ?_⟩ ?_ hr).2
  · intro c cl h; simp [Client.new] at h
  · intro p pb h; simp [Client.new] at h
  · intro s l s' ⟨i1, i2⟩ h
    refine ⟨purgeInv_step h i1, ⟨fun c cl hc hp => ?_, fun p pb hc hp => ?_⟩⟩
    · apply step_stopped h
      rcases step_refused h (.inl rfl) hc hp with ⟨cl', h1, h2⟩ | ⟨_, h1 | h1⟩ | ⟨h1, _⟩
      · exact i2.call c cl' h1 h2
      · exact h1
      · exact i1.out h1
      · cases h1
    · apply step_stopped h
      rcases step_pub_failed h hc hp with ⟨pb', h1, h2⟩ | h1 | h1
      · exact i2.pub p pb' h1 h2
      · exact h1
      · exact i1.out h1

end PRpc
