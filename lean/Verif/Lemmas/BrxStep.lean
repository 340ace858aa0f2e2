import Verif.Lemmas.QSysTypes
import Verif.Lemmas.Held
/-! Helper lemmas for C95: a receiver of a broadcast channel, step by step. -/

namespace PRpc

open Spec Props

/-- What happens to a receiver in a step that is not its own. -/
theorem step_brx_other {cfg : Cfg} {s s' : Client} {l : Label} (h : step cfg s l = some s') {id : Nat} {r r' : BRx}
    (hl : l ≠ .recv_multi id) (hd : l ≠ .drop_multi id) (hr : s.subs.brxs[id]? = some r) (hr' : s'.subs.brxs[id]? = some r') :
    r' = r ∨ ∃ f, r' = r.push (s.subs.bchans.getD r.chan 1) f := by
  have same : s'.subs.brxs = s.subs.brxs → r' = r ∨ ∃ f, r' = r.push (s.subs.bchans.getD r.chan 1) f := fun e => by
    rw [e, hr] at hr'; cases hr'; exact .inl rfl
  cases l with
  | in_lookup =>
    have harr : ∃ f, s'.subs.arrived = s.subs.arrived ++ [f] := by
      simp only [step, in_lookup] at h
      split at h
      · rename_i f hp hpol
        have ha := lookup_arrived cfg.zero s.subs f
        revert h ha
        generalize subs_lookup cfg.zero s.subs f = x
        obtain ⟨r1, r2⟩ := x
        intro h ha
        refine ⟨f, ?_⟩
        cases r1 <;> simp only [after_lookup] at h <;> cases h <;> exact ha
      · cases h
    obtain ⟨f, harr⟩ := harr
    have hb := step_bc h
    have key : ∀ e e', BStep e e' → e'.arr = e.arr ++ [f] → e.rx[id]? = some r → e'.rx[id]? = some r' →
        r' = r ∨ ∃ f, r' = r.push (e.caps.getD r.chan 1) f := by
      intro e e' hb ha hr hr'
      cases hb with
      | arriveNone a x c r f' h => rw [hr] at hr'; cases hr'; exact .inl rfl
      | arriveDead a x c r f' k b h hl => rw [hr] at hr'; cases hr'; exact .inl rfl
      | arriveWait a x c r f' k b h hl => rw [hr] at hr'; cases hr'; exact .inl rfl
      | arriveOk a x c r0 f' k b h hl =>
        simp only at hr hr'
        rw [List.getElem?_map, hr, Option.map_some] at hr'
        cases hr'
        split
        · rename_i ho
          simp only [onChan, Bool.and_eq_true, beq_iff_eq] at ho
          exact .inr ⟨f', by rw [ho.2]⟩
        · exact .inl rfl
      | _ => simp at ha
    exact key _ _ hb harr hr hr'
  | recv_multi j =>
    simp only [step] at h
    cases h
    simp only [multi_recv] at hr'
    have hne : id ≠ j := fun e => hl (by rw [e])
    split at hr'
    · rw [hr] at hr'; cases hr'; exact .inl rfl
    · split at hr'
      · rw [set_get_ne _ hne, hr] at hr'; cases hr'; exact .inl rfl
      · split at hr'
        · rw [set_get_ne _ hne, hr] at hr'; cases hr'; exact .inl rfl
        · split at hr' <;> (rw [hr] at hr'; cases hr'; exact .inl rfl)
  | drop_multi j =>
    simp only [step] at h
    cases h
    simp only [multi_drop] at hr'
    split at hr'
    · rw [hr] at hr'; cases hr'; exact .inl rfl
    · rename_i y hy
      by_cases e : id = j
      · exact absurd (by rw [e]) hd
      · rw [set_get_ne _ e, hr] at hr'; cases hr'; exact .inl rfl
  | sub_multi key depth =>
    simp only [step] at h
    split at h
    · cases h
      have hlt : id < s.subs.brxs.length := (List.getElem?_eq_some_iff.mp hr).1
      revert hr'
      simp only [subscribe_multi_inner]
      repeat' split
      all_goals
        intro hr'
        first
        | (rw [hr] at hr'; cases hr'; exact .inl rfl)
        | (rw [List.getElem?_append_left hlt, hr] at hr'; cases hr'; exact .inl rfl)
    · cases h
  | in_full_send =>
    simp only [step, in_full_send] at h
    refine same ?_
    split at h
    · rename_i f i rm hp hpol
      have ha := try_send_brxs s.subs i f
      revert h ha
      generalize try_send s.subs i f = x
      obtain ⟨r1, r2⟩ := x
      intro h ha
      simp only at ha
      cases r1 <;> simp only [after_lookup] at h <;> cases h <;> simp [ha, retain_brxs]
    · cases h
  | in_full_timeout =>
    simp only [step, in_full_timeout, after_lookup] at h
    refine same ?_
    split at h
    · cases h; simp [retain_brxs, note_dropped_brxs]
    · cases h
  | _ =>
    simp only [step, send_resp_begin, call_reg_ok, call_reg_err, call_send, call_take, publish_raw_begin, pub_send,
      out_poll, out_recv, out_done, in_poll, in_recv, in_wake, Client.set_phase, Client.drop_waits, subs_purge, sub_drop,
      sub_recv, subscribe_inner, subscribe_inner_exclusive] at h
    repeat' split at h
    all_goals first
      | (cases h; done)
      | (cases h; exact same rfl)
      | (cases h; split at * <;> exact same rfl)
      | (cases h; refine same ?_; (repeat' split) <;> rfl)

theorem step_bchans {cfg : Cfg} {s s' : Client} {l : Label} (h : step cfg s l = some s') : s.subs.bchans <+: s'.subs.bchans := by
  have aux : ∀ {e e' : Bc}, BStep e e' → e.caps <+: e'.caps := by
    intro e e' h
    cases h <;> first | exact List.prefix_rfl | exact List.prefix_append _ _
  exact aux (step_bc h)

theorem step_no_joined {cfg : Cfg} {s s' : Client} {l : Label} (h : step cfg s l = some s') (hl : ∀ key d, l ≠ .sub_multi key d)
    (h0 : s.subs.brxs = []) : s'.subs.brxs = [] := by
  rcases step_joined h with e | ⟨k, d, e, _⟩
  · simp only [Subs.joined, h0, List.map_nil] at e
    exact List.map_eq_nil_iff.mp e
  · exact absurd e (hl k d)

/-- The receiver has not been dropped nor heard of lost messages; it holds as many as fit if there are some. -/
structure Healthy (cap : Nat) (s : Subs) (id : Nat) : Prop where
  here : ∃ r, s.brxs[id]? = some r ∧ r.alive = true ∧ r.missed = r.lost ∧ s.bchans[r.chan]? = some cap ∧ r.pending.length ≤ cap ∧
    (0 < r.missed → r.pending.length = cap)

theorem healthy_other {cfg : Cfg} {s s' : Client} {l : Label} (h : step cfg s l = some s') {cap id : Nat} (hh : Healthy cap s.subs id)
    (hl : l ≠ .recv_multi id) (hd : l ≠ .drop_multi id) : Healthy cap s'.subs id := by
  obtain ⟨r, h1, h2, h3, h4, h5, h6⟩ := hh.here
  obtain ⟨r', g1, g2⟩ := step_brx_alive h hd h1
  obtain ⟨t, ht⟩ := step_bchans h
  have hcap : s'.subs.bchans[r.chan]? = some cap := by
    rw [← ht, List.getElem?_append_left (List.getElem?_eq_some_iff.mp h4).1]
    exact h4
  rcases step_brx_other h hl hd h1 g1 with rfl | ⟨f, e⟩
  · exact ⟨r', g1, g2.trans h2, h3, hcap, h5, h6⟩
  · have hg : s.subs.bchans.getD r.chan 1 = cap := by rw [List.getD_eq_getElem?_getD, h4]; rfl
    rw [hg] at e
    have hp := push_fields cap f r
    rw [← e] at hp
    obtain ⟨p1, p2, p3, p4, p5, p6⟩ := hp
    refine ⟨r', g1, g2.trans h2, ?_, by rw [p1]; exact hcap, ?_, ?_⟩
    · rcases p6 with ⟨_, b, c⟩ | ⟨_, b, c⟩ <;> omega
    · have := congrArg (fun x : BRx => x.pending.length) e
      simp only [BRx.push] at this
      split at this
      · rename_i hle
        rw [this]; exact hle
      · rw [this]
        simp only [List.length_tail, List.length_append, List.length_cons, List.length_nil]
        omega
    · have := congrArg (fun x : BRx => (x.pending.length, x.missed)) e
      simp only [BRx.push] at this
      split at this
      · rename_i hle
        simp only [Prod.mk.injEq] at this
        intro hm
        rw [this.2] at hm
        have := h6 hm
        simp only [List.length_append, List.length_cons, List.length_nil] at hle
        omega
      · rename_i hle
        simp only [Prod.mk.injEq] at this
        intro _
        rw [this.1]
        simp only [List.length_tail, List.length_append, List.length_cons, List.length_nil] at hle ⊢
        omega

theorem healthy_recv {s : Subs} {cap id : Nat} (hh : Healthy cap s id) {f : RpcFrame} (hr : (multi_recv s id).1 = some (.Ok f)) :
    Healthy cap (multi_recv s id).2 id := by
  obtain ⟨r, h1, h2, h3, h4, h5, h6⟩ := hh.here
  simp only [multi_recv, h1] at hr ⊢
  split at hr
  · cases hr
  · rename_i hm
    rw [if_neg hm]
    split at hr
    · rename_i f' q hq
      exact ⟨_, set_get_self h1 _, h2, h3, h4, by rw [hq] at h5; simp only [List.length_cons] at h5; exact Nat.le_of_succ_le h5, fun h => absurd h hm⟩
    · split at hr <;> cases hr

theorem caps_le {cfg : Cfg} {s : Client} (h : Reachable cfg s) : s.subs.bchans.length ≤ s.subs.brxs.length := by
  obtain ⟨ls, h⟩ := h
  refine run_induct (fun t => t.subs.bchans.length ≤ t.subs.brxs.length) (fun t l t' ht hs => ?_) ls Client.new s (Nat.le_refl _) h
  have aux : ∀ {e e' : Bc}, BStep e e' → e.caps.length ≤ e.rx.length → e'.caps.length ≤ e'.rx.length := by
    intro e e' h h0
    cases h <;> simp_all
    omega
  exact aux (step_bc hs) ht

theorem healthy_starts {cfg : Cfg} {s s' : Client} (hre : Reachable cfg s) {key : Key} {id d : Nat} (h0 : s.subs.brxs = [])
    (hs : (subscribe_multi_inner s.subs key d).1 = .Ok id) (h : step cfg s (.sub_multi key d) = some s') :
    Healthy (next_pow2 d d) s'.subs id := by
  have hb : s.subs.broadcast_list = [] := by
    cases hl : s.subs.broadcast_list with
    | nil => rfl
    | cons e l =>
      have h1 := (reachable_bcinv hre).1.ent e.1 e.2 (by show e ∈ s.subs.broadcast_list; rw [hl]; exact List.mem_cons_self ..)
      have h2 := caps_le hre
      rw [h0, List.length_nil] at h2
      have h1 : e.2 < s.subs.bchans.length := h1
      omega
  simp only [step] at h
  split at h
  · cases h
    simp only [subscribe_multi_inner, hb, find_entry, List.find?_nil, Option.map_none] at hs ⊢
    split at hs
    · cases hs
    · rename_i hst
      rw [if_neg hst]
      split at hs
      · cases hs
      · rename_i hd
        rw [if_neg hd]
        cases hs
        refine ⟨⟨s.subs.bchans.length, [], 0, true, key, s.subs.arrived.length, [], 0⟩, ?_, rfl, rfl, ?_, Nat.zero_le _,
          fun h => absurd h (Nat.lt_irrefl 0)⟩
        · simp [h0]
        · simp
  · cases h

end PRpc
