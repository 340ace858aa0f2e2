import Verif.Lemmas.ClientRun
import Verif.Lemmas.ClientMulti
/-!
Helper lemmas: the frames that arrived and the messages received, as histories of a run; the end of transmission.
-/

namespace PRpc

open Spec

/-! ### Arrivals -/

/-- Frames looked up, or received and about to be. -/
def Client.arrNow (s : Client) : List RpcFrame :=
  s.subs.arrived ++ (match s.in_pc with | .lookup f => [f] | _ => [])

@[simp] theorem retain_subs_arrived (s : Subs) (k : VarKey) (a b : Bool) : (retain_subs s k a b).arrived = s.arrived := by
  simp only [retain_subs]; (repeat' split) <;> rfl

@[simp] theorem note_dropped_arrived (s : Subs) (i : Nat) : (note_dropped s i).arrived = s.arrived := by
  simp only [note_dropped]; split <;> rfl

@[simp] theorem try_send_arrived (s : Subs) (i : Nat) (f : RpcFrame) : (try_send s i f).2.arrived = s.arrived := by
  simp only [try_send]; (repeat' split) <;> rfl

@[simp] theorem bcast_send_arrived (s : Subs) (i : Nat) (f : RpcFrame) : (bcast_send s i f).2.arrived = s.arrived := by
  simp only [bcast_send]; split <;> rfl

@[simp] theorem lookupB_arrived (s : Subs) (f : RpcFrame) : (lookupB s f).2.2.arrived = s.arrived := by
  simp only [lookupB]; split <;> simp

theorem lookup_arrived (z : Bool) (s : Subs) (f : RpcFrame) : (subs_lookup z s f).2.arrived = s.arrived ++ [f] := by
  rw [subs_lookup_eq]
  have h : ∀ (m : Bool × Bool × Subs), (lookupE z f m).2.arrived = m.2.2.arrived := by
    intro m
    simp only [lookupE]
    split
    · rename_i id _
      have := try_send_arrived m.2.2 id f
      revert this
      generalize try_send m.2.2 id f = r
      obtain ⟨r1, r2⟩ := r
      intro this
      simp only at this
      cases r1
      · simp [this]
      · simp only; split <;> simp [this]
      · simp [this]
    · simp
  rw [h, lookupB_arrived]


theorem step_arr {cfg : Cfg} {s s' : Client} {l : Label} (h : step cfg s l = some s') :
    (s'.in_pc.over = false → s.in_pc.over = false ∧ s'.arrNow = s.arrNow ++ heard [l]) ∧
    (s'.in_pc.over = true → s'.subs.arrived = s.subs.arrived ∧ heard [l] = []) := by
  have same : s'.in_pc = s.in_pc → s'.subs.arrived = s.subs.arrived → heard [l] = [] →
      (s'.in_pc.over = false → s.in_pc.over = false ∧ s'.arrNow = s.arrNow ++ heard [l]) ∧
      (s'.in_pc.over = true → s'.subs.arrived = s.subs.arrived ∧ heard [l] = []) := by
    intro h1 h2 h3
    refine ⟨fun h => ⟨by rw [← h1]; exact h, ?_⟩, fun _ => ⟨h2, h3⟩⟩
    rw [Client.arrNow, Client.arrNow, h1, h2, h3, List.append_nil]
  cases l with
  | in_poll =>
    simp only [step, in_poll] at h
    split at h
    · cases h
    · split at h
      · cases h
        exact ⟨fun h => (by cases h), fun _ => ⟨rfl, rfl⟩⟩
      · cases h; exact same rfl rfl rfl
  | in_recv r =>
    simp only [step, in_recv] at h
    split at h
    · rename_i hp
      split at h
      · cases h
        exact ⟨fun h => (by cases h), fun _ => ⟨rfl, rfl⟩⟩
      · rename_i b
        split at h
        · cases h
        · rename_i hb
          cases h
          exact same rfl rfl (by simp only [heard, hb])
        · rename_i hdr body hb
          cases h
          refine ⟨fun _ => ⟨by rw [hp.1]; rfl, ?_⟩, fun h => by cases h⟩
          simp only [Client.arrNow, heard, hb, hp.1, List.append_nil]
    · cases h
  | in_lookup =>
    simp only [step, in_lookup] at h
    split at h
    · rename_i f hp hpol
      have ha := lookup_arrived cfg.zero s.subs f
      revert h ha
      generalize subs_lookup cfg.zero s.subs f = r
      obtain ⟨r1, r2⟩ := r
      intro h ha
      simp only at ha
      cases r1 with
      | done handled =>
        simp only [after_lookup] at h
        cases h
        refine ⟨fun _ => ⟨by rw [hp]; rfl, ?_⟩, fun h => ?_⟩
        · cases handled <;> simp [Client.arrNow, heard, hp, ha]
        · simp only [over_recv_wake] at h; cases h
      | full id rm =>
        simp only at h
        cases h
        refine ⟨fun _ => ⟨by rw [hp]; rfl, ?_⟩, fun h => by cases h⟩
        simp [Client.arrNow, heard, hp, ha]
    · cases h
  | in_full_send =>
    simp only [step, in_full_send] at h
    split at h
    · rename_i f id rm hp hpol
      have ha := try_send_arrived s.subs id f
      revert h ha
      generalize try_send s.subs id f = r
      obtain ⟨r1, r2⟩ := r
      intro h ha
      simp only at ha
      cases r1 <;> simp only [after_lookup] at h <;> cases h
      · refine ⟨fun _ => ⟨by rw [hp]; rfl, ?_⟩, fun h => by cases h⟩
        simp [Client.arrNow, heard, hp, ha]
      · refine ⟨fun _ => ⟨by rw [hp]; rfl, ?_⟩, fun h => by cases h⟩
        simp [Client.arrNow, heard, hp, ha]
    · cases h
  | in_full_timeout =>
    simp only [step, in_full_timeout, after_lookup] at h
    split at h
    · rename_i f id rm hp hpol
      cases h
      refine ⟨fun _ => ⟨by rw [hp]; rfl, ?_⟩, fun h => by cases h⟩
      simp [Client.arrNow, heard, hp]
    · cases h
  | in_wake w =>
    simp only [step, in_wake] at h
    split at h
    · rename_i f hp hpol
      repeat' split at h
      all_goals first
        | (cases h; done)
        | (cases h; exact ⟨fun _ => ⟨by rw [hp]; rfl, by simp [Client.arrNow, heard, hp]⟩, fun h => by cases h⟩)
    · cases h
  | in_purge =>
    simp only [step] at h
    split at h
    · cases h
      exact ⟨fun h => (by cases h), fun _ => ⟨rfl, rfl⟩⟩
    · cases h
  | _ =>
    simp only [step, send_resp_begin, call_reg_ok, call_reg_err, call_send, call_take, publish_raw_begin, pub_send,
      out_poll, out_recv, out_done, Client.set_phase, Client.drop_waits] at h
    repeat' split at h
    all_goals first
      | (cases h; done)
      | (cases h; exact same rfl rfl rfl)
      | (cases h; exact same rfl (by simp) rfl)
      | (cases h; split <;> exact same rfl rfl rfl)

theorem heard_append (a b : List Label) : heard (a ++ b) = heard a ++ heard b := by
  induction a with
  | nil => rfl
  | cons l a ih =>
    cases l with
    | in_recv r =>
      cases r with
      | none => exact ih
      | some x =>
        simp only [List.cons_append, heard]
        split
        · rw [ih]; rfl
        · exact ih
    | _ => exact ih

theorem run_arr {cfg : Cfg} (ls : List Label) (s s' : Client) (pre : List Label) (h : run cfg ls s = some s')
    (h1 : s.subs.arrived <+: heard pre) (h2 : s.in_pc.over = false → s.arrNow = heard pre) :
    s'.subs.arrived <+: heard (pre ++ ls) ∧ (s'.in_pc.over = false → s'.arrNow = heard (pre ++ ls)) := by
  induction ls generalizing s pre with
  | nil => cases h; rw [List.append_nil]; exact ⟨h1, h2⟩
  | cons l ls ih =>
    rw [run] at h
    cases e : step cfg s l with
    | none => rw [e] at h; cases h
    | some s1 =>
      rw [e] at h
      obtain ⟨g1, g2⟩ := step_arr e
      have := ih s1 (pre ++ [l]) h ?_ ?_
      · rw [List.append_assoc] at this; exact this
      · cases ho : s1.in_pc.over with
        | true => rw [(g2 ho).1, heard_append, (g2 ho).2, List.append_nil]; exact h1
        | false =>
          have : s1.arrNow = heard (pre ++ [l]) := by rw [(g1 ho).2, h2 (g1 ho).1, heard_append]
          rw [← this, Client.arrNow]
          exact List.prefix_append _ _
      · intro ho
        rw [(g1 ho).2, h2 (g1 ho).1, heard_append]

/-! ### Messages received -/

/-- The messages exclusive subscription `id` has returned. -/
def Subs.gotL (s : Subs) (id : Nat) : List RpcFrame := (s.chans[id]?.map Chan.got).getD []

theorem gotL_snoc {s s' : Subs} {c : Chan} (h : s'.chans = s.chans ++ [c]) (hc : c.got = []) (id : Nat) : s'.gotL id = s.gotL id := by
  rw [Subs.gotL, Subs.gotL, h]
  rcases Nat.lt_trichotomy id s.chans.length with h' | h' | h'
  · rw [List.getElem?_append_left h']
  · subst h'
    rw [List.getElem?_append_right (Nat.le_refl _), List.getElem?_eq_none (Nat.le_refl s.chans.length)]
    simp [hc]
  · rw [List.getElem?_eq_none (by simp; omega), List.getElem?_eq_none (by omega)]

theorem gotL_set {s s' : Subs} {c x : Chan} {j : Nat} (h : s'.chans = s.chans.set j x) (hj : s.chans[j]? = some c)
    (hx : x.got = c.got) (id : Nat) : s'.gotL id = s.gotL id := by
  have hlt : j < s.chans.length := by
    rcases Nat.lt_or_ge j s.chans.length with h | h
    · exact h
    · rw [List.getElem?_eq_none h] at hj; cases hj
  rw [Subs.gotL, Subs.gotL, h, List.getElem?_set]
  split
  · rename_i e; subst e; simp [hj, hx]
  · rfl

theorem gotL_set' {s s' : Subs} {c x : Chan} {j : Nat} (hj : s.chans[j]? = some c) (h : s'.chans = s.chans.set j x)
    (hx : x.got = c.got) (id : Nat) : s'.gotL id = s.gotL id := gotL_set h hj hx id

theorem gotL_same {s s' : Subs} (h : s'.chans = s.chans) (id : Nat) : s'.gotL id = s.gotL id := by
  rw [Subs.gotL, Subs.gotL, h]

@[simp] theorem subscribe_inner_gotL (s : Subs) (k : Key) (d id : Nat) : (subscribe_inner s k d).2.gotL id = s.gotL id := by
  simp only [subscribe_inner]
  repeat' split
  all_goals first | rfl | exact gotL_snoc (c := Chan.new k d s.arrived.length) rfl rfl id

@[simp] theorem subscribe_excl_gotL (s : Subs) (k : Key) (d id : Nat) :
    (subscribe_inner_exclusive s k d).2.gotL id = s.gotL id := by
  simp only [subscribe_inner_exclusive]
  repeat' split
  all_goals first | rfl | exact gotL_snoc (c := Chan.new k d s.arrived.length) rfl rfl id

@[simp] theorem subscribe_multi_gotL (s : Subs) (k : Key) (d id : Nat) :
    (subscribe_multi_inner s k d).2.gotL id = s.gotL id := by
  simp only [subscribe_multi_inner]
  repeat' split
  all_goals first | rfl | exact gotL_same rfl id

@[simp] theorem multi_recv_gotL (s : Subs) (j id : Nat) : (multi_recv s j).2.gotL id = s.gotL id := by
  simp only [multi_recv]
  repeat' split
  all_goals first | rfl | exact gotL_same rfl id

@[simp] theorem multi_drop_gotL (s : Subs) (j id : Nat) : (multi_drop s j).gotL id = s.gotL id := by
  simp only [multi_drop]
  split <;> first | rfl | exact gotL_same rfl id

@[simp] theorem sub_drop_gotL (s : Subs) (j id : Nat) : (sub_drop s j).gotL id = s.gotL id := by
  simp only [sub_drop]
  split
  · rfl
  · rename_i c hc
    exact gotL_set' hc (h := by rfl) (hx := by rfl) id

@[simp] theorem note_dropped_gotL (s : Subs) (j id : Nat) : (note_dropped s j).gotL id = s.gotL id := by
  simp only [note_dropped]
  split
  · rfl
  · rename_i c hc
    exact gotL_set' hc (h := by rfl) (hx := by rfl) id

@[simp] theorem retain_subs_gotL (s : Subs) (k : VarKey) (a b : Bool) (id : Nat) : (retain_subs s k a b).gotL id = s.gotL id := by
  refine gotL_same ?_ id
  simp only [retain_subs]
  (repeat' split) <;> rfl

@[simp] theorem try_send_gotL (s : Subs) (i : Nat) (f : RpcFrame) (id : Nat) : (try_send s i f).2.gotL id = s.gotL id := by
  simp only [try_send]
  split
  · rfl
  · rename_i c hc
    split
    · rfl
    · split
      · rfl
      · exact gotL_set' hc (h := by rfl) (hx := by rfl) id

theorem lookup_gotL (z : Bool) (s : Subs) (f : RpcFrame) (id : Nat) : (subs_lookup z s f).2.gotL id = s.gotL id := by
  rw [subs_lookup_eq]
  have h : ∀ (m : Bool × Bool × Subs), (lookupE z f m).2.gotL id = m.2.2.gotL id := by
    intro m
    simp only [lookupE]
    split
    · rename_i i _
      have := try_send_gotL m.2.2 i f id
      revert this
      generalize try_send m.2.2 i f = r
      obtain ⟨r1, r2⟩ := r
      intro this
      simp only at this
      cases r1
      · simp [this]
      · simp only; split <;> simp [this]
      · simp [this]
    · simp
  rw [h]
  exact gotL_same (lookupB_exc _ f).2.2 id

@[simp] theorem purge_gotL (s : Subs) (id : Nat) : (subs_purge s).gotL id = s.gotL id := gotL_same rfl id

/-- What one receive returns. -/
def recvOut (s : Subs) (id : Nat) : List RpcFrame :=
  match (sub_recv s id).1 with
  | some (some f) => [f]
  | _ => []

theorem sub_recv_gotL (s : Subs) (j id : Nat) :
    (sub_recv s j).2.gotL id = s.gotL id ++ (if j = id then recvOut s id else []) := by
  cases hc : s.chans[j]? with
  | none =>
    have : sub_recv s j = (none, s) := by simp only [sub_recv, hc]
    rw [this]
    split
    · rename_i e; subst e; simp [recvOut, this]
    · simp
  | some c =>
    cases hq : c.queue with
    | cons f q =>
      have hr : sub_recv s j = (some (some f), { s with chans := s.chans.set j { c with queue := q, got := c.got ++ [f] } }) := by
        simp only [sub_recv, hc, hq]
      rw [hr]
      have hlt : j < s.chans.length := by
        rcases Nat.lt_or_ge j s.chans.length with h | h
        · exact h
        · rw [List.getElem?_eq_none h] at hc; cases hc
      split
      · rename_i e
        subst e
        have e : s.chans[j] = c := by rw [List.getElem?_eq_getElem hlt] at hc; exact Option.some.inj hc
        simp [Subs.gotL, recvOut, hr, hlt, e]
      · rename_i e
        rw [Subs.gotL, Subs.gotL, List.getElem?_set, if_neg e, List.append_nil]
    | nil =>
      have hr : (sub_recv s j).2 = s ∧ recvOut s j = [] := by
        simp only [recvOut, sub_recv, hc, hq]
        split <;> exact ⟨rfl, rfl⟩
      rw [hr.1]
      split
      · rename_i e; subst e; rw [hr.2, List.append_nil]
      · rw [List.append_nil]

/-- What one step returns to the receiver of `id`. -/
def stepOut (s : Client) (id : Nat) : Label → List RpcFrame
  | .recv_excl i => if i = id then recvOut s.subs id else []
  | _ => []

theorem step_gotL {cfg : Cfg} {s s' : Client} {l : Label} (h : step cfg s l = some s') (id : Nat) :
    s'.subs.gotL id = s.subs.gotL id ++ stepOut s id l := by
  have same : s'.subs.gotL id = s.subs.gotL id → stepOut s id l = [] →
      s'.subs.gotL id = s.subs.gotL id ++ stepOut s id l := by
    intro h1 h2; rw [h2, List.append_nil]; exact h1
  cases l with
  | recv_excl j =>
    simp only [step] at h
    cases h
    exact sub_recv_gotL s.subs j id
  | in_lookup =>
    simp only [step, in_lookup] at h
    refine same ?_ rfl
    split at h
    · rename_i f hp hpol
      have ha := lookup_gotL cfg.zero s.subs f id
      revert h ha
      generalize subs_lookup cfg.zero s.subs f = r
      obtain ⟨r1, r2⟩ := r
      intro h ha
      cases r1 <;> simp only [after_lookup] at h <;> cases h <;> exact ha
    · cases h
  | in_full_send =>
    simp only [step, in_full_send] at h
    refine same ?_ rfl
    split at h
    · rename_i f i rm hp hpol
      have ha := try_send_gotL s.subs i f id
      revert h ha
      generalize try_send s.subs i f = r
      obtain ⟨r1, r2⟩ := r
      intro h ha
      simp only at ha
      cases r1 <;> simp only [after_lookup] at h <;> cases h <;> simp [ha]
    · cases h
  | in_full_timeout =>
    simp only [step, in_full_timeout, after_lookup] at h
    refine same ?_ rfl
    split at h
    · cases h; simp
    · cases h
  | _ =>
    simp only [step, send_resp_begin, call_reg_ok, call_reg_err, call_send, call_take, publish_raw_begin, pub_send,
      out_poll, out_recv, out_done, in_poll, in_recv, in_wake, Client.set_phase, Client.drop_waits] at h
    repeat' split at h
    all_goals first
      | (cases h; done)
      | (cases h; exact same rfl rfl)
      | (cases h; exact same (by simp) rfl)
      | (cases h; split <;> exact same rfl rfl)

theorem received_cons (cfg : Cfg) (id : Nat) (l : Label) (ls : List Label) {s s' : Client} (h : step cfg s l = some s') :
    received cfg id (l :: ls) s = stepOut s id l ++ received cfg id ls s' := by
  cases l with
  | recv_excl i =>
    simp only [received, h, stepOut, recvOut]
    split
    · split <;> simp_all
    · rfl
  | _ => simp only [received, h, stepOut, List.nil_append]

theorem run_gotL {cfg : Cfg} (ls : List Label) (s s' : Client) (h : run cfg ls s = some s') (id : Nat) :
    s'.subs.gotL id = s.subs.gotL id ++ received cfg id ls s := by
  induction ls generalizing s with
  | nil => cases h; simp [received]
  | cons l ls ih =>
    rw [run] at h
    cases e : step cfg s l with
    | none => rw [e] at h; cases h
    | some s1 =>
      rw [e] at h
      rw [ih s1 h, step_gotL e, received_cons cfg id l ls e, List.append_assoc]

/-! ### Messages received by multi-subscriptions -/

/-- The messages multi-subscription `id` has returned. -/
def Subs.gotM (s : Subs) (id : Nat) : List RpcFrame := (s.brxs[id]?.map BRx.got).getD []

theorem gotM_same {s s' : Subs} (h : s'.brxs = s.brxs) (id : Nat) : s'.gotM id = s.gotM id := by
  rw [Subs.gotM, Subs.gotM, h]

theorem gotM_snoc {s s' : Subs} {c : BRx} (h : s'.brxs = s.brxs ++ [c]) (hc : c.got = []) (id : Nat) : s'.gotM id = s.gotM id := by
  rw [Subs.gotM, Subs.gotM, h]
  rcases Nat.lt_trichotomy id s.brxs.length with h' | h' | h'
  · rw [List.getElem?_append_left h']
  · subst h'
    rw [List.getElem?_append_right (Nat.le_refl _), List.getElem?_eq_none (Nat.le_refl s.brxs.length)]
    simp [hc]
  · rw [List.getElem?_eq_none (by simp; omega), List.getElem?_eq_none (by omega)]

theorem gotM_set {s s' : Subs} {c x : BRx} {j : Nat} (hj : s.brxs[j]? = some c) (h : s'.brxs = s.brxs.set j x)
    (hx : x.got = c.got) (id : Nat) : s'.gotM id = s.gotM id := by
  have hlt : j < s.brxs.length := by
    rcases Nat.lt_or_ge j s.brxs.length with h | h
    · exact h
    · rw [List.getElem?_eq_none h] at hj; cases hj
  rw [Subs.gotM, Subs.gotM, h, List.getElem?_set]
  split
  · rename_i e; subst e; simp [hj, hx]
  · rfl

@[simp] theorem subscribe_inner_gotM (s : Subs) (k : Key) (d id : Nat) : (subscribe_inner s k d).2.gotM id = s.gotM id := by
  refine gotM_same ?_ id
  simp only [subscribe_inner]
  (repeat' split) <;> rfl

@[simp] theorem subscribe_excl_gotM (s : Subs) (k : Key) (d id : Nat) :
    (subscribe_inner_exclusive s k d).2.gotM id = s.gotM id := by
  refine gotM_same ?_ id
  simp only [subscribe_inner_exclusive]
  (repeat' split) <;> rfl

@[simp] theorem subscribe_multi_gotM (s : Subs) (k : Key) (d id : Nat) :
    (subscribe_multi_inner s k d).2.gotM id = s.gotM id := by
  simp only [subscribe_multi_inner]
  repeat' split
  · rfl
  · rename_i b _
    exact gotM_snoc (c := ⟨b, [], 0, true, k, s.arrived.length, [], 0⟩) rfl rfl id
  · rfl
  · exact gotM_snoc (c := ⟨s.bchans.length, [], 0, true, k, s.arrived.length, [], 0⟩) rfl rfl id

@[simp] theorem sub_recv_gotM (s : Subs) (j id : Nat) : (sub_recv s j).2.gotM id = s.gotM id := by
  refine gotM_same ?_ id
  simp only [sub_recv]
  (repeat' split) <;> rfl

@[simp] theorem sub_drop_gotM (s : Subs) (j id : Nat) : (sub_drop s j).gotM id = s.gotM id := by
  refine gotM_same ?_ id
  simp only [sub_drop]
  (repeat' split) <;> rfl

@[simp] theorem multi_drop_gotM (s : Subs) (j id : Nat) : (multi_drop s j).gotM id = s.gotM id := by
  simp only [multi_drop]
  split
  · rfl
  · rename_i c hc
    exact gotM_set hc (h := by rfl) (hx := by rfl) id

@[simp] theorem note_dropped_gotM (s : Subs) (j id : Nat) : (note_dropped s j).gotM id = s.gotM id := by
  refine gotM_same ?_ id
  simp only [note_dropped]
  (repeat' split) <;> rfl

@[simp] theorem retain_subs_gotM (s : Subs) (k : VarKey) (a b : Bool) (id : Nat) : (retain_subs s k a b).gotM id = s.gotM id := by
  refine gotM_same ?_ id
  simp only [retain_subs]
  (repeat' split) <;> rfl

@[simp] theorem try_send_gotM (s : Subs) (i : Nat) (f : RpcFrame) (id : Nat) : (try_send s i f).2.gotM id = s.gotM id := by
  refine gotM_same ?_ id
  simp only [try_send]
  (repeat' split) <;> rfl

theorem push_got (cap : Nat) (f : RpcFrame) (r : BRx) : (r.push cap f).got = r.got := by
  simp only [BRx.push]; split <;> rfl

@[simp] theorem bcast_send_gotM (s : Subs) (b : Nat) (f : RpcFrame) (id : Nat) : (bcast_send s b f).2.gotM id = s.gotM id := by
  simp only [bcast_send]
  split
  · simp only [Subs.gotM, List.getElem?_map, Option.map_map]
    congr 2
    funext r
    simp only [Function.comp]
    split
    · exact push_got _ _ _
    · rfl
  · rfl

@[simp] theorem purge_gotM (s : Subs) (id : Nat) : (subs_purge s).gotM id = s.gotM id := gotM_same rfl id

theorem lookup_gotM (z : Bool) (s : Subs) (f : RpcFrame) (id : Nat) : (subs_lookup z s f).2.gotM id = s.gotM id := by
  rw [subs_lookup_eq]
  have h : ∀ (m : Bool × Bool × Subs), (lookupE z f m).2.gotM id = m.2.2.gotM id := by
    intro m
    simp only [lookupE]
    split
    · rename_i i _
      have := try_send_gotM m.2.2 i f id
      revert this
      generalize try_send m.2.2 i f = r
      obtain ⟨r1, r2⟩ := r
      intro this
      simp only at this
      cases r1
      · simp [this]
      · simp only; split <;> simp [this]
      · simp [this]
    · simp
  rw [h, lookupB]
  split
  · simp only [bcast_send_gotM]; exact gotM_same rfl id
  · exact gotM_same rfl id

/-- What one receive returns. -/
def recvOutM (s : Subs) (id : Nat) : List RpcFrame :=
  match (multi_recv s id).1 with
  | some (.Ok f) => [f]
  | _ => []

theorem multi_recv_gotM (s : Subs) (j id : Nat) :
    (multi_recv s j).2.gotM id = s.gotM id ++ (if j = id then recvOutM s id else []) := by
  cases hc : s.brxs[j]? with
  | none =>
    have : multi_recv s j = (none, s) := by simp only [multi_recv, hc]
    rw [this]
    split
    · rename_i e; subst e; simp [recvOutM, this]
    · simp
  | some c =>
    have hlt : j < s.brxs.length := by
      rcases Nat.lt_or_ge j s.brxs.length with h | h
      · exact h
      · rw [List.getElem?_eq_none h] at hc; cases hc
    have hcj : s.brxs[j] = c := by rw [List.getElem?_eq_getElem hlt] at hc; exact Option.some.inj hc
    by_cases hm : 0 < c.missed
    · have hr : multi_recv s j = (some (.Lagged c.missed), { s with brxs := s.brxs.set j { c with missed := 0 } }) := by
        simp only [multi_recv, hc, if_pos hm]
      rw [hr]
      have e1 : (if j = id then recvOutM s id else []) = [] := by
        split
        · rename_i e; subst e; simp [recvOutM, hr]
        · rfl
      rw [e1, List.append_nil]
      exact gotM_set hc (h := by rfl) (hx := by rfl) id
    · cases hq : c.pending with
      | cons f q =>
        have hr : multi_recv s j = (some (.Ok f), { s with brxs := s.brxs.set j { c with pending := q, got := c.got ++ [f] } }) := by
          simp only [multi_recv, hc, if_neg hm, hq]
        rw [hr]
        split
        · rename_i e
          subst e
          simp [Subs.gotM, recvOutM, hr, hlt, hcj]
        · rename_i e
          rw [Subs.gotM, Subs.gotM, List.getElem?_set, if_neg e, List.append_nil]
      | nil =>
        have hr : (multi_recv s j).2 = s ∧ recvOutM s j = [] := by
          simp only [recvOutM, multi_recv, hc, if_neg hm, hq]
          split <;> exact ⟨rfl, rfl⟩
        rw [hr.1]
        split
        · rename_i e; subst e; rw [hr.2, List.append_nil]
        · rw [List.append_nil]

/-- What one step returns to the receiver of `id`. -/
def stepOutM (s : Client) (id : Nat) : Label → List RpcFrame
  | .recv_multi i => if i = id then recvOutM s.subs id else []
  | _ => []

theorem step_gotM {cfg : Cfg} {s s' : Client} {l : Label} (h : step cfg s l = some s') (id : Nat) :
    s'.subs.gotM id = s.subs.gotM id ++ stepOutM s id l := by
  have same : s'.subs.gotM id = s.subs.gotM id → stepOutM s id l = [] →
      s'.subs.gotM id = s.subs.gotM id ++ stepOutM s id l := by
    intro h1 h2; rw [h2, List.append_nil]; exact h1
  cases l with
  | recv_multi j =>
    simp only [step] at h
    cases h
    exact multi_recv_gotM s.subs j id
  | in_lookup =>
    simp only [step, in_lookup] at h
    refine same ?_ rfl
    split at h
    · rename_i f hp hpol
      have ha := lookup_gotM cfg.zero s.subs f id
      revert h ha
      generalize subs_lookup cfg.zero s.subs f = r
      obtain ⟨r1, r2⟩ := r
      intro h ha
      cases r1 <;> simp only [after_lookup] at h <;> cases h <;> exact ha
    · cases h
  | in_full_send =>
    simp only [step, in_full_send] at h
    refine same ?_ rfl
    split at h
    · rename_i f i rm hp hpol
      have ha := try_send_gotM s.subs i f id
      revert h ha
      generalize try_send s.subs i f = r
      obtain ⟨r1, r2⟩ := r
      intro h ha
      simp only at ha
      cases r1 <;> simp only [after_lookup] at h <;> cases h <;> simp [ha]
    · cases h
  | in_full_timeout =>
    simp only [step, in_full_timeout, after_lookup] at h
    refine same ?_ rfl
    split at h
    · cases h; simp
    · cases h
  | _ =>
    simp only [step, send_resp_begin, call_reg_ok, call_reg_err, call_send, call_take, publish_raw_begin, pub_send,
      out_poll, out_recv, out_done, in_poll, in_recv, in_wake, Client.set_phase, Client.drop_waits] at h
    repeat' split at h
    all_goals first
      | (cases h; done)
      | (cases h; exact same rfl rfl)
      | (cases h; exact same (by simp) rfl)
      | (cases h; split <;> exact same rfl rfl)

theorem receivedMulti_cons (cfg : Cfg) (id : Nat) (l : Label) (ls : List Label) {s s' : Client} (h : step cfg s l = some s') :
    receivedMulti cfg id (l :: ls) s = stepOutM s id l ++ receivedMulti cfg id ls s' := by
  cases l with
  | recv_multi i =>
    simp only [receivedMulti, h, stepOutM, recvOutM]
    split
    · split <;> simp_all
    · rfl
  | _ => simp only [receivedMulti, h, stepOutM, List.nil_append]

theorem run_gotM {cfg : Cfg} (ls : List Label) (s s' : Client) (h : run cfg ls s = some s') (id : Nat) :
    s'.subs.gotM id = s.subs.gotM id ++ receivedMulti cfg id ls s := by
  induction ls generalizing s with
  | nil => cases h; simp [receivedMulti]
  | cons l ls ih =>
    rw [run] at h
    cases e : step cfg s l with
    | none => rw [e] at h; cases h
    | some s1 =>
      rw [e] at h
      rw [ih s1 h, step_gotM e, receivedMulti_cons cfg id l ls e, List.append_assoc]

/-! ### The end of transmission -/

/-- Nothing more can be transmitted: the transmit worker has seen the stop, or will see it before it does anything else. -/
def TxOver (s : Client) : Prop := s.out_pc = .exited ∨ (s.stopped = true ∧ s.out_polled = false)

theorem step_txOver {cfg : Cfg} {s s' : Client} {l : Label} (h : step cfg s l = some s') (hs : TxOver s) :
    TxOver s' ∧ s'.tx = s.tx := by
  rcases hs with hs | ⟨h1, h2⟩
  · have := step_outExited h hs
    exact ⟨.inl this.1, this.2.1⟩
  · have hst := step_stopped h h1
    cases l with
    | _ =>
      simp only [step, send_resp_begin, call_reg_ok, call_reg_err, call_send, call_take, publish_raw_begin, pub_send,
        out_poll, out_recv, out_done, in_poll, in_recv, in_lookup, in_full_send, in_full_timeout, after_lookup, in_wake,
        Client.set_phase, Client.drop_waits] at h
      repeat' split at h
      all_goals first
        | (cases h; done)
        | (cases h; exact ⟨.inr ⟨hst, h2⟩, rfl⟩)
        | (cases h; exact ⟨.inl rfl, rfl⟩)
        | (cases h; split <;> exact ⟨.inr ⟨h1, h2⟩, rfl⟩)
        | (simp_all; done)

end PRpc
