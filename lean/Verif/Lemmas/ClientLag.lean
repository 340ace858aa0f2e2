import Verif.Lemmas.ClientRun
import Verif.Lemmas.ClientHist
import Verif.Lemmas.ClientMulti
/-!
Helper lemmas about the capacity of broadcast channels and about the first message a multi-subscription loses.
-/

namespace PRpc

open Spec

theorem snoc_induct {α : Type} {P : List α → Prop} (nil : P []) (snoc : ∀ l x, P l → P (l ++ [x])) (l : List α) : P l := by
  rw [← List.reverse_reverse l]
  induction l.reverse with
  | nil => exact nil
  | cons x xs ih => rw [List.reverse_cons]; exact snoc _ _ ih

/-- A property of all the states along a run that can be checked by running. -/
def along (cfg : Cfg) (P : List Label → Client → Bool) : List Label → List Label → Client → Bool
  | as, [], s => P as s
  | as, l :: ls, s => P as s && match step cfg s l with
    | some s' => along cfg P (as ++ [l]) ls s'
    | none => true

theorem along_spec {cfg : Cfg} {P : List Label → Client → Bool} (bs : List Label) (ps : List Label) (s0 : Client)
    (h : along cfg P ps bs s0 = true) : ∀ as cs t, bs = as ++ cs → run cfg as s0 = some t → P (ps ++ as) t = true := by
  induction bs generalizing ps s0 with
  | nil =>
    intro as cs t e hr
    obtain ⟨rfl, rfl⟩ := List.nil_eq_append_iff.mp e
    cases hr
    simpa [along] using h
  | cons l bs ih =>
    intro as cs t e hr
    simp only [along, Bool.and_eq_true] at h
    cases as with
    | nil => cases hr; simpa using h.1
    | cons a as =>
      simp only [List.cons_append, List.cons.injEq] at e
      obtain ⟨rfl, rfl⟩ := e
      rw [run] at hr
      cases hs : step cfg s0 l with
      | none => rw [hs] at hr; cases hr
      | some s1 =>
        rw [hs] at hr h
        have := ih (ps ++ [l]) s1 h.2 as cs t rfl hr
        rwa [List.append_assoc] at this

theorem le_next_pow2 (n f : Nat) (h : n ≤ 2 ^ f) : n ≤ next_pow2 n f := by
  induction f with
  | zero => simpa [next_pow2] using h
  | succ f ih =>
    rw [next_pow2]
    split
    · rename_i h'; exact ih h'
    · exact h

theorem le_pow2_self (n : Nat) : n ≤ next_pow2 n n := le_next_pow2 n n (Nat.le_of_lt Nat.lt_two_pow_self)

theorem subs_lookup_caps (zero : Bool) (s : Subs) (f : RpcFrame) : (subs_lookup zero s f).2.bchans = s.bchans := by
  rw [subs_lookup_eq, (lookupE_bc zero f (lookupB { s with arrived := s.arrived ++ [f] } f)).2.1, lookupB]
  simp only
  split
  · rw [bcast_send]; split <;> rfl
  · rfl

/-- Only a multi-subscription to a topic without an entry makes a channel, of the depth asked for. -/
theorem step_caps {cfg : Cfg} {s s' : Client} {l : Label} (h : step cfg s l = some s') :
    s'.subs.bchans = s.subs.bchans ∨ ∃ key depth, l = .sub_multi key depth ∧
      s'.subs.bchans = s.subs.bchans ++ [next_pow2 depth depth] ∧
      s'.subs.broadcast_list = s.subs.broadcast_list ++ [(key, s.subs.bchans.length)] := by
  cases l with
  | in_lookup =>
    simp only [step, in_lookup] at h
    split at h
    · rename_i f _ _
      have hb := subs_lookup_caps cfg.zero s.subs f
      split at h <;> (rename_i he; cases h; rw [he] at hb; exact .inl hb)
    · cases h
  | in_full_send =>
    simp only [step, in_full_send] at h
    split at h
    · rename_i f id rm _ _
      obtain ⟨c, hc⟩ := try_send_bc s.subs id f
      split at h
      · rename_i sb he
        cases h
        rw [he] at hc
        have hc' : sb.bchans = s.subs.bchans := by simp only at hc; rw [hc]
        exact .inl ((retain_bc sb f.header.key false rm).2.1.trans hc')
      · cases h
      · rename_i sb he
        cases h
        rw [he] at hc
        have hc' : sb.bchans = s.subs.bchans := by simp only at hc; rw [hc]
        exact .inl ((retain_bc sb f.header.key true rm).2.1.trans hc')
    · cases h
  | in_full_timeout =>
    simp only [step, in_full_timeout] at h
    split at h
    · rename_i f id rm _ _
      cases h
      obtain ⟨c', hc'⟩ := note_dropped_bc s.subs id
      exact .inl ((retain_bc (note_dropped s.subs id) f.header.key false rm).2.1.trans (by rw [hc']))
    · cases h
  | sub_multi key depth =>
    simp only [step] at h
    split at h
    · cases h
      simp only [subscribe_multi_inner]
      split
      · exact .inl rfl
      · split
        · exact .inl rfl
        · split
          · exact .inl rfl
          · exact .inr ⟨key, depth, rfl, rfl, rfl⟩
    · cases h
  | _ =>
    left
    simp only [step, send_resp_begin, call_reg_ok, call_reg_err, call_send, call_take, publish_raw_begin, pub_send,
      out_poll, out_recv, out_done, in_poll, in_recv, in_wake, subs_purge, sub_drop, multi_drop, sub_recv, multi_recv,
      subscribe_inner, subscribe_inner_exclusive, Client.set_phase, Client.drop_waits] at h
    repeat' split at h
    all_goals first
      | (cases h; done)
      | (cases h; rfl)
      | (cases h; split <;> rfl)
      | (cases h; (repeat' split) <;> rfl)

/-- Every channel of topic `k` that is registered or listened to has room for `d` messages. -/
structure Roomy (k : Key) (d : Nat) (e : Bc) : Prop where
  bl : ∀ b, (k, b) ∈ e.bl → d ≤ e.caps.getD b 1
  rx : ∀ r ∈ e.rx, r.key = k → d ≤ e.caps.getD r.chan 1

theorem roomy_step {k : Key} {d : Nat} {e e' : Bc} (hs : BStep e e') (bi : BInv e) (inv : Roomy k d e)
    (hc : ∀ n, e'.caps = e.caps ++ [n] → e'.bl = e.bl ++ [(k, e.caps.length)] → d ≤ n) : Roomy k d e' := by
  have setr : ∀ {r : List BRx} {c : List Nat} {id : Nat} {y z : BRx}, (∀ r' ∈ r, r'.key = k → d ≤ c.getD r'.chan 1) →
      r[id]? = some y → z.key = y.key → z.chan = y.chan → ∀ r' ∈ r.set id z, r'.key = k → d ≤ c.getD r'.chan 1 := by
    intro r c id y z h hy h1 h2 w hw hk
    rcases List.mem_or_eq_of_mem_set hw with hw | rfl
    · exact h w hw hk
    · rw [h2]; exact h y (List.mem_iff_getElem?.mpr ⟨id, hy⟩) (h1 ▸ hk)
  cases hs with
  | skip => exact inv
  | lose a x c r m => exact ⟨inv.bl, inv.rx⟩
  | arriveNone a x c r f h => exact ⟨inv.bl, inv.rx⟩
  | arriveOk a x c r f k' b h hl =>
    refine ⟨inv.bl, fun w hw hk => ?_⟩
    obtain ⟨y, hy, e⟩ := List.mem_map.mp hw
    split at e
    · subst e
      rw [(push_fields _ f y).2.2.1] at hk
      rw [(push_fields _ f y).1]
      exact inv.rx y hy hk
    · subst e; exact inv.rx _ hy hk
  | arriveDead a x c r f k' b h hl => exact ⟨fun b hb => inv.bl b (List.mem_filter.mp hb).1, inv.rx⟩
  | arriveWait a x c r f k' b h hl => exact ⟨inv.bl, inv.rx⟩
  | remove a x c r f => exact ⟨fun b hb => inv.bl b (List.mem_filter.mp hb).1, inv.rx⟩
  | purge a x c r => exact ⟨fun b hb => absurd hb List.not_mem_nil, inv.rx⟩
  | join a x c r key b h =>
    refine ⟨inv.bl, fun w hw hk => ?_⟩
    rcases List.mem_append.mp hw with hw | hw
    · exact inv.rx w hw hk
    · rw [List.mem_singleton.mp hw] at hk ⊢
      subst hk
      exact inv.bl b (find_entry_some h)
  | fresh a x c r key depth hd h =>
    have lt : ∀ b, b < c.length → (c ++ [next_pow2 depth depth]).getD b 1 = c.getD b 1 := by
      intro b hb
      simp [List.getD, List.getElem?_append_left hb]
    have new : (c ++ [next_pow2 depth depth]).getD c.length 1 = next_pow2 depth depth := by simp [List.getD]
    refine ⟨fun b hb => ?_, fun w hw hk => ?_⟩
    · rcases List.mem_append.mp hb with hb | hb
      · simp only; rw [lt b (bi.ent _ _ hb)]; exact inv.bl b hb
      · cases List.mem_singleton.mp hb
        simp only; rw [new]
        exact hc _ rfl rfl
    · rcases List.mem_append.mp hw with hw | hw
      · simp only; rw [lt _ (bi.rxLt w hw)]; exact inv.rx w hw hk
      · rw [List.mem_singleton.mp hw] at hk ⊢
        subst hk
        simp only; rw [new]
        exact hc _ rfl rfl
  | lag a x c r m id y hy => exact ⟨inv.bl, setr inv.rx hy rfl rfl⟩
  | recv a x c r m id y f q hy hq hm => exact ⟨inv.bl, setr inv.rx hy rfl rfl⟩
  | dropRx a x c r m id y hy => exact ⟨inv.bl, setr inv.rx hy rfl rfl⟩

/-- A step makes a receiver lose something only if its queue was full. -/
theorem lost_step {e e' : Bc} (hs : BStep e e') (bi : BInv e) {id : Nat} {r' : BRx} (h : e'.rx[id]? = some r') :
    (e.rx[id]? = none ∧ r'.lost = 0) ∨ ∃ r, e.rx[id]? = some r ∧ r.key = r'.key ∧ r.since = r'.since ∧
      (r'.lost = r.lost ∨ (e.caps.getD r.chan 1 ≤ r.pending.length ∧ r'.got = r.got ∧
        ∃ f, e'.arr = e.arr ++ [f] ∧ key_match r.key f.header.key = true)) := by
  have setr : ∀ {r : List BRx} {j : Nat} {y z : BRx}, r[j]? = some y → z.key = y.key → z.since = y.since →
      z.lost = y.lost → (r.set j z)[id]? = some r' →
      ∃ r0, r[id]? = some r0 ∧ r0.key = r'.key ∧ r0.since = r'.since ∧ r'.lost = r0.lost := by
    intro r j y z hy h1 h2 h3 hz
    by_cases e : id = j
    · subst e
      rw [set_get_self hy] at hz; cases hz
      exact ⟨y, hy, h1.symm, h2.symm, h3⟩
    · rw [set_get_ne _ e] at hz
      exact ⟨r', hz, rfl, rfl, rfl⟩
  have app : ∀ {r : List BRx} {y : BRx}, y.lost = 0 → (r ++ [y])[id]? = some r' →
      (r[id]? = none ∧ r'.lost = 0) ∨ r[id]? = some r' := by
    intro r y h0 hz
    by_cases e : id < r.length
    · rw [List.getElem?_append_left e] at hz; exact .inr hz
    · refine .inl ⟨List.getElem?_eq_none (by omega), ?_⟩
      rw [List.getElem?_append_right (by omega)] at hz
      have := List.mem_iff_getElem?.mpr ⟨_, hz⟩
      rw [List.mem_singleton.mp this]; exact h0
  cases hs with
  | arriveOk a x c r f k b hf hl =>
    simp only [List.getElem?_map, Option.map_eq_some_iff] at h
    obtain ⟨y, hy, e⟩ := h
    right
    refine ⟨y, hy, ?_⟩
    split at e
    · rename_i hb
      simp only [onChan, Bool.and_eq_true, beq_iff_eq] at hb
      subst e
      refine ⟨(push_fields _ f y).2.2.1.symm, (push_fields _ f y).2.2.2.1.symm, ?_⟩
      by_cases hc : (y.pending ++ [f]).length ≤ c.getD b 1
      · left; simp only [BRx.push]; rw [if_pos hc]
      · right
        obtain ⟨hx, hm⟩ := find_mem hf
        have hk := bi.key k b hx y (List.mem_iff_getElem?.mpr ⟨id, hy⟩) hb.2
        refine ⟨?_, (push_fields _ f y).2.2.2.2.1, f, rfl, by rw [hk]; exact hm⟩
        rw [List.length_append, List.length_singleton] at hc
        rw [hb.2]
        simp only
        omega
    · subst e; exact ⟨rfl, rfl, .inl rfl⟩
  | join a x c r key b hb =>
    rcases app rfl h with h | h
    · exact .inl h
    · exact .inr ⟨r', h, rfl, rfl, .inl rfl⟩
  | fresh a x c r key depth hd hb =>
    rcases app rfl h with h | h
    · exact .inl h
    · exact .inr ⟨r', h, rfl, rfl, .inl rfl⟩
  | lag a x c r m j y hy => 
    obtain ⟨r0, h1, h2, h3, h4⟩ := setr hy (by rfl) (by rfl) (by rfl) h
    exact .inr ⟨r0, h1, h2, h3, .inl h4⟩
  | recv a x c r m j y f q hy hq hm =>
    obtain ⟨r0, h1, h2, h3, h4⟩ := setr hy (by rfl) (by rfl) (by rfl) h
    exact .inr ⟨r0, h1, h2, h3, .inl h4⟩
  | dropRx a x c r m j y hy =>
    obtain ⟨r0, h1, h2, h3, h4⟩ := setr hy (by rfl) (by rfl) (by rfl) h
    exact .inr ⟨r0, h1, h2, h3, .inl h4⟩
  | _ => exact .inr ⟨r', h, rfl, rfl, .inl rfl⟩

/-- Whatever loses a message first had more than `d` messages to take. -/
theorem lost_zero {cfg : Cfg} {d : Nat} {id : Nat} {key : Key} {since : Nat} (ls : List Label) (s : Client) (h : run cfg ls Client.new = some s)
    (hd : ∀ n, Label.sub_multi key n ∈ ls → d ≤ n)
    (hu : ∀ as bs t, ls = as ++ bs → run cfg as Client.new = some t →
      (topicFrames t.subs.arrived key since).length ≤ (receivedMulti cfg id as Client.new).length + d) :
    Roomy key d s.bc ∧ ∀ r, s.subs.brxs[id]? = some r → r.key = key → r.since = since → r.lost = 0 := by
  induction ls using snoc_induct generalizing s with
  | nil =>
    cases h
    refine ⟨⟨fun b h => ?_, fun r h => ?_⟩, fun r h => ?_⟩
    all_goals simp [Client.bc, Client.new, Subs.new] at h
  | snoc ls l ih =>
    have hfull := h
    rw [run_append] at h
    cases e : run cfg ls Client.new with
    | none => rw [e] at h; cases h
    | some t =>
      rw [e] at h
      have hst : step cfg t l = some s := by
        simp only [Option.bind_some, run] at h
        split at h
        · rename_i u hu'; cases h; exact hu'
        · cases h
      obtain ⟨i1, i2⟩ := ih t e (fun n hn => hd n (List.mem_append.mpr (.inl hn)))
        (fun as bs u h1 h2 => hu as (bs ++ [l]) u (by rw [h1, List.append_assoc]) h2)
      have hb := step_bc hst
      have bi := (reachable_bcinv ⟨ls, e⟩).1
      refine ⟨roomy_step hb bi i1 fun n h1 h2 => ?_, fun r hr hk hsn => ?_⟩
      · rcases step_caps hst with hcp | ⟨key', depth, rfl, hcp, hbl⟩
        · have h1 : s.subs.bchans = t.subs.bchans ++ [n] := h1
          rw [hcp] at h1
          have := congrArg List.length h1
          simp at this
        · have h1 : s.subs.bchans = t.subs.bchans ++ [n] := h1
          have h2 : s.subs.broadcast_list = t.subs.broadcast_list ++ [(key, t.subs.bchans.length)] := h2
          rw [hcp] at h1
          rw [hbl] at h2
          have e1 := List.append_cancel_left h1
          have e2 := List.append_cancel_left h2
          simp only [List.cons.injEq, and_true, Prod.mk.injEq] at e1 e2
          subst e1
          rw [← e2] at hd
          exact Nat.le_trans (hd depth (by simp)) (le_pow2_self depth)
      · rcases lost_step hb bi hr with ⟨_, h0⟩ | ⟨r0, h1, h2, h3, h4⟩
        · exact h0
        · have h0 := i2 r0 h1 (h2.trans hk) (h3.trans hsn)
          rcases h4 with h4 | ⟨hfull', hgot, f, harr, hm⟩
          · rw [h4, h0]
          · exfalso
            have hmem : r0 ∈ t.bc.rx := List.mem_iff_getElem?.mpr ⟨id, h1⟩
            have hsub := (bi.sub r0 hmem).length_le
            have hcap := i1.rx r0 hmem (h2.trans hk)
            have hu' := hu (ls ++ [l]) [] s (by simp) hfull
            have hg := run_gotM (ls ++ [l]) Client.new s hfull id
            have hn0 : Client.new.subs.gotM id = [] := by simp [Client.new, Subs.new, Subs.gotM]
            have hr' : s.subs.brxs[id]? = some r := hr
            rw [hn0, List.nil_append, Subs.gotM, hr'] at hg
            simp only [Option.map_some, Option.getD_some] at hg
            rw [← hg, hgot] at hu'
            have harr' : s.subs.arrived = t.subs.arrived ++ [f] := harr
            have hsi : r0.since ≤ t.subs.arrived.length := bi.since r0 hmem
            rw [h3.trans hsn] at hsi hsub
            rw [h2.trans hk] at hm hsub
            rw [harr', topicFrames_snoc hsi, if_pos hm] at hu'
            rw [List.length_append] at hsub hu'
            have : t.bc.arr = t.subs.arrived := rfl
            rw [this] at hsub
            simp only [List.length_singleton] at hu'
            omega

end PRpc
