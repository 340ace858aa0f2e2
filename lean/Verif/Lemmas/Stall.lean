import Verif.Spec.Stall
import Verif.Lemmas.Header
import Verif.Lemmas.ClientOut
/-! Helper lemmas for C83. -/

namespace PRpc

open Spec

/-- What a step of the client does to the receive worker's place. -/
inductive PcMove (s s' : Client) (l : Label) : Prop where
  | stay : s'.in_pc = s.in_pc → (∀ r, l ≠ .in_recv (some r)) → deals l s'.in_pc = none → PcMove s s' l
  | over : s'.in_pc = .purge ∨ s'.in_pc = .exited → s.in_pc ≠ .exited → (∀ r, l ≠ .in_recv (some r)) → deals l s'.in_pc = none → PcMove s s' l
  | got (b : Bytes) (f : RpcFrame) : l = .in_recv (some b) → s.in_pc = .recv → s'.in_pc = .lookup f → PcMove s s' l
  | bad (b : Bytes) : l = .in_recv (some b) → s.in_pc = .recv → s'.in_pc = .recv → PcMove s s' l
  | handled (f : RpcFrame) : l = .in_lookup → s.in_pc = .lookup f → s'.in_pc = .recv → PcMove s s' l
  | unhandled (f : RpcFrame) : l = .in_lookup → s.in_pc = .lookup f → s'.in_pc = .wake f → PcMove s s' l
  | noroom (f : RpcFrame) (id : Nat) (rm : Bool) : l = .in_lookup → s.in_pc = .lookup f → s'.in_pc = .full f id rm → PcMove s s' l
  | waited (f : RpcFrame) (id : Nat) (rm : Bool) : l = .in_full_send ∨ l = .in_full_timeout → s.in_pc = .full f id rm →
      s'.in_pc = .recv → PcMove s s' l
  | woken (f : RpcFrame) (w : Option WaitId) : l = .in_wake w → s.in_pc = .wake f → s'.in_pc = .recv → PcMove s s' l

theorem call_reg_ok_pc (s : Client) (c cl k) : (call_reg_ok s c cl k).in_pc = s.in_pc := by
  unfold call_reg_ok Client.set_phase; split <;> rfl

theorem call_reg_err_pc (cfg s c cl k) : (call_reg_err cfg s c cl k).in_pc = s.in_pc := by
  unfold call_reg_err Client.set_phase Client.drop_waits; split <;> rfl

theorem pc_move {cfg : Cfg} {s s' : Client} {l : Label} (h : step cfg s l = some s') : PcMove s s' l := by
  cases l with
  | in_recv r =>
    simp only [step, in_recv] at h
    split at h
    · rename_i hp
      cases r with
      | none => cases h; exact .over (.inl rfl) (by rw [hp.1]; simp) (by simp) rfl
      | some b =>
        simp only at h
        split at h
        · cases h
        · cases h; exact .bad b rfl hp.1 hp.1
        · rename_i hdr body _; cases h; exact .got b ⟨hdr, body⟩ rfl hp.1 rfl
    · cases h
  | in_lookup =>
    simp only [step, in_lookup] at h
    split at h
    · rename_i f hpc _
      split at h
      · rename_i handled subs _
        cases h
        cases handled with
        | true => exact .handled f rfl hpc rfl
        | false => exact .unhandled f rfl hpc rfl
      · rename_i id rm subs _
        cases h
        exact .noroom f id rm rfl hpc rfl
    · cases h
  | in_full_send =>
    simp only [step, in_full_send] at h
    split at h
    · rename_i f id rm hpc _
      split at h
      · cases h; exact .waited f id rm (.inl rfl) hpc rfl
      · cases h
      · cases h; exact .waited f id rm (.inl rfl) hpc rfl
    · cases h
  | in_full_timeout =>
    simp only [step, in_full_timeout] at h
    split at h
    · rename_i f id rm hpc _
      cases h; exact .waited f id rm (.inr rfl) hpc rfl
    · cases h
  | in_wake w =>
    simp only [step, in_wake] at h
    split at h
    · rename_i f hpc _
      cases w with
      | none =>
        simp only at h
        split at h
        · cases h
        · cases h; exact .woken f _ rfl hpc rfl
      | some id =>
        simp only at h
        split at h
        · cases h; exact .woken f _ rfl hpc rfl
        · cases h
    · cases h
  | in_purge =>
    simp only [step] at h
    split at h
    · rename_i hp
      cases h; exact .over (.inr rfl) (by rw [hp]; simp) (by simp) rfl
    · cases h
  | in_poll =>
    simp only [step, in_poll] at h
    split at h
    · cases h
    · rename_i hp
      split at h
      · cases h; exact .over (.inl rfl) (fun e => hp (.inr (.inl e))) (by simp) rfl
      · cases h; exact .stay rfl (by simp) rfl
  | call_reg_ok c =>
    simp only [step] at h
    repeat' split at h
    all_goals first
      | (cases h; done)
      | (cases h; exact .stay (call_reg_ok_pc _ _ _ _) (by simp) rfl)
  | call_reg_err c =>
    simp only [step] at h
    repeat' split at h
    all_goals first
      | (cases h; done)
      | (cases h; exact .stay (call_reg_err_pc _ _ _ _ _) (by simp) rfl)
  | _ =>
    simp only [step, call_send, call_take, pub_send, out_poll, out_recv, out_done] at h
    repeat' split at h
    all_goals first
      | (cases h; done)
      | (cases h; exact .stay rfl (by simp) rfl)

/-- The earliest moment work on the next message (the one after those dealt with) could begin. -/
def Clk.base (k : Clk) : Nat := max (k.arr[k.fin.length]?.getD 0) (finishedBefore k.fin k.fin.length)

/-- Is the worker at work on a message? -/
def InPc.busy : InPc → Nat
  | .lookup _ => 1
  | .full _ _ _ => 1
  | .wake _ => 1
  | _ => 0

/-- The invariant. -/
structure ClkInv (cc : ClkCfg) (k : Clk) : Prop where
  wait : ∀ f id rm, k.client.in_pc = .full f id rm →
    ∃ u, k.sleep = some u ∧ k.now ≤ u ∧ u ≤ k.now + cc.timeout ∧ u ≤ k.base + cc.timeout
  nowait : (∀ f id rm, k.client.in_pc ≠ .full f id rm) → k.sleep = none
  count : k.fin.length + k.client.in_pc.busy + k.air.length ≤ k.arr.length
  exact : k.client.in_pc ≠ .purge → k.client.in_pc ≠ .exited → k.fin.length + k.client.in_pc.busy + k.air.length = k.arr.length
  ready : (∃ f, k.client.in_pc = .lookup f ∨ k.client.in_pc = .wake f) ∨ (k.client.in_pc = .recv ∧ k.air ≠ []) → k.now ≤ k.base
  arrle : ∀ (i : Nat) a, k.arr[i]? = some a → a ≤ k.now
  finle : ∀ (i : Nat) p, k.fin[i]? = some p → p.1 ≤ k.now
  line : ∀ (i : Nat) d w, k.fin[i]? = some (d, w) → ∃ a, k.arr[i]? = some a ∧ a ≤ d ∧ finishedBefore k.fin i ≤ d ∧
    d ≤ max a (finishedBefore k.fin i) + if w then cc.timeout else 0

theorem finishedBefore_append (fin : List (Nat × Bool)) (p : Nat × Bool) {i : Nat} (h : i ≤ fin.length) :
    finishedBefore (fin ++ [p]) i = finishedBefore fin i := by
  cases i with
  | zero => rfl
  | succ i => simp only [finishedBefore]; rw [List.getElem?_append_left (by omega)]

theorem finishedBefore_last (fin : List (Nat × Bool)) (p : Nat × Bool) :
    finishedBefore (fin ++ [p]) (fin ++ [p]).length = p.1 := by
  simp [finishedBefore]

theorem finishedBefore_le {fin : List (Nat × Bool)} {n : Nat} (h : ∀ (i : Nat) p, fin[i]? = some p → p.1 ≤ n) (i : Nat) :
    finishedBefore fin i ≤ n := by
  cases i with
  | zero => exact Nat.zero_le _
  | succ i =>
    simp only [finishedBefore]
    cases hf : fin[i]? with
    | none => exact Nat.zero_le _
    | some p => exact h i p hf

/-- Dealing with a message keeps the invariant. -/
theorem inv_deal {cc : ClkCfg} {k k' : Clk} {w : Bool} (hi : ClkInv cc k) (hn : k'.now = k.now) (ha : k'.arr = k.arr)
    (hf : k'.fin = k.fin ++ [(k.now, w)]) (hpc : k'.client.in_pc = .recv) (hs : k'.sleep = none)
    (hc : k.fin.length + 1 + k'.air.length = k.arr.length)
    (hb : k.now ≤ k.base + if w then cc.timeout else 0) : ClkInv cc k' := by
  have hbase : k'.now ≤ k'.base := by
    unfold Clk.base
    rw [hn, hf, finishedBefore_last]
    exact Nat.le_max_right _ _
  refine ⟨?_, fun _ => hs, ?_, ?_, fun _ => hbase, ?_, ?_, ?_⟩
  · intro f id rm h; rw [hpc] at h; cases h
  · rw [hpc, hf, ha]; simp only [InPc.busy, List.length_append, List.length_singleton]; omega
  · intro _ _; rw [hpc, hf, ha]; simp only [InPc.busy, List.length_append, List.length_singleton]; omega
  · rw [hn, ha]; exact hi.arrle
  · rw [hn, hf]
    intro i p h
    rcases Nat.lt_or_ge i k.fin.length with hl | hl
    · rw [List.getElem?_append_left hl] at h; exact hi.finle i p h
    · rw [List.getElem?_append_right hl] at h
      have : p = (k.now, w) := by
        cases hh : i - k.fin.length with
        | zero => rw [hh] at h; simpa using h.symm
        | succ n => rw [hh] at h; simp at h
      rw [this]; exact Nat.le_refl _
  · rw [hf, ha]
    intro i d w' h
    rcases Nat.lt_or_ge i k.fin.length with hl | hl
    · rw [List.getElem?_append_left hl] at h
      rw [finishedBefore_append _ _ (Nat.le_of_lt hl)]
      exact hi.line i d w' h
    · rw [List.getElem?_append_right hl] at h
      have hil : i = k.fin.length := by
        cases hh : i - k.fin.length with
        | zero => omega
        | succ n => rw [hh] at h; simp at h
      subst hil
      simp only [Nat.sub_self, List.getElem?_cons_zero, Option.some.injEq, Prod.mk.injEq] at h
      obtain ⟨rfl, rfl⟩ := h
      rw [finishedBefore_append _ _ (Nat.le_refl _)]
      have hlt : k.fin.length < k.arr.length := by omega
      refine ⟨k.arr[k.fin.length], List.getElem?_eq_getElem hlt, hi.arrle _ _ (List.getElem?_eq_getElem hlt),
        finishedBefore_le hi.finle _, ?_⟩
      simpa only [Clk.base, List.getElem?_eq_getElem hlt, Option.getD_some] using hb

/-- The client's step keeps the invariant. -/
theorem inv_client {cc : ClkCfg} {k : Clk} {l : Label} {c : Client} (hi : ClkInv cc k)
    (hl : ∀ b, l ≠ .in_recv (some b)) (hm : PcMove k.client c l) : ClkInv cc (clk_after cc k l c) := by
  cases hm with
  | stay h1 _ h3 =>
    have hfin : (clk_after cc k l c).fin = k.fin := by simp only [clk_after, h3]
    have hsl : (clk_after cc k l c).sleep = k.sleep := by
      simp only [clk_after, h1]
      split
      · rename_i f id rm hpc
        obtain ⟨u, hu, _⟩ := hi.wait f id rm hpc
        rw [hu]; rfl
      · rename_i hpc
        exact (hi.nowait (fun f id rm h => hpc f id rm h)).symm
    have hpc : (clk_after cc k l c).client.in_pc = k.client.in_pc := h1
    have hbase : (clk_after cc k l c).base = k.base := by unfold Clk.base; rw [hfin]; rfl
    refine ⟨?_, ?_, ?_, ?_, ?_, hi.arrle, ?_, ?_⟩
    · rw [hpc, hsl, hbase]; exact hi.wait
    · rw [hpc, hsl]; exact hi.nowait
    · rw [hpc, hfin]; exact hi.count
    · rw [hpc, hfin]; exact hi.exact
    · rw [hpc, hbase]; exact hi.ready
    · rw [hfin]; exact hi.finle
    · rw [hfin]; exact hi.line
  | over h1 _ _ h3 =>
    have hfin : (clk_after cc k l c).fin = k.fin := by simp only [clk_after, h3]
    have hsl : (clk_after cc k l c).sleep = none := by rcases h1 with h1 | h1 <;> simp only [clk_after, h1]
    have hpc : (clk_after cc k l c).client.in_pc = .purge ∨ (clk_after cc k l c).client.in_pc = .exited := h1
    have hbz : (clk_after cc k l c).client.in_pc.busy = 0 := by rcases hpc with h | h <;> rw [h] <;> rfl
    refine ⟨?_, fun _ => hsl, ?_, ?_, ?_, hi.arrle, ?_, ?_⟩
    · intro f id rm h; rcases hpc with h' | h' <;> rw [h'] at h <;> cases h
    · rw [hbz, hfin]
      have := hi.count
      show k.fin.length + 0 + k.air.length ≤ k.arr.length
      omega
    · intro a b; rcases hpc with h | h
      · exact absurd h a
      · exact absurd h b
    · rintro (⟨f, h | h⟩ | ⟨h, _⟩) <;> rcases hpc with h' | h' <;> rw [h'] at h <;> cases h
    · rw [hfin]; exact hi.finle
    · rw [hfin]; exact hi.line
  | got b f h1 => exact absurd h1 (hl b)
  | bad b h1 => exact absurd h1 (hl b)
  | handled f h1 h2 h3 =>
    subst h1
    have he := hi.exact (by rw [h2]; simp) (by rw [h2]; simp)
    rw [h2] at he
    refine inv_deal (w := false) hi rfl rfl (by simp only [clk_after, h3, deals]) h3 (by simp only [clk_after, h3]) ?_ ?_
    · show k.fin.length + 1 + k.air.length = _
      exact he
    · simpa using hi.ready (.inl ⟨f, .inl h2⟩)
  | unhandled f h1 h2 h3 =>
    subst h1
    have hpc : (clk_after cc k .in_lookup c).client.in_pc = .wake f := h3
    have hfin : (clk_after cc k .in_lookup c).fin = k.fin := by simp only [clk_after, h3, deals]
    have hbase : (clk_after cc k .in_lookup c).base = k.base := by unfold Clk.base; rw [hfin]; rfl
    refine ⟨?_, ?_, ?_, ?_, ?_, hi.arrle, ?_, ?_⟩
    · intro f id rm h; rw [hpc] at h; cases h
    · intro _; simp only [clk_after, h3]
    · rw [hpc, hfin]; have := hi.count; rw [h2] at this; exact this
    · intro _ _; rw [hpc, hfin]; have := hi.exact (by rw [h2]; simp) (by rw [h2]; simp); rw [h2] at this; exact this
    · intro _; rw [hbase]; exact hi.ready (.inl ⟨f, .inl h2⟩)
    · rw [hfin]; exact hi.finle
    · rw [hfin]; exact hi.line
  | noroom f id rm h1 h2 h3 =>
    subst h1
    have hpc : (clk_after cc k .in_lookup c).client.in_pc = .full f id rm := h3
    have hfin : (clk_after cc k .in_lookup c).fin = k.fin := by simp only [clk_after, h3, deals]
    have hbase : (clk_after cc k .in_lookup c).base = k.base := by unfold Clk.base; rw [hfin]; rfl
    have hs : k.sleep = none := hi.nowait (by rw [h2]; simp)
    have hr := hi.ready (.inl ⟨f, .inl h2⟩)
    refine ⟨?_, ?_, ?_, ?_, ?_, hi.arrle, ?_, ?_⟩
    · intro _ _ _ _
      refine ⟨k.now + cc.timeout, by simp only [clk_after, h3, hs, Option.getD_none], ?_, ?_, ?_⟩
      · show k.now ≤ _; omega
      · show _ ≤ k.now + _; omega
      · rw [hbase]; omega
    · intro h; exact absurd hpc (h f id rm)
    · rw [hpc, hfin]; have := hi.count; rw [h2] at this; exact this
    · intro _ _; rw [hpc, hfin]; have := hi.exact (by rw [h2]; simp) (by rw [h2]; simp); rw [h2] at this; exact this
    · intro _; rw [hbase]; exact hr
    · rw [hfin]; exact hi.finle
    · rw [hfin]; exact hi.line
  | waited f id rm h1 h2 h3 =>
    have he := hi.exact (by rw [h2]; simp) (by rw [h2]; simp)
    rw [h2] at he
    obtain ⟨u, _, hu1, _, hu2⟩ := hi.wait f id rm h2
    refine inv_deal (w := true) hi rfl rfl (by rcases h1 with rfl | rfl <;> simp only [clk_after, deals]) h3
      (by simp only [clk_after, h3]) ?_ ?_
    · show k.fin.length + 1 + k.air.length = _
      exact he
    · simp only [if_true]; omega
  | woken f w h1 h2 h3 =>
    subst h1
    have he := hi.exact (by rw [h2]; simp) (by rw [h2]; simp)
    rw [h2] at he
    refine inv_deal (w := false) hi rfl rfl (by simp only [clk_after, deals]) h3 (by simp only [clk_after, h3]) ?_ ?_
    · show k.fin.length + 1 + k.air.length = _
      exact he
    · simpa using hi.ready (.inl ⟨f, .inr h2⟩)

/-- Receiving a message keeps the invariant. -/
theorem inv_recv {cc : ClkCfg} {k : Clk} {b : Bytes} {rest : List Bytes} {c : Client} (hi : ClkInv cc k) (ha : k.air = b :: rest)
    (hm : PcMove k.client c (.in_recv (some b))) : ClkInv cc (clk_after cc { k with air := rest } (.in_recv (some b)) c) := by
  cases hm with
  | stay _ h => exact absurd rfl (h b)
  | over _ _ h => exact absurd rfl (h b)
  | got b' f h1 h2 h3 =>
    have hb := hi.ready (.inr ⟨h2, by rw [ha]; simp⟩)
    have he := hi.exact (by rw [h2]; simp) (by rw [h2]; simp)
    rw [h2, ha] at he
    have hpc : (clk_after cc { k with air := rest } (.in_recv (some b)) c).client.in_pc = .lookup f := h3
    have hfin : (clk_after cc { k with air := rest } (.in_recv (some b)) c).fin = k.fin := by simp only [clk_after, h3, deals]
    have hbase : (clk_after cc { k with air := rest } (.in_recv (some b)) c).base = k.base := by unfold Clk.base; rw [hfin]; rfl
    have hcnt : k.fin.length + 1 + rest.length = k.arr.length := by
      simp only [InPc.busy, List.length_cons] at he; omega
    refine ⟨?_, ?_, ?_, ?_, ?_, hi.arrle, ?_, ?_⟩
    · intro f id rm h; rw [hpc] at h; cases h
    · intro _; simp only [clk_after, h3]
    · rw [hpc, hfin]; exact Nat.le_of_eq hcnt
    · intro _ _; rw [hpc, hfin]; exact hcnt
    · intro _; rw [hbase]; exact hb
    · rw [hfin]; exact hi.finle
    · rw [hfin]; exact hi.line
  | bad b' h1 h2 h3 =>
    have hb := hi.ready (.inr ⟨h2, by rw [ha]; simp⟩)
    have he := hi.exact (by rw [h2]; simp) (by rw [h2]; simp)
    rw [h2, ha] at he
    refine inv_deal (w := false) hi rfl rfl (by simp only [clk_after, h3, deals]) h3 (by simp only [clk_after, h3]) ?_ ?_
    · show k.fin.length + 1 + rest.length = _
      simp only [InPc.busy, List.length_cons] at he; omega
    · simpa using hb
  | handled _ h => cases h
  | unhandled _ h => cases h
  | noroom _ _ _ h => cases h
  | waited _ _ _ h => rcases h with h | h <;> cases h
  | woken _ _ h => cases h

/-- A step of the worker or anyone else, seen from the client. -/
theorem clk_client {cc : ClkCfg} {k k' : Clk} {l : Label} (h : clk_step cc k (.client l) = some k') :
    (∃ b rest c, l = .in_recv (some b) ∧ k.air = b :: rest ∧ step cc.client k.client l = some c ∧
      k' = clk_after cc { k with air := rest } l c) ∨
    ((∀ b, l ≠ .in_recv (some b)) ∧ ∃ c, step cc.client k.client l = some c ∧ k' = clk_after cc k l c ∧
      (l = .in_full_timeout → ∃ u, k.sleep = some u ∧ u ≤ k.now)) := by
  unfold clk_step at h
  split at h
  · rename_i e; cases e
  · rename_i e; cases e
  · rename_i b e
    cases e
    split at h
    · cases h
    · rename_i b' rest ha
      split at h
      · rename_i hb
        subst hb
        obtain ⟨c, hc, hk⟩ := Option.map_eq_some_iff.mp h
        exact .inl ⟨b', rest, c, rfl, ha, hc, hk.symm⟩
      · cases h
  · rename_i e
    cases e
    split at h
    · rename_i u hu
      split at h
      · rename_i hle
        obtain ⟨c, hc, hk⟩ := Option.map_eq_some_iff.mp h
        exact .inr ⟨by simp, c, hc, hk.symm, fun _ => ⟨u, hu, hle⟩⟩
      · cases h
    · cases h
  · rename_i l' h1 h2 e
    cases e
    obtain ⟨c, hc, hk⟩ := Option.map_eq_some_iff.mp h
    exact .inr ⟨fun b e => h1 b e, c, hc, hk.symm, fun e => absurd e h2⟩

/-- A client at work at which nothing is possible and that is not over waits for a message or for room. -/
theorem rests_pc {cc : ClkCfg} {k : Clk} (hr : Rests cc k) :
    k.client.in_pc = .exited ∨ (k.client.stopped = false ∧ k.client.in_polled = true ∧
      ((k.client.in_pc = .recv ∧ k.air = []) ∨
        ∃ f id rm, k.client.in_pc = .full f id rm ∧ (∀ u, k.sleep = some u → k.now < u) ∧
          (try_send k.client.subs id f).1 = .Full)) := by
  by_cases he : k.client.in_pc = .exited
  · exact .inl he
  have hst : k.client.stopped = false := by
    cases h : k.client.stopped with
    | false => rfl
    | true => exact absurd (hr.ended h) he
  have hpu : k.client.in_pc ≠ .purge := by
    intro h
    have := hr.none_possible _ .purge
    simp [clk_step, step, h] at this
  have hpo : k.client.in_polled = true := by
    cases h : k.client.in_polled with
    | true => rfl
    | false =>
      have := hr.none_possible _ .poll
      simp [clk_step, step, in_poll, he, hpu, h, hst] at this
  refine .inr ⟨hst, hpo, ?_⟩
  cases hpc : k.client.in_pc with
  | exited => exact absurd hpc he
  | purge => exact absurd hpc hpu
  | recv =>
    refine .inl ⟨rfl, ?_⟩
    cases ha : k.air with
    | nil => rfl
    | cons b rest =>
      have := hr.none_possible _ (.recv b)
      simp only [clk_step, ha, if_true, step, in_recv, hpc, hpo, and_self, Option.map_eq_none_iff] at this
      have hnp : VarHeader.take_from_slice b ≠ .panic := by
        rcases take_cases b with h | ⟨_, _, h⟩ <;> rw [h] <;> simp
      split at this
      · rename_i hp; exact absurd hp hnp
      · cases this
      · cases this
  | lookup f =>
    have := hr.none_possible _ .lookup
    simp only [clk_step, step, in_lookup, hpc, hpo, Option.map_eq_none_iff] at this
    split at this <;> cases this
  | wake f =>
    exfalso
    by_cases hm : k.client.map.any fun x => x.2.eq f.header
    · obtain ⟨x, hx, hx2⟩ := List.any_eq_true.mp hm
      have := hr.none_possible _ (.wake (some x.1))
      simp only [clk_step, step, in_wake, hpc, hpo, Option.map_eq_none_iff] at this
      rw [if_pos (List.any_eq_true.mpr ⟨x, hx, by simp [hx2]⟩)] at this
      cases this
    · have := hr.none_possible _ (.wake none)
      simp only [clk_step, step, in_wake, hpc, hpo, Option.map_eq_none_iff] at this
      rw [if_neg hm] at this
      cases this
  | full f id rm =>
    refine .inr ⟨f, id, rm, rfl, ?_, ?_⟩
    · intro u hu
      have := hr.none_possible _ .full_timeout
      simp only [clk_step, hu, step, in_full_timeout, hpc, hpo, Option.map_some] at this
      split at this
      · cases this
      · omega
    · have := hr.none_possible _ .full_send
      simp only [clk_step, step, in_full_send, hpc, hpo, Option.map_eq_none_iff] at this
      split at this
      · cases this
      · rename_i h; rw [h]
      · cases this

theorem inv_tick {cc : ClkCfg} {k : Clk} (hi : ClkInv cc k) (hr : Rests cc k) : ClkInv cc { k with now := k.now + 1 } := by
  refine ⟨?_, hi.nowait, hi.count, hi.exact, ?_, fun i a h => Nat.le_succ_of_le (hi.arrle i a h),
    fun i p h => Nat.le_succ_of_le (hi.finle i p h), hi.line⟩
  · intro f id rm h
    obtain ⟨u, h1, h2, h3, h4⟩ := hi.wait f id rm h
    rcases rests_pc hr with h' | ⟨_, _, ⟨h', _⟩ | ⟨f', id', rm', h', h5, _⟩⟩
    · exact absurd h (by simp [h'])
    · exact absurd h (by simp [h'])
    · exact ⟨u, h1, h5 u h1, by show u ≤ k.now + 1 + _; omega, h4⟩
  · intro h
    rcases rests_pc hr with h' | ⟨_, _, ⟨h', ha⟩ | ⟨f', id', rm', h', h5, _⟩⟩
    · simp [h'] at h
    · simp [h', ha] at h
    · simp [h'] at h

theorem inv_arrive {cc : ClkCfg} {k : Clk} (b : Bytes) (hi : ClkInv cc k) :
    ClkInv cc { k with air := k.air ++ [b], arr := k.arr ++ [k.now] } := by
  have hmono : k.base ≤ Clk.base { k with air := k.air ++ [b], arr := k.arr ++ [k.now] } := by
    unfold Clk.base
    rcases Nat.lt_or_ge k.fin.length k.arr.length with h | h
    · show _ ≤ max ((k.arr ++ [k.now])[k.fin.length]?.getD 0) _
      rw [List.getElem?_append_left h]
      exact Nat.le_refl _
    · rw [List.getElem?_eq_none h]
      simp only [Option.getD_none]
      omega
  refine ⟨?_, hi.nowait, ?_, ?_, ?_, ?_, hi.finle, ?_⟩
  · intro f id rm h
    obtain ⟨u, h1, h2, h3, h4⟩ := hi.wait f id rm h
    exact ⟨u, h1, h2, h3, by omega⟩
  · have := hi.count; simp only [List.length_append, List.length_singleton]; omega
  · intro a b; have := hi.exact a b; simp only [List.length_append, List.length_singleton]; omega
  · intro h
    by_cases ha : k.client.in_pc = .recv ∧ k.air = []
    · have := hi.exact (by rw [ha.1]; simp) (by rw [ha.1]; simp)
      rw [ha.1, ha.2] at this
      simp only [InPc.busy, List.length_nil] at this
      unfold Clk.base
      show k.now ≤ max ((k.arr ++ [k.now])[k.fin.length]?.getD 0) _
      rw [show k.fin.length = k.arr.length from by omega]
      simp only [List.getElem?_concat_length, Option.getD_some]
      exact Nat.le_max_left _ _
    · refine Nat.le_trans (hi.ready ?_) hmono
      rcases h with h | ⟨h, _⟩
      · exact .inl h
      · exact .inr ⟨h, fun e => ha ⟨h, e⟩⟩
  · intro i a h
    rcases Nat.lt_or_ge i k.arr.length with hl | hl
    · exact hi.arrle i a (by simpa only [List.getElem?_append_left hl] using h)
    · have h' : (k.arr ++ [k.now])[i]? = some a := h
      rw [List.getElem?_append_right hl] at h'
      cases hh : i - k.arr.length with
      | zero => rw [hh] at h'; simp at h'; exact Nat.le_of_eq h'.symm
      | succ n => rw [hh] at h'; simp at h'
  · intro i d w h
    obtain ⟨a, h1, h2⟩ := hi.line i d w h
    exact ⟨a, by rw [List.getElem?_append_left (List.getElem?_eq_some_iff.mp h1).1]; exact h1, h2⟩

theorem inv_step {cc : ClkCfg} {k k' : Clk} {l : ClkLabel} (hi : ClkInv cc k) (ht : l = .tick → Rests cc k)
    (h : clk_step cc k l = some k') : ClkInv cc k' := by
  cases l with
  | tick => cases h; exact inv_tick hi (ht rfl)
  | arrive b => cases h; exact inv_arrive b hi
  | client l =>
    rcases clk_client h with ⟨b, rest, c, rfl, ha, hs, rfl⟩ | ⟨h1, c, hs, rfl, _⟩
    · exact inv_recv hi ha (pc_move hs)
    · exact inv_client hi h1 (pc_move hs)

theorem inv_new (cc : ClkCfg) : ClkInv cc Clk.new := by
  refine ⟨?_, fun _ => rfl, Nat.le_refl _, fun _ _ => rfl, ?_, ?_, ?_, ?_⟩
  · intro f id rm h; cases h
  · intro _; exact Nat.zero_le _
  · intro i a h; simp [Clk.new] at h
  · intro i a h; simp [Clk.new] at h
  · intro i d w h; simp [Clk.new] at h

theorem inv_run {cc : ClkCfg} : ∀ (ls : List ClkLabel) {k k' : Clk}, ClkInv cc k → InTime cc ls k → clk_run cc ls k = some k' →
    ClkInv cc k'
  | [], _, _, hi, _, h => by cases h; exact hi
  | l :: ls, k, k', hi, ht, h => by
    unfold clk_run at h
    split at h
    · rename_i k1 h1
      exact inv_run ls (inv_step hi ht.1 h1) (ht.2 k1 h1) h
    · cases h

theorem sorted_step {cc : ClkCfg} {k k' : Clk} {l : ClkLabel} (hi : ClkInv cc k) (hs : k.arr.Pairwise (· ≤ ·))
    (h : clk_step cc k l = some k') : k'.arr.Pairwise (· ≤ ·) := by
  cases l with
  | tick => cases h; exact hs
  | arrive b =>
    cases h
    refine List.pairwise_append.mpr ⟨hs, List.pairwise_singleton _ _, fun a ha c hc => ?_⟩
    obtain ⟨i, hi'⟩ := List.getElem?_of_mem ha
    rw [List.mem_singleton.mp hc]
    exact hi.arrle i a hi'
  | client l =>
    rcases clk_client h with ⟨b, rest, c, rfl, ha, _, rfl⟩ | ⟨h1, c, _, rfl, _⟩
    · exact hs
    · exact hs

theorem sorted_run {cc : ClkCfg} : ∀ (ls : List ClkLabel) {k k' : Clk}, ClkInv cc k → k.arr.Pairwise (· ≤ ·) → InTime cc ls k →
    clk_run cc ls k = some k' → k'.arr.Pairwise (· ≤ ·)
  | [], _, _, _, hs, _, h => by cases h; exact hs
  | l :: ls, k, k', hi, hs, ht, h => by
    unfold clk_run at h
    split at h
    · rename_i k1 h1
      exact sorted_run ls (inv_step hi ht.1 h1) (sorted_step hi hs h1) (ht.2 k1 h1) h
    · cases h

theorem waited_succ {fin : List (Nat × Bool)} {m n d : Nat} {w : Bool} (h : m ≤ n + 1) (hf : fin[n + 1]? = some (d, w)) :
    waited fin m (n + 1) = waited fin m n + if w then 1 else 0 := by
  unfold waited
  have hl := (List.getElem?_eq_some_iff.mp hf).1
  have e : fin.take (n + 1 + 1) = fin.take (n + 1) ++ [(d, w)] := by
    rw [List.take_succ_eq_append_getElem hl]
    congr 2
    have := List.getElem?_eq_getElem hl
    rw [hf] at this
    exact (Option.some.inj this).symm
  rw [e, List.drop_append_of_le_length (by rw [List.length_take]; omega), List.countP_append]
  cases w <;> simp

theorem waited_self {fin : List (Nat × Bool)} {n d : Nat} {w : Bool} (hf : fin[n]? = some (d, w)) :
    waited fin n n = if w then 1 else 0 := by
  unfold waited
  have hl := (List.getElem?_eq_some_iff.mp hf).1
  have e : fin.take (n + 1) = fin.take n ++ [(d, w)] := by
    rw [List.take_succ_eq_append_getElem hl]
    congr 2
    have := List.getElem?_eq_getElem hl
    rw [hf] at this
    exact (Option.some.inj this).symm
  rw [e, List.drop_append_of_le_length (by rw [List.length_take]; omega)]
  have : (fin.take n).drop n = [] := List.drop_eq_nil_of_le (by rw [List.length_take]; omega)
  rw [this]
  cases w <;> simp

/-- The delays add up. -/
theorem queue_bound {cc : ClkCfg} {k : Clk} (hi : ClkInv cc k) (hs : k.arr.Pairwise (· ≤ ·)) {m : Nat} {t : Nat}
    (hm : finishedBefore k.fin m ≤ t) :
    ∀ n, m ≤ n → ∀ d w a, k.fin[n]? = some (d, w) → k.arr[n]? = some a → a ≤ t → d ≤ t + waited k.fin m n * cc.timeout := by
  intro n hmn
  induction hmn with
  | refl =>
    intro d w a hd ha hat
    obtain ⟨a', ha', _, _, h⟩ := hi.line m d w hd
    rw [ha] at ha'; cases ha'
    rw [waited_self hd]
    cases w <;> simp at h ⊢ <;> omega
  | step hmn ih =>
    rename_i n
    have hmn : m ≤ n := hmn
    intro d w a hd ha hat
    obtain ⟨a', ha', _, _, h⟩ := hi.line (n + 1) d w hd
    rw [ha] at ha'; cases ha'
    have hl := (List.getElem?_eq_some_iff.mp hd).1
    have hl2 := (List.getElem?_eq_some_iff.mp ha).1
    have hfn : k.fin[n]? = some k.fin[n] := List.getElem?_eq_getElem (by omega)
    have han : k.arr[n]? = some k.arr[n] := List.getElem?_eq_getElem (by omega)
    have hle : k.arr[n] ≤ a := by
      have := (List.pairwise_iff_getElem.mp hs) n (n + 1) (by omega) hl2 (by omega)
      rw [List.getElem?_eq_getElem hl2] at ha
      rw [← Option.some.inj ha]
      exact this
    have hprev := ih k.fin[n].1 k.fin[n].2 _ hfn han (by omega)
    rw [waited_succ (by omega) hd, Nat.add_mul]
    have hb : finishedBefore k.fin (n + 1) = k.fin[n].1 := by simp [finishedBefore, hfn]
    rw [hb] at h
    cases w <;> simp at h ⊢ <;> omega

/-- A lookup that has to wait found no room. -/
theorem full_noRoom {zero : Bool} {s s' : Subs} {f : RpcFrame} {id : Nat} {rm : Bool}
    (h : subs_lookup zero s f = (.full id rm, s')) : zero = false ∧ NoRoom s f := by
  unfold subs_lookup at h
  simp only at h
  have key : ∀ (s1 : Subs) (rm1 : Bool) (hd : Bool), s1.exclusive_list = s.exclusive_list → s1.chans = s.chans →
      (match s1.exclusive_list.find? fun e => key_match e.1 f.header.key with
        | some (_, id) =>
          match try_send s1 id f with
          | (.Ok, s) => (Lookup.done true, retain_subs s f.header.key false rm1)
          | (.Full, s) =>
            if zero then (.done true, retain_subs (note_dropped s id) f.header.key false rm1)
            else (.full id rm1, s)
          | (.Closed, s) => (.done true, retain_subs s f.header.key true rm1)
        | none => (.done hd, retain_subs s1 f.header.key false rm1)) = (.full id rm, s') → zero = false ∧ NoRoom s f := by
    intro s1 rm1 hd he hc h
    split at h
    · rename_i key id' hf
      have h1 := List.mem_of_find?_eq_some hf
      have h2 := List.find?_some hf
      split at h
      · cases h
      · rename_i s2 ht
        split at h
        · cases h
        · rename_i hz
          refine ⟨by simpa using hz, ?_⟩
          unfold try_send at ht
          split at ht
          · cases ht
          · rename_i c hcc
            split at ht
            · cases ht
            · rename_i hal
              split at ht
              · rename_i hcap
                exact ⟨key, id', c, he ▸ h1, h2, hc ▸ hcc, by simpa using hal, hcap⟩
              · cases ht
      · cases h
    · cases h
  refine key _ _ _ ?_ ?_ h
  · split
    · simp only [bcast_send]; split <;> rfl
    · rfl
  · split
    · simp only [bcast_send]; split <;> rfl
    · rfl

theorem _root_.PRpc.Spec.WorkerRun.trans {cc : ClkCfg} {a b c : Clk} (h : WorkerRun cc a b) (h2 : WorkerRun cc b c) : WorkerRun cc a c := by
  induction h with
  | refl => exact h2
  | head h1 h3 _ ih => exact .head h1 h3 (ih h2)

theorem _root_.PRpc.Spec.WorkerRun.one {cc : ClkCfg} {a b : Clk} {l : Label} (hl : WorkerStep l ∨ l = .in_yield)
    (h : clk_step cc a (.client l) = some b) : WorkerRun cc a b := .head hl h (.refl _)

theorem rests_exited {cc : ClkCfg} {k : Clk} (h : k.client.in_pc = .exited) : Rests cc k := by
  refine ⟨?_, fun _ => h⟩
  intro l hl
  cases hl with
  | recv b =>
    simp only [clk_step]
    split
    · rfl
    · split
      · simp [step, in_recv, h]
      · rfl
  | full_timeout =>
    simp only [clk_step]
    split
    · split
      · simp [step, in_full_timeout, h]
      · rfl
    · rfl
  | poll => simp [clk_step, step, in_poll, h]
  | lookup => simp [clk_step, step, in_lookup, h]
  | full_send => simp [clk_step, step, in_full_send, h]
  | wake w => simp [clk_step, step, in_wake, h]
  | purge => simp [clk_step, step, h]

/-- A worker that waits for a message rests. -/
theorem rests_recv {cc : ClkCfg} {k : Clk} (h : k.client.in_pc = .recv) (ha : k.air = []) (hst : k.client.stopped = false)
    (hpo : k.client.in_polled = true) : Rests cc k := by
  refine ⟨?_, fun e => by rw [hst] at e; cases e⟩
  intro l hl
  cases hl with
  | recv b => simp only [clk_step, ha]
  | full_timeout =>
    simp only [clk_step]
    split
    · split
      · simp [step, in_full_timeout, h]
      · rfl
    · rfl
  | poll => simp [clk_step, step, in_poll, hpo]
  | lookup => simp [clk_step, step, in_lookup, h]
  | full_send => simp [clk_step, step, in_full_send, h]
  | wake w => simp [clk_step, step, in_wake, h]
  | purge => simp [clk_step, step, h]

/-- A worker that waits for room rests. -/
theorem rests_full {cc : ClkCfg} {k : Clk} {f : RpcFrame} {id : Nat} {rm : Bool} {u : Nat} (h : k.client.in_pc = .full f id rm)
    (hst : k.client.stopped = false) (hpo : k.client.in_polled = true) (hu : k.sleep = some u) (hlt : k.now < u)
    (hf : (try_send k.client.subs id f).1 = .Full) : Rests cc k := by
  refine ⟨?_, fun e => by rw [hst] at e; cases e⟩
  intro l hl
  cases hl with
  | recv b =>
    simp only [clk_step]
    split
    · rfl
    · split
      · simp [step, in_recv, h]
      · rfl
  | full_timeout =>
    simp only [clk_step, hu]
    rw [if_neg (by omega)]
  | poll => simp [clk_step, step, in_poll, hpo]
  | lookup => simp [clk_step, step, in_lookup, h]
  | full_send =>
    simp only [clk_step, step, in_full_send, h, hpo, Option.map_eq_none_iff]
    split
    · rename_i e; rw [e] at hf; cases hf
    · rfl
    · rename_i e; rw [e] at hf; cases hf
  | wake w => simp [clk_step, step, in_wake, h]
  | purge => simp [clk_step, step, h]

/-- A stopped worker ends. -/
theorem stopped_rests {cc : ClkCfg} {k : Clk} (hs : k.client.stopped = true) : ∃ k', WorkerRun cc k k' ∧ Rests cc k' := by
  by_cases he : k.client.in_pc = .exited
  · exact ⟨k, .refl _, rests_exited he⟩
  have purge : ∀ k : Clk, k.client.in_pc = .purge → ∃ k', WorkerRun cc k k' ∧ Rests cc k' := by
    intro k h
    have e : clk_step cc k (.client .in_purge) = some (clk_after cc k .in_purge { k.client with in_pc := .exited, subs := subs_purge k.client.subs }) := by
      simp [clk_step, step, h]
    exact ⟨_, .one (.inl .purge) e, rests_exited rfl⟩
  by_cases hp : k.client.in_pc = .purge
  · exact purge k hp
  have unpolled : ∀ k : Clk, k.client.in_pc ≠ .purge → k.client.in_pc ≠ .exited → k.client.stopped = true → k.client.in_polled = false →
      ∃ k', WorkerRun cc k k' ∧ Rests cc k' := by
    intro k h1 h2 h3 h4
    have e : clk_step cc k (.client .in_poll) = some (clk_after cc k .in_poll { k.client with in_pc := .purge }) := by
      simp [clk_step, step, in_poll, h1, h2, h3, h4]
    obtain ⟨k', hk, hr⟩ := purge (clk_after cc k .in_poll { k.client with in_pc := .purge }) rfl
    exact ⟨k', .head (.inl .poll) e hk, hr⟩
  cases hpo : k.client.in_polled with
  | false => exact unpolled k hp he hs hpo
  | true =>
    have e : clk_step cc k (.client .in_yield) = some (clk_after cc k .in_yield { k.client with in_polled := false }) := by
      simp [clk_step, step, hpo]
    obtain ⟨k', hk, hr⟩ := unpolled (clk_after cc k .in_yield { k.client with in_polled := false }) hp he hs rfl
    exact ⟨k', .head (.inr rfl) e hk, hr⟩

/-- How much the worker has left to do. -/
def Clk.todo (k : Clk) : Nat :=
  4 * k.air.length + match k.client.in_pc with
    | .lookup _ => 3
    | .wake _ => 2
    | .full _ _ _ => 1
    | _ => 0

theorem lookup_sub {cc : ClkCfg} {k : Clk} {f : RpcFrame} (hpc : k.client.in_pc = .lookup f) (hpo : k.client.in_polled = true) :
    ∃ c, step cc.client k.client .in_lookup = some c ∧ c.in_polled = true ∧ c.stopped = k.client.stopped ∧
      (c.in_pc = .recv ∨ c.in_pc = .wake f ∨ ∃ id rm, c.in_pc = .full f id rm) := by
  simp only [step, in_lookup, hpc, hpo]
  split
  · rename_i hd subs _
    refine ⟨_, rfl, rfl, rfl, ?_⟩
    cases hd
    · exact .inr (.inl rfl)
    · exact .inl rfl
  · exact ⟨_, rfl, rfl, rfl, .inr (.inr ⟨_, _, rfl⟩)⟩

/-- A worker that runs gets to a point where it has nothing to do. -/
theorem polled_rests {cc : ClkCfg} : ∀ (n : Nat) (k : Clk), k.todo ≤ n → k.client.stopped = false → k.client.in_polled = true →
    ClkInv cc k → k.client.in_pc ≠ .purge → k.client.in_pc ≠ .exited → ∃ k', WorkerRun cc k k' ∧ Rests cc k' := by
  intro n
  induction n with
  | zero =>
    intro k hn hst hpo hi hp he
    have hrec : k.client.in_pc = .recv ∧ k.air = [] := by
      unfold Clk.todo at hn
      cases hpc : k.client.in_pc <;> rw [hpc] at hn <;> simp at hn
      · exact ⟨rfl, List.length_eq_zero_iff.mp (by omega)⟩
      · exact absurd hpc hp
      · exact absurd hpc he
    exact ⟨k, .refl _, rests_recv hrec.1 hrec.2 hst hpo⟩
  | succ n ih =>
    intro k hn hst hpo hi hp he
    have go : ∀ {l k'}, WorkerStep l → clk_step cc k (.client l) = some k' → k'.todo < k.todo → k'.client.stopped = false →
        k'.client.in_polled = true → k'.client.in_pc ≠ .purge → k'.client.in_pc ≠ .exited →
        ∃ k'', WorkerRun cc k k'' ∧ Rests cc k'' := by
      intro l k' hl h h1 h2 h3 h4 h5
      obtain ⟨k'', hk, hr⟩ := ih k' (by omega) h2 h3 (inv_step hi (by simp) h) h4 h5
      exact ⟨k'', .head (.inl hl) h hk, hr⟩
    cases hpc : k.client.in_pc with
    | purge => exact absurd hpc hp
    | exited => exact absurd hpc he
    | recv =>
      cases ha : k.air with
      | nil => exact ⟨k, .refl _, rests_recv hpc ha hst hpo⟩
      | cons b rest =>
        have e : clk_step cc k (.client (.in_recv (some b))) = (in_recv k.client (some b)).map
            (clk_after cc { k with air := rest } (.in_recv (some b))) := by
          simp only [clk_step, ha, if_true, step]
        have ht : k.todo = 4 * rest.length + 4 := by simp only [Clk.todo, ha, hpc, List.length_cons]; omega
        rcases take_cases b with h | ⟨hdr, body, h⟩
        · have e2 : in_recv k.client (some b) = some k.client := by simp [in_recv, hpc, hpo, h]
          rw [e2] at e
          refine go (.recv b) e ?_ hst hpo (by simp [clk_after, hpc]) (by simp [clk_after, hpc])
          rw [ht]; simp only [Clk.todo, clk_after, hpc]; omega
        · have e2 : in_recv k.client (some b) = some { k.client with in_pc := .lookup ⟨hdr, body⟩ } := by simp [in_recv, hpc, hpo, h]
          rw [e2] at e
          refine go (.recv b) e ?_ hst hpo (by simp [clk_after]) (by simp [clk_after])
          rw [ht]; simp only [Clk.todo, clk_after]; omega
    | lookup f =>
      obtain ⟨c, hc, h1, h2, h3⟩ := lookup_sub (cc := cc) hpc hpo
      have e : clk_step cc k (.client .in_lookup) = some (clk_after cc k .in_lookup c) := by simp only [clk_step, hc, Option.map_some]
      refine go .lookup e ?_ (h2.trans hst) h1 ?_ ?_
      · simp only [Clk.todo, clk_after, hpc]
        rcases h3 with h | h | ⟨_, _, h⟩ <;> rw [h] <;> simp
      · rcases h3 with h | h | ⟨_, _, h⟩ <;> simp [clk_after, h]
      · rcases h3 with h | h | ⟨_, _, h⟩ <;> simp [clk_after, h]
    | wake f =>
      by_cases hm : k.client.map.any fun x => x.2.eq f.header
      · obtain ⟨x, hx, hx2⟩ := List.any_eq_true.mp hm
        have e : clk_step cc k (.client (.in_wake (some x.1))) = some (clk_after cc k (.in_wake (some x.1))
            { k.client with
              map := k.client.map.filter fun y => y.1 != x.1
              woken := k.client.woken ++ [⟨x.1, f, k.client.seen.length⟩]
              seen := k.client.seen ++ [f]
              in_pc := .recv }) := by
          simp only [clk_step, step, in_wake, hpc, hpo]
          rw [if_pos (List.any_eq_true.mpr ⟨x, hx, by simp [hx2]⟩)]
          rfl
        exact go (.wake _) e (by simp [Clk.todo, clk_after, hpc]) hst hpo (by simp [clk_after]) (by simp [clk_after])
      · have e : clk_step cc k (.client (.in_wake none)) = some (clk_after cc k (.in_wake none)
            { k.client with seen := k.client.seen ++ [f], in_pc := .recv }) := by
          simp only [clk_step, step, in_wake, hpc, hpo]
          rw [if_neg hm]
          rfl
        exact go (.wake _) e (by simp [Clk.todo, clk_after, hpc]) hst hpo (by simp [clk_after]) (by simp [clk_after])
    | full f id rm =>
      obtain ⟨u, hu, _⟩ := hi.wait f id rm hpc
      by_cases hle : u ≤ k.now
      · have e : clk_step cc k (.client .in_full_timeout) = some (clk_after cc k .in_full_timeout
            (after_lookup { k.client with subs := retain_subs (note_dropped k.client.subs id) f.header.key false rm } f true)) := by
          simp only [clk_step, hu, if_pos hle, step, in_full_timeout, hpc, hpo, Option.map_some]
        exact go .full_timeout e (by simp [Clk.todo, clk_after, after_lookup, hpc]) hst hpo (by simp [clk_after, after_lookup])
          (by simp [clk_after, after_lookup])
      · have e : clk_step cc k (.client .in_full_send) = (in_full_send k.client).map (clk_after cc k .in_full_send) := by
          simp only [clk_step, step]
        cases ht : try_send k.client.subs id f with
        | mk r subs =>
          cases r with
          | Ok =>
            have e2 : in_full_send k.client = some (after_lookup { k.client with subs := retain_subs subs f.header.key false rm } f true) := by
              simp only [in_full_send, hpc, hpo, ht]
            rw [e2] at e
            exact go .full_send e (by simp [Clk.todo, clk_after, after_lookup, hpc]) hst hpo (by simp [clk_after, after_lookup])
              (by simp [clk_after, after_lookup])
          | Closed =>
            have e2 : in_full_send k.client = some (after_lookup { k.client with subs := retain_subs subs f.header.key true rm } f true) := by
              simp only [in_full_send, hpc, hpo, ht]
            rw [e2] at e
            exact go .full_send e (by simp [Clk.todo, clk_after, after_lookup, hpc]) hst hpo (by simp [clk_after, after_lookup])
              (by simp [clk_after, after_lookup])
          | Full =>
            exact ⟨k, .refl _, rests_full hpc hst hpo hu (by omega) (by rw [ht])⟩

/-- The worker always gets to rest. -/
theorem gets_to_rest {cc : ClkCfg} {k : Clk} (hi : ClkInv cc k) : ∃ k', WorkerRun cc k k' ∧ Rests cc k' := by
  by_cases he : k.client.in_pc = .exited
  · exact ⟨k, .refl _, rests_exited he⟩
  by_cases hp : k.client.in_pc = .purge
  · have e : clk_step cc k (.client .in_purge) = some (clk_after cc k .in_purge { k.client with in_pc := .exited, subs := subs_purge k.client.subs }) := by
      simp [clk_step, step, hp]
    exact ⟨_, .one (.inl .purge) e, rests_exited rfl⟩
  cases hst : k.client.stopped with
  | true => exact stopped_rests hst
  | false =>
    cases hpo : k.client.in_polled with
    | true => exact polled_rests _ k (Nat.le_refl _) hst hpo hi hp he
    | false =>
      have e : clk_step cc k (.client .in_poll) = some (clk_after cc k .in_poll { k.client with in_polled := true }) := by
        simp [clk_step, step, in_poll, hp, he, hst, hpo]
      obtain ⟨k', hk, hr⟩ := polled_rests _ _ (Nat.le_refl _) (by exact hst) rfl (inv_step hi (by simp) e) (by exact hp) (by exact he)
      exact ⟨k', .head (.inl .poll) e hk, hr⟩

theorem lock_full {c : Client} (h : c.lock_free = false) : ∃ f id rm, c.in_pc = .full f id rm := by
  unfold Client.lock_free at h
  split at h
  · rename_i f id rm e; exact ⟨f, id, rm, e⟩
  · cases h

/-- While the lock is held the same sleep goes on. -/
theorem sleep_step {cc : ClkCfg} {k k' : Clk} {l : ClkLabel} {u : Nat} (h : clk_step cc k l = some k')
    (hu : k.sleep = some u) (h2 : k'.client.lock_free = false) : k'.sleep = some u := by
  obtain ⟨f, id, rm, e⟩ := lock_full h2
  cases l with
  | tick => cases h; exact hu
  | arrive b => cases h; exact hu
  | client l =>
    rcases clk_client h with ⟨b, rest, c, rfl, ha, hs, rfl⟩ | ⟨h1, c, hs, rfl, _⟩
    · have e : c.in_pc = .full f id rm := e
      simp only [clk_after, e, hu, Option.getD_some]
    · have e : c.in_pc = .full f id rm := e
      simp only [clk_after, e, hu, Option.getD_some]

theorem holds_run {cc : ClkCfg} : ∀ (ls : List ClkLabel) {k k' : Clk} {u : Nat}, Holds cc ls k → k.sleep = some u →
    clk_run cc ls k = some k' → k'.sleep = some u ∧ k'.client.lock_free = false
  | [], _, _, _, hh, hu, h => by cases h; exact ⟨hu, hh⟩
  | l :: ls, k, k', u, hh, hu, h => by
    unfold clk_run at h
    split at h
    · rename_i k1 h1
      have h2 := hh.2 k1 h1
      have : k1.client.lock_free = false := by cases ls <;> first | exact h2 | exact h2.1
      exact holds_run ls h2 (sleep_step h1 hu this) h
    · cases h

theorem clk_run_append {cc : ClkCfg} : ∀ (a b : List ClkLabel) (k : Clk),
    clk_run cc (a ++ b) k = (clk_run cc a k).bind (clk_run cc b)
  | [], _, _ => rfl
  | l :: a, b, k => by
    show (match clk_step cc k l with | some k => clk_run cc (a ++ b) k | none => none) =
      (match clk_step cc k l with | some k => clk_run cc a k | none => none).bind (clk_run cc b)
    cases clk_step cc k l with
    | none => rfl
    | some k1 => exact clk_run_append a b k1

theorem inTime_append {cc : ClkCfg} : ∀ (a b : List ClkLabel) {k : Clk}, InTime cc a k →
    (∀ k', clk_run cc a k = some k' → InTime cc b k') → InTime cc (a ++ b) k
  | [], _, _, _, h => h _ rfl
  | l :: a, b, k, ha, h => by
    refine ⟨ha.1, fun k1 h1 => inTime_append a b (ha.2 k1 h1) fun k' hk => h k' ?_⟩
    unfold clk_run
    rw [h1]
    exact hk

theorem clk_step_stopped {cc : ClkCfg} {k k' : Clk} {l : ClkLabel} (h : clk_step cc k l = some k')
    (hs : k.client.stopped = true) : k'.client.stopped = true := by
  cases l with
  | tick => cases h; exact hs
  | arrive b => cases h; exact hs
  | client l =>
    rcases clk_client h with ⟨b, rest, c, rfl, ha, hc, rfl⟩ | ⟨h1, c, hc, rfl, _⟩
    · exact step_stopped hc hs
    · exact step_stopped hc hs

theorem clk_step_exited {cc : ClkCfg} {k k' : Clk} {l : ClkLabel} (h : clk_step cc k l = some k')
    (hs : k.client.in_pc = .exited) : k'.client.in_pc = .exited := by
  have key : ∀ {c l}, step cc.client k.client l = some c → PcMove k.client c l → c.in_pc = .exited := by
    intro c l hc hm
    cases hm with
    | stay h1 => rw [h1]; exact hs
    | over _ h1 => exact absurd hs h1
    | got b f _ h2 => rw [hs] at h2; cases h2
    | bad b _ h2 => rw [hs] at h2; cases h2
    | handled f _ h2 => rw [hs] at h2; cases h2
    | unhandled f _ h2 => rw [hs] at h2; cases h2
    | noroom f id rm _ h2 => rw [hs] at h2; cases h2
    | waited f id rm _ h2 => rw [hs] at h2; cases h2
    | woken f w _ h2 => rw [hs] at h2; cases h2
  cases l with
  | tick => cases h; exact hs
  | arrive b => cases h; exact hs
  | client l =>
    rcases clk_client h with ⟨b, rest, c, rfl, ha, hc, rfl⟩ | ⟨h1, c, hc, rfl, _⟩
    · exact key hc (pc_move hc)
    · exact key hc (pc_move hc)

theorem exited_run {cc : ClkCfg} : ∀ (ls : List ClkLabel) {k k' : Clk}, k.client.in_pc = .exited → clk_run cc ls k = some k' →
    k'.client.in_pc = .exited
  | [], _, _, hs, h => by cases h; exact hs
  | l :: ls, k, k', hs, h => by
    unfold clk_run at h
    split at h
    · rename_i k1 h1
      exact exited_run ls (clk_step_exited h1 hs) h
    · cases h

/-- A stopped worker has ended before time goes on. -/
theorem stopped_run {cc : ClkCfg} : ∀ (ls : List ClkLabel) {k k' : Clk}, k.client.stopped = true → InTime cc ls k →
    clk_run cc ls k = some k' → k.now < k'.now → k'.client.in_pc = .exited
  | [], _, _, _, _, h, hn => by cases h; exact absurd hn (Nat.lt_irrefl _)
  | l :: ls, k, k', hs, ht, h, hn => by
    unfold clk_run at h
    split at h
    · rename_i k1 h1
      by_cases hl : l = .tick
      · exact exited_run ls (clk_step_exited h1 ((ht.1 hl).ended hs)) h
      · refine stopped_run ls (clk_step_stopped h1 hs) (ht.2 k1 h1) h ?_
        have : k1.now = k.now := by
          cases l with
          | tick => exact absurd rfl hl
          | arrive b => cases h1; rfl
          | client l =>
            rcases clk_client h1 with ⟨b, rest, c, rfl, ha, hc, rfl⟩ | ⟨h1, c, hc, rfl, _⟩ <;> rfl
        omega
    · cases h

end PRpc
