import Verif.Lemmas.Held
import Verif.Lemmas.ClientRun
/-! C92: what a client holds is bounded by what its users hold. -/

namespace PRpc.Props

open Spec

/-- C92 (calls): the wait map holds at most two entries, registered or answered, for each call that has neither returned
nor been dropped; in particular none at all when there is no such call. -/
theorem c92_calls {cfg : Cfg} {s : Client} (hr : Reachable cfg s) : s.map.length + s.woken.length ≤ 2 * openCalls s :=
  waits_le hr

/-- C92 (frames): however many frames arrive, a client holds no more than its outgoing queue may, one per worker, two per
open call, and for each subscription not dropped yet the depth asked for (twice that for a multi-subscription). -/
theorem c92_frames {cfg : Cfg} {K : List Key} {d : Nat} {ls : List Label} {s : Client} (hK : Subscribed K d ls)
    (h : run cfg ls Client.new = some s) :
    framesHeld s ≤ cfg.outgoing_depth + 2 + 2 * openCalls s + d * liveExcl s + 2 * d * liveMulti s := by
  have hr : Reachable cfg s := ⟨ls, h⟩
  have hw := within_run ls _ _ (within_new K d) hK h
  have h1 : s.outq.length ≤ cfg.outgoing_depth :=
    run_induct (fun t => t.outq.length ≤ cfg.outgoing_depth) (fun a l b h1 h2 => step_outq h2 h1) ls _ _ (Nat.zero_le _) h
  have h2 := waits_le hr
  have h3 : (s.subs.chans.map (·.queue.length)).sum ≤ d * liveExcl s := by
    refine sum_le_filter _ _ d _ (fun c hc ha => ?_) (fun c hc => ?_)
    · obtain ⟨id, hid⟩ := List.getElem?_of_mem hc
      rw [(reachable_cinv hr).dead id c hid ha]; rfl
    · exact Nat.le_trans (reachable_qok hr c hc) (hw.made (c.cap, c.key) (List.mem_map.mpr ⟨c, hc, rfl⟩)).1
  have h4 : (s.subs.brxs.map (·.pending.length)).sum ≤ 2 * d * liveMulti s := by
    have bi := (reachable_bcinv hr).1
    refine sum_le_filter _ _ (2 * d) _ (fun c hc ha => ?_) (fun c hc => ?_)
    · rw [bi.dead c hc ha]; rfl
    · have hl := bi.rxLt c hc
      have hq := reachable_bqok hr c hc
      rw [List.getD_eq_getElem?_getD, List.getElem?_eq_getElem hl, Option.getD_some] at hq
      have := hw.bcap _ (List.getElem_mem hl)
      exact Nat.le_trans hq (Nat.le_of_lt this)
  have h5 : inSend s ≤ 1 := by unfold inSend; split <;> omega
  have h6 : inHand s ≤ 1 := by unfold inHand; split <;> omega
  unfold framesHeld
  omega

/-- C92 (one subscription): no exclusive subscription holds more messages than the depth it was made with, no
multi-subscription twice as many as the largest depth asked for, and a dropped one none. -/
theorem c92_queues {cfg : Cfg} {K : List Key} {d : Nat} {ls : List Label} {s : Client} (hK : Subscribed K d ls)
    (h : run cfg ls Client.new = some s) :
    (∀ c ∈ s.subs.chans, c.queue.length ≤ c.cap ∧ c.cap ≤ d ∧ (c.rx_alive = false → c.queue = [])) ∧
    ∀ r ∈ s.subs.brxs, r.pending.length < 2 * d ∧ (r.alive = false → r.pending = []) := by
  have hr : Reachable cfg s := ⟨ls, h⟩
  have hw := within_run ls _ _ (within_new K d) hK h
  refine ⟨fun c hc => ⟨reachable_qok hr c hc, (hw.made (c.cap, c.key) (List.mem_map.mpr ⟨c, hc, rfl⟩)).1, fun ha => ?_⟩,
    fun r hc => ⟨?_, (reachable_bcinv hr).1.dead r hc⟩⟩
  · obtain ⟨id, hid⟩ := List.getElem?_of_mem hc
    exact (reachable_cinv hr).dead id c hid ha
  · have hl := (reachable_bcinv hr).1.rxLt r hc
    have hq := reachable_bqok hr r hc
    rw [List.getD_eq_getElem?_getD, List.getElem?_eq_getElem hl, Option.getD_some] at hq
    exact Nat.lt_of_le_of_lt hq (hw.bcap _ (List.getElem_mem hl))

/-- C92 (tables): each of the two tables has at most one entry for each topic ever subscribed to, however often. -/
theorem c92_tables {cfg : Cfg} {K : List Key} {d : Nat} {ls : List Label} {s : Client} (hK : Subscribed K d ls)
    (h : run cfg ls Client.new = some s) :
    s.subs.exclusive_list.length ≤ K.length ∧ s.subs.broadcast_list.length ≤ K.length := by
  have hr : Reachable cfg s := ⟨ls, h⟩
  have hw := within_run ls _ _ (within_new K d) hK h
  constructor
  · have ei := reachable_einv hr
    have := length_le_of_nodup _ ei.nd K (fun k hk => by
      obtain ⟨⟨k', id⟩, hm, rfl⟩ := List.mem_map.mp hk
      obtain ⟨c, hc, hkey⟩ := ei.ent k' id hm
      exact hkey ▸ (hw.made (c.cap, c.key) (List.mem_map.mpr ⟨c, List.mem_of_getElem? hc, rfl⟩)).2)
    rwa [List.length_map] at this
  · obtain ⟨bi, bci⟩ := reachable_bcinv hr
    have := length_le_of_nodup _ bi.nd K (fun k hk => by
      obtain ⟨⟨k', b⟩, hm, rfl⟩ := List.mem_map.mp hk
      obtain ⟨r, hc, hkey⟩ := bci.own k' b hm
      exact hkey ▸ hw.joined r.key (List.mem_map.mpr ⟨r, hc, rfl⟩))
    rwa [List.length_map] at this

/-- C92 (what is not bounded): the tables are not cleaned when a subscription is dropped.  Whatever the topics, a client
can be left with an entry for each of them in both tables although no subscription, no call and no frame is left. -/
theorem c92_entries_stay (cfg : Cfg) {K : List Key} (hK : K.Nodup) : ∃ ls s, run cfg ls Client.new = some s ∧
    s.subs.exclusive_list.map Prod.fst = K ∧ s.subs.broadcast_list.map Prod.fst = K ∧ liveExcl s = 0 ∧ liveMulti s = 0 ∧
    openCalls s = 0 := by
  obtain ⟨s', r1, r2, r3, r4, r5, r6, _⟩ := churn_run cfg K 0 Client.new rfl rfl rfl rfl rfl rfl rfl
    (by simpa [Client.new, Subs.new] using hK) (by simpa [Client.new, Subs.new] using hK)
  exact ⟨_, s', r1, r2, r3, by rw [liveExcl, r4]; rfl, by rw [liveMulti, r5]; rfl, by rw [openCalls, r6]; rfl⟩

/-- C92 (cleaned by the next message): looking up a frame all of whose subscribers were dropped removes the entries of its
topic from both tables, and no other. -/
theorem c92_frame_frees {cfg : Cfg} {s : Client} (hr : Reachable cfg s) {f : RpcFrame} (hp : s.in_pc = .lookup f)
    (hpoll : s.in_polled = true) (hx : ∀ c ∈ s.subs.chans, OfTopic c.key f → c.rx_alive = false)
    (hb : ∀ r ∈ s.subs.brxs, OfTopic r.key f → r.alive = false) :
    ∃ s', step cfg s .in_lookup = some s' ∧
      s'.subs.exclusive_list = s.subs.exclusive_list.filter (fun e => !decide (OfTopic e.1 f)) ∧
      s'.subs.broadcast_list = s.subs.broadcast_list.filter (fun e => !decide (OfTopic e.1 f)) := by
  have ei := reachable_einv hr
  have bi := (reachable_bcinv hr).1
  have hm : ∀ e : Key × Nat, matchE f e = decide (OfTopic e.1 f) := fun e => match_topic e.1 f
  have none_filter : ∀ l : List (Key × Nat), l.find? (matchE f) = none → l.filter (fun e => !decide (OfTopic e.1 f)) = l := by
    intro l hl
    refine List.filter_eq_self.mpr (fun e he => ?_)
    have := List.find?_eq_none.mp hl e he
    rw [hm] at this
    simpa using this
  have hfil : (fun e : Key × Nat => !key_match e.1 f.header.key) = fun e => !decide (OfTopic e.1 f) := by
    funext e; rw [match_topic]
  -- the broadcast half
  have hB : ∃ h rm, lookupB { s.subs with arrived := s.subs.arrived ++ [f] } f = (h, rm, { s.subs with arrived := s.subs.arrived ++ [f] }) ∧
      (if rm then s.subs.broadcast_list.filter (fun e => !decide (OfTopic e.1 f)) else s.subs.broadcast_list) =
        s.subs.broadcast_list.filter (fun e => !decide (OfTopic e.1 f)) := by
    unfold lookupB
    split
    · rename_i k b e
      simp only at e
      have hkb := find_mem e
      have hdead : (s.subs.brxs.any fun r => r.alive && r.chan == b) = false := by
        rw [List.any_eq_false]
        intro r hr' ha
        simp only [Bool.and_eq_true, beq_iff_eq] at ha
        have hk := bi.key k b hkb.1 r hr' ha.2
        have := hb r hr' (by rw [hk]; have := hkb.2; rw [match_topic] at this; exact of_decide_eq_true this)
        rw [this] at ha; cases ha.1
      refine ⟨true, true, ?_, if_pos rfl⟩
      unfold bcast_send
      simp only [hdead, Bool.false_eq_true, if_false, Bool.not_false]
    · rename_i e
      exact ⟨false, false, rfl, (if_neg (by simp)).trans (none_filter _ e).symm⟩
  obtain ⟨h, rm, hB, hrm⟩ := hB
  have hE : ∃ d u, subs_lookup cfg.zero s.subs f = (.done d, u) ∧
      u.exclusive_list = s.subs.exclusive_list.filter (fun e => !decide (OfTopic e.1 f)) ∧
      u.broadcast_list = s.subs.broadcast_list.filter (fun e => !decide (OfTopic e.1 f)) := by
    rw [subs_lookup_eq, hB]
    unfold lookupE
    simp only
    split
    · rename_i k id e
      have hk := find_mem e
      obtain ⟨c, hc, hck⟩ := ei.ent k id hk.1
      have hdead : c.rx_alive = false := hx c (List.mem_of_getElem? hc)
        (by rw [hck]; have := hk.2; rw [match_topic] at this; exact of_decide_eq_true this)
      have hsend : try_send { s.subs with arrived := s.subs.arrived ++ [f] } id f =
          (.Closed, { s.subs with arrived := s.subs.arrived ++ [f] }) := by
        unfold try_send
        rw [show ({ s.subs with arrived := s.subs.arrived ++ [f] } : Subs).chans[id]? = some c from hc]
        simp only [hdead, Bool.not_false, if_true]
      rw [hsend]
      refine ⟨_, _, rfl, ?_, ?_⟩
      · rw [(retain_exc _ _ _ _).2.2, if_pos rfl, hfil]
      · rw [(retain_bc _ _ _ _).2.2.2, hfil]; exact hrm
    · rename_i e
      refine ⟨_, _, rfl, ?_, ?_⟩
      · rw [(retain_exc _ _ _ _).2.2, if_neg (by simp)]; exact (none_filter _ e).symm
      · rw [(retain_bc _ _ _ _).2.2.2, hfil]; exact hrm
  obtain ⟨d, u, e, h1, h2⟩ := hE
  refine ⟨after_lookup { s with subs := u } f d, ?_, h1, h2⟩
  show in_lookup cfg s = _
  unfold in_lookup
  rw [hp, hpoll]
  simp only [e]

/-- A client with two subscribers to a topic, one of each kind, that got three messages of depth two, and a call. -/
def exHolds : List Label :=
  [.sub_excl ⟨1, 0, 0, 0, 0, 0, 0, 0⟩ 2, .sub_multi ⟨1, 0, 0, 0, 0, 0, 0, 0⟩ 2, .call_begin ⟨2, 0, 0, 0, 0, 0, 0, 0⟩ ⟨3, 0, 0, 0, 0, 0, 0, 0⟩ [],
   .call_kind 0, .call_reg_ok 0, .call_reg_err 0, .call_send 0, .in_poll] ++
  (List.replicate 3 [.in_recv (some [0x00#8, 1, 0]), .in_lookup]).flatten

set_option synthInstance.maxSize 1000 in
/-- The bounds are met: the client holds the request, the two messages of each subscription, and (the receive worker
waiting for room) the third message, and has two waits for one call. -/
example : Subscribed [⟨1, 0, 0, 0, 0, 0, 0, 0⟩] 2 exHolds ∧ ∃ s, run ⟨.Seq4, ⟨9, 0, 0, 0, 0, 0, 0, 0⟩, 8, false⟩ exHolds Client.new = some s ∧
    framesHeld s = 6 ∧ s.map.length + s.woken.length = 2 ∧ openCalls s = 1 ∧ liveExcl s = 1 ∧ liveMulti s = 1 ∧
    s.subs.exclusive_list.length = 1 ∧ s.subs.broadcast_list.length = 1 := by
  refine ⟨?_, ?_⟩
  · intro l hl
    simp only [exHolds, List.replicate, List.flatten_cons, List.flatten_nil, List.append_nil, List.cons_append, List.nil_append, List.mem_cons,
      List.not_mem_nil, or_false] at hl
    rcases hl with rfl | rfl | rfl | rfl | rfl | rfl | rfl | rfl | rfl | rfl | rfl | rfl | rfl | rfl <;> simp
  · have h : (run ⟨.Seq4, ⟨9, 0, 0, 0, 0, 0, 0, 0⟩, 8, false⟩ exHolds Client.new).map (fun s => (framesHeld s, s.map.length + s.woken.length,
        openCalls s, liveExcl s, liveMulti s, s.subs.exclusive_list.length, s.subs.broadcast_list.length)) = some (6, 2, 1, 1, 1, 1, 1) := by
      decide +kernel
    obtain ⟨s, e1, e2⟩ := Option.map_eq_some_iff.mp h
    simp only [Prod.mk.injEq] at e2
    exact ⟨s, e1, e2⟩

set_option synthInstance.maxSize 1000 in
/-- Dropping both and getting one more message removes the two entries. -/
example : (run ⟨.Seq4, ⟨9, 0, 0, 0, 0, 0, 0, 0⟩, 8, false⟩ [.sub_excl ⟨1, 0, 0, 0, 0, 0, 0, 0⟩ 2, .sub_multi ⟨1, 0, 0, 0, 0, 0, 0, 0⟩ 2,
    .drop_excl 0, .drop_multi 0, .in_poll, .in_recv (some [0x00#8, 1, 0])] Client.new).map (fun s => (s.subs.exclusive_list.length,
      s.subs.broadcast_list.length, s.in_pc, s.in_polled, s.subs.chans.map (·.rx_alive), s.subs.brxs.map (·.alive),
      (step ⟨.Seq4, ⟨9, 0, 0, 0, 0, 0, 0, 0⟩, 8, false⟩ s .in_lookup).map fun s => (s.subs.exclusive_list.length, s.subs.broadcast_list.length))) =
    some (1, 1, .lookup ⟨⟨.Key1 ⟨1⟩, .Seq1 0⟩, []⟩, true, [false], [false], some (0, 0)) := by decide +kernel

end PRpc.Props
