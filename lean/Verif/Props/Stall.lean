import Verif.Props.Client
import Verif.Lemmas.Stall
/-!
C83: an exclusive subscription that is not read holds up everything else, but only for the configured time for each message.
`Rests`, `InTime`, `WorkerRun`, `finishedBefore`, `waited`, `NoRoom` and `Holds` are defined in `Verif.Spec.Stall`.
-/

namespace PRpc.Props

open Spec

/-! ### Example: `n + 1` messages nobody reads, and a reply behind them -/

/-- A client with a timeout of `t + 1`. -/
def exHeld (t : Nat) : ClkCfg := ⟨exCfg, t + 1⟩

/-- Subscribe with a queue for one message; send a request. -/
def exHeldStart : List ClkLabel :=
  ([.sub_excl (cKey 5) 1, .call_begin (cKey 1) (cKey 2) [], .call_kind 0, .call_reg_ok 0, .call_reg_err 0, .call_send 0, .out_poll,
    .out_recv, .out_done true, .out_yield, .in_poll] : List Label).map .client

/-- A message for the subscription. -/
def exNews : Bytes := [0x00, 5, 0, 7]

/-- The reply to the request. -/
def exAnswer : Bytes := [0x00, 2, 0, 9]

/-- The client once the request is sent. -/
def exHeldClient : Client :=
  ((run { exCfg with zero := false } [.sub_excl (cKey 5) 1, .call_begin (cKey 1) (cKey 2) [], .call_kind 0, .call_reg_ok 0,
    .call_reg_err 0, .call_send 0, .out_poll, .out_recv, .out_done true, .out_yield, .in_poll] Client.new)).getD Client.new

/-- That client, the queue of its subscription full. -/
def exUnread (arrived : List RpcFrame) (dropped : Bool) (pc : InPc) : Client :=
  { exHeldClient with
    in_pc := pc
    subs := ⟨[(cKey 5, 0)], [], false, [⟨cKey 5, 1, [⟨⟨.Key1 ⟨5⟩, .Seq1 0⟩, [7]⟩], true, 0, [], dropped⟩], [], [], arrived⟩ }

/-- One message is received, waits and is thrown away. -/
def exCycle (t : Nat) : List ClkLabel :=
  [.client (.in_recv (some exNews)), .client .in_lookup] ++ (List.replicate (t + 1) .tick ++ [.client .in_full_timeout])

theorem clk_ticks (cc : ClkCfg) : ∀ (n : Nat) (k : Clk), clk_run cc (List.replicate n .tick) k = some { k with now := k.now + n }
  | 0, _ => rfl
  | n + 1, k => by
    show clk_run cc (List.replicate n .tick) { k with now := k.now + 1 } = _
    rw [clk_ticks cc n]
    simp only [Nat.add_assoc, Nat.add_comm 1 n]

theorem inTime_ticks {cc : ClkCfg} {f : RpcFrame} {id : Nat} {rm : Bool} {u : Nat} : ∀ (n : Nat) (k : Clk),
    k.client.in_pc = .full f id rm → k.client.stopped = false → k.client.in_polled = true → k.sleep = some u → k.now + n ≤ u →
    (try_send k.client.subs id f).1 = .Full → InTime cc (List.replicate n .tick) k
  | 0, _, _, _, _, _, _, _ => trivial
  | n + 1, k, h1, h2, h3, h4, h5, h6 => by
    refine ⟨fun _ => rests_full h1 h2 h3 h4 (by omega) h6, fun k' hk => ?_⟩
    cases hk
    exact inTime_ticks n _ h1 h2 h3 h4 (by show k.now + 1 + n ≤ u; omega) h6

theorem inTime_noTick {cc : ClkCfg} : ∀ (ls : List ClkLabel) (k : Clk), (∀ l ∈ ls, l ≠ .tick) → InTime cc ls k
  | [], _, _ => trivial
  | l :: ls, _, h => ⟨fun e => absurd e (h l (List.mem_cons_self ..)), fun k' _ =>
      inTime_noTick ls k' fun l' hl => h l' (List.mem_cons_of_mem _ hl)⟩

theorem exCycle_run (t : Nat) (av : List RpcFrame) (dr : Bool) (now : Nat) (air : List Bytes) (arr : List Nat)
    (fin : List (Nat × Bool)) :
    let k : Clk := ⟨exUnread av dr .recv, now, none, exNews :: air, arr, fin⟩
    InTime (exHeld t) (exCycle t) k ∧ ∃ av', clk_run (exHeld t) (exCycle t) k =
      some ⟨exUnread av' true .recv, now + (t + 1), none, air, arr, fin ++ [(now + (t + 1), true)]⟩ := by
  intro k
  have h1 : clk_run (exHeld t) [.client (.in_recv (some exNews)), .client .in_lookup] k =
      some ⟨exUnread (av ++ [⟨⟨.Key1 ⟨5⟩, .Seq1 0⟩, [7]⟩]) dr (.full ⟨⟨.Key1 ⟨5⟩, .Seq1 0⟩, [7]⟩ 0 false), now,
        some (now + (t + 1)), air, arr, fin⟩ := rfl
  refine ⟨?_, av ++ [⟨⟨.Key1 ⟨5⟩, .Seq1 0⟩, [7]⟩], ?_⟩
  · refine inTime_append _ _ (inTime_noTick _ _ (by simp)) fun k' hk => ?_
    rw [h1] at hk
    cases hk
    exact inTime_append _ _ (inTime_ticks (t + 1) _ rfl rfl rfl rfl (Nat.le_refl _) rfl) fun _ _ => inTime_noTick _ _ (by simp)
  · unfold exCycle
    rw [clk_run_append, h1, Option.bind_some, clk_run_append, clk_ticks, Option.bind_some]
    have h2 : ∀ k' : Clk, clk_run (exHeld t) [.client .in_full_timeout] k' = clk_step (exHeld t) k' (.client .in_full_timeout) := by
      intro k'
      unfold clk_run
      split
      · rename_i e; rw [e]; rfl
      · rename_i e; rw [e]
    rw [h2]
    simp only [clk_step]
    rw [if_pos (Nat.le_refl _)]
    rfl

theorem exCycles_run (t : Nat) : ∀ (n : Nat) (av : List RpcFrame) (dr : Bool) (now : Nat) (arr : List Nat) (fin : List (Nat × Bool)),
    ∃ ls av' dr' fin', InTime (exHeld t) ls ⟨exUnread av dr .recv, now, none, List.replicate n exNews ++ [exAnswer], arr, fin⟩ ∧
      clk_run (exHeld t) ls ⟨exUnread av dr .recv, now, none, List.replicate n exNews ++ [exAnswer], arr, fin⟩ =
        some ⟨exUnread av' dr' .recv, now + n * (t + 1), none, [exAnswer], arr, fin ++ fin'⟩ ∧ fin'.length = n ∧ fin'.countP (·.2) = n
  | 0, av, dr, now, arr, fin => ⟨[], av, dr, [], trivial, by simp [clk_run], rfl, rfl⟩
  | n + 1, av, dr, now, arr, fin => by
    obtain ⟨h1, av1, h2⟩ := exCycle_run t av dr now (List.replicate n exNews ++ [exAnswer]) arr fin
    obtain ⟨ls, av2, dr2, fin2, h3, h4, h5, h6⟩ := exCycles_run t n av1 true (now + (t + 1)) arr (fin ++ [(now + (t + 1), true)])
    refine ⟨exCycle t ++ ls, av2, dr2, (now + (t + 1), true) :: fin2, ?_, ?_, by simp [h5], by simp [h6]⟩
    · refine inTime_append _ _ h1 fun k' hk => ?_
      have hk : clk_run (exHeld t) (exCycle t) ⟨exUnread av dr .recv, now, none,
        exNews :: (List.replicate n exNews ++ [exAnswer]), arr, fin⟩ = some k' := hk
      rw [h2] at hk
      cases hk
      exact h3
    · rw [clk_run_append]
      show (clk_run (exHeld t) (exCycle t) ⟨exUnread av dr .recv, now, none,
        exNews :: (List.replicate n exNews ++ [exAnswer]), arr, fin⟩).bind _ = _
      rw [h2, Option.bind_some, h4]
      rw [List.append_assoc, Nat.add_assoc, Nat.add_mul, Nat.one_mul, Nat.add_comm (t + 1)]
      rfl

theorem exArrive_run (cc : ClkCfg) (b : Bytes) : ∀ (n : Nat) (k : Clk), clk_run cc (List.replicate n (.arrive b)) k =
    some { k with air := k.air ++ List.replicate n b, arr := k.arr ++ List.replicate n k.now }
  | 0, k => by simp [clk_run]
  | n + 1, k => by
    show clk_run cc (List.replicate n (.arrive b)) { k with air := k.air ++ [b], arr := k.arr ++ [k.now] } = _
    rw [exArrive_run cc b n]
    simp [List.replicate_succ]

/-! ### The claims -/

/-- C83 (one message): if the receive worker is run in time, it has finished with a message as soon as it has arrived and the
message before it is finished, except that a message that had to wait for room may take up to the timeout more. -/
theorem c83_one_message {cc : ClkCfg} {ls : List ClkLabel} {k : Clk} (h : clk_run cc ls Clk.new = some k) (ht : InTime cc ls Clk.new)
    {i d : Nat} {w : Bool} (hd : k.fin[i]? = some (d, w)) :
    ∃ a, k.arr[i]? = some a ∧ max a (finishedBefore k.fin i) ≤ d ∧
      d ≤ max a (finishedBefore k.fin i) + if w then cc.timeout else 0 := by
  obtain ⟨a, h1, h2, h3, h4⟩ := (inv_run ls (inv_new cc) ht h).line i d w hd
  exact ⟨a, h1, Nat.max_le.mpr ⟨h2, h3⟩, h4⟩

/-- C83 (a queue): if the messages before the `m`-th were finished when message `n` arrived, then message `n` is finished after
at most the timeout for each of the messages `m` to `n` that had to wait for room. -/
theorem c83_queue {cc : ClkCfg} {ls : List ClkLabel} {k : Clk} (h : clk_run cc ls Clk.new = some k) (ht : InTime cc ls Clk.new)
    {m n a d : Nat} {w : Bool} (hmn : m ≤ n) (hd : k.fin[n]? = some (d, w)) (ha : k.arr[n]? = some a)
    (hm : finishedBefore k.fin m ≤ a) : d ≤ a + waited k.fin m n * cc.timeout :=
  queue_bound (inv_run ls (inv_new cc) ht h) (sorted_run ls (inv_new cc) List.Pairwise.nil ht h) hm n hmn d w a hd ha (Nat.le_refl _)

/-- C83 (no waiting): with a timeout of zero no message is ever held up. -/
theorem c83_zero {cc : ClkCfg} {ls : List ClkLabel} {k : Clk} (h : clk_run cc ls Clk.new = some k) (ht : InTime cc ls Clk.new)
    (hz : cc.timeout = 0) {n d : Nat} {w : Bool} (hd : k.fin[n]? = some (d, w)) : k.arr[n]? = some d := by
  obtain ⟨a, h1, h2, _⟩ := c83_one_message h ht hd
  have := c83_queue h ht (Nat.zero_le n) hd h1 (Nat.zero_le _)
  rw [hz] at this
  rw [h1, show a = d by omega]

/-- C83 (why it waits): the worker begins to wait only for a message of an exclusive subscription that is alive and whose queue
is full, and only if the timeout is not zero. -/
theorem c83_why {cc : ClkCfg} {k k' : Clk} {l : ClkLabel} (h : clk_step cc k l = some k') (hf : k.client.lock_free = true)
    (hl : k'.client.lock_free = false) :
    0 < cc.timeout ∧ ∃ f, k.client.in_pc = .lookup f ∧ NoRoom k.client.subs f := by
  obtain ⟨f, id, rm, e⟩ := lock_full hl
  have hnf : ∀ f id rm, k.client.in_pc ≠ .full f id rm := by
    intro f id rm h
    simp [Client.lock_free, h] at hf
  cases l with
  | tick => cases h; exact absurd e (hnf f id rm)
  | arrive b => cases h; exact absurd e (hnf f id rm)
  | client l =>
    rcases clk_client h with ⟨b, rest, c, rfl, ha, hc, rfl⟩ | ⟨_, c, hc, rfl, _⟩
    · have e : c.in_pc = .full f id rm := e
      cases pc_move hc with
      | stay h1 => exact absurd (h1 ▸ e) (hnf f id rm)
      | over h1 => rcases h1 with h1 | h1 <;> rw [h1] at e <;> cases e
      | noroom _ _ _ h1 => cases h1
      | got _ _ _ _ h3 => rw [h3] at e; cases e
      | bad _ _ _ h3 => rw [h3] at e; cases e
      | handled _ _ _ h3 => rw [h3] at e; cases e
      | unhandled _ _ _ h3 => rw [h3] at e; cases e
      | waited _ _ _ _ _ h3 => rw [h3] at e; cases e
      | woken _ _ _ _ h3 => rw [h3] at e; cases e
    · have e : c.in_pc = .full f id rm := e
      cases pc_move hc with
      | stay h1 => exact absurd (h1 ▸ e) (hnf f id rm)
      | over h1 => rcases h1 with h1 | h1 <;> rw [h1] at e <;> cases e
      | noroom f' id' rm' h1 h2 h3 =>
        subst h1
        simp only [step, in_lookup] at hc
        split at hc
        · rename_i f'' hpc _
          rw [h2] at hpc
          cases hpc
          split at hc
          · rename_i hd subs _
            cases hc
            cases hd <;> cases h3
          · rename_i hs
            obtain ⟨hz, hn⟩ := full_noRoom hs
            refine ⟨?_, f', h2, hn⟩
            simp only [ClkCfg.client, beq_eq_false_iff_ne, ne_eq] at hz
            omega
        · cases hc
      | got _ _ _ _ h3 => rw [h3] at e; cases e
      | bad _ _ _ h3 => rw [h3] at e; cases e
      | handled _ _ _ h3 => rw [h3] at e; cases e
      | unhandled _ _ _ h3 => rw [h3] at e; cases e
      | waited _ _ _ _ _ h3 => rw [h3] at e; cases e
      | woken _ _ _ _ h3 => rw [h3] at e; cases e

/-- C83 (how long it waits): the worker holds the lock of the subscriptions - whoever subscribes waits - for at most the timeout
at a time. -/
theorem c83_lock {cc : ClkCfg} {ls : List ClkLabel} {k k1 k2 : Clk} {l : ClkLabel} {ls' : List ClkLabel}
    (h : clk_run cc ls Clk.new = some k) (ht : InTime cc ls Clk.new) (hf : k.client.lock_free = true)
    (h1 : clk_step cc k l = some k1) (hl : l ≠ .tick) (hh : Holds cc ls' k1) (h2 : clk_run cc ls' k1 = some k2)
    (ht2 : InTime cc ls' k1) : k2.now ≤ k1.now + cc.timeout := by
  have hi1 := inv_step (inv_run ls (inv_new cc) ht h) (fun e => absurd e hl) h1
  have hlk : k1.client.lock_free = false := by cases ls' <;> first | exact hh | exact hh.1
  obtain ⟨f, id, rm, e⟩ := lock_full hlk
  obtain ⟨u, hu, _, hu2, _⟩ := hi1.wait f id rm e
  obtain ⟨hs, hlk2⟩ := holds_run ls' hh hu h2
  obtain ⟨f2, id2, rm2, e2⟩ := lock_full hlk2
  obtain ⟨u', hu', hle, _⟩ := (inv_run ls' hi1 ht2 h2).wait f2 id2 rm2 e2
  rw [hs] at hu'
  cases hu'
  omega

/-- C83 (what it waits for): while time passes and the worker waits, the message's channel is alive and full; room, or the end of
the subscription, ends the wait at once. -/
theorem c83_room {cc : ClkCfg} {k : Clk} (hr : Rests cc k) {f : RpcFrame} {id : Nat} {rm : Bool}
    (h : k.client.in_pc = .full f id rm) :
    ∃ c, k.client.subs.chans[id]? = some c ∧ c.rx_alive = true ∧ c.cap ≤ c.queue.length := by
  rcases rests_pc hr with h' | ⟨_, _, ⟨h', _⟩ | ⟨f', id', rm', h', _, h6⟩⟩
  · rw [h] at h'; cases h'
  · rw [h] at h'; cases h'
  · rw [h] at h'
    cases h'
    unfold try_send at h6
    split at h6
    · cases h6
    · rename_i c hc
      split at h6
      · cases h6
      · rename_i ha
        split at h6
        · rename_i hcap
          exact ⟨c, hc, by simpa using ha, hcap⟩
        · cases h6

/-- C83 (dropping): a message is given up only when the whole timeout has passed since the worker began to wait. -/
theorem c83_dropped {cc : ClkCfg} {ls : List ClkLabel} {k k1 k2 k3 : Clk} {l : ClkLabel} {ls' : List ClkLabel}
    (h : clk_run cc ls Clk.new = some k) (ht : InTime cc ls Clk.new) (hf : k.client.lock_free = true)
    (h1 : clk_step cc k l = some k1) (hl : l ≠ .tick) (hh : Holds cc ls' k1) (h2 : clk_run cc ls' k1 = some k2)
    (ht2 : InTime cc ls' k1) (h3 : clk_step cc k2 (.client .in_full_timeout) = some k3) : k3.now = k1.now + cc.timeout := by
  have hb := c83_lock h ht hf h1 hl hh h2 ht2
  have hi := inv_run ls (inv_new cc) ht h
  have hlk : k1.client.lock_free = false := by cases ls' <;> first | exact hh | exact hh.1
  obtain ⟨f, id, rm, e⟩ := lock_full hlk
  have hs0 : k.sleep = none := hi.nowait (by
    intro f id rm h
    simp [Client.lock_free, h] at hf)
  have hs1 : k1.sleep = some (k1.now + cc.timeout) := by
    cases l with
    | tick => exact absurd rfl hl
    | arrive b => cases h1; simp [Client.lock_free] at hlk hf; rw [hf] at hlk; cases hlk
    | client l =>
      rcases clk_client h1 with ⟨b, rest, c, rfl, ha, hc, rfl⟩ | ⟨_, c, hc, rfl, _⟩
      · have e : c.in_pc = .full f id rm := e
        simp only [clk_after, e, hs0, Option.getD_none]
      · have e : c.in_pc = .full f id rm := e
        simp only [clk_after, e, hs0, Option.getD_none]
  obtain ⟨hs2, _⟩ := holds_run ls' hh hs1 h2
  rcases clk_client h3 with ⟨b, rest, c, hc, _⟩ | ⟨_, c, _, rfl, hu⟩
  · cases hc
  · obtain ⟨u, hu1, hu2⟩ := hu rfl
    rw [hs2] at hu1
    cases hu1
    show k2.now = _
    omega

/-- C83 (closing): a client that is stopped, also while its worker waits for room, has ended its receive worker before time goes
on. -/
theorem c83_close {cc : ClkCfg} {ls : List ClkLabel} {k k' : Clk} (hs : k.client.stopped = true) (ht : InTime cc ls k)
    (h : clk_run cc ls k = some k') (hn : k.now < k'.now) : k'.client.in_pc = .exited :=
  stopped_run ls hs ht h hn

/-- C83 (time goes on): whatever happens the worker, when run, gets to a point where it has nothing to do; so every run in time
can be continued by worker steps until time passes. -/
theorem c83_goes_on {cc : ClkCfg} {ls : List ClkLabel} {k : Clk} (h : clk_run cc ls Clk.new = some k) (ht : InTime cc ls Clk.new) :
    ∃ k', WorkerRun cc k k' ∧ Rests cc k' := gets_to_rest (inv_run ls (inv_new cc) ht h)

/-- C83 (the bound is reached): a reply that arrives together with `n` messages more than the subscription has room for, behind
them, reaches its caller only after `n` times the timeout, even if the receive worker is run in time. -/
theorem c83_reached (t n : Nat) : ∃ ls k, clk_run (exHeld t) ls Clk.new = some k ∧ InTime (exHeld t) ls Clk.new ∧
    k.arr = List.replicate (n + 2) 0 ∧ k.now = n * (t + 1) ∧ k.fin[n + 1]? = some (n * (t + 1), false) ∧ waited k.fin 0 (n + 1) = n ∧
    k.client.calls.map Call.phase = [.done (.Resp ⟨⟨.Key1 ⟨2⟩, .Seq1 0⟩, [9]⟩ 0)] := by
  obtain ⟨ls, av, dr, fin', h1, h2, h3, h4⟩ := exCycles_run t n [⟨⟨.Key1 ⟨5⟩, .Seq1 0⟩, [7]⟩] false 0
    ([] ++ List.replicate (n + 1) 0 ++ [0]) [(0, false)]
  let pre : List ClkLabel := exHeldStart ++ (List.replicate (n + 1) (.arrive exNews) ++ ([.arrive exAnswer] ++
    [.client (.in_recv (some exNews)), .client .in_lookup]))
  let post : List ClkLabel := ([.in_recv (some exAnswer), .in_lookup, .in_wake (some ⟨0, false⟩), .call_ok 0] : List Label).map .client
  have hpre : clk_run (exHeld t) pre Clk.new = some ⟨exUnread [⟨⟨.Key1 ⟨5⟩, .Seq1 0⟩, [7]⟩] false .recv, 0, none,
      List.replicate n exNews ++ [exAnswer], [] ++ List.replicate (n + 1) 0 ++ [0], [(0, false)]⟩ := by
    have h0 : clk_run (exHeld t) exHeldStart Clk.new = some ⟨exHeldClient, 0, none, [], [], []⟩ := rfl
    show clk_run (exHeld t) (exHeldStart ++ (List.replicate (n + 1) (.arrive exNews) ++ ([.arrive exAnswer] ++
      [.client (.in_recv (some exNews)), .client .in_lookup]))) Clk.new = _
    rw [clk_run_append, h0, Option.bind_some, clk_run_append, exArrive_run, Option.bind_some]
    rfl
  have hpost : ∀ fin, clk_run (exHeld t) post ⟨exUnread av dr .recv, 0 + n * (t + 1), none, [exAnswer],
      [] ++ List.replicate (n + 1) 0 ++ [0], fin⟩ =
      some ⟨((step (exHeld t).client { exUnread (av ++ [⟨⟨.Key1 ⟨2⟩, .Seq1 0⟩, [9]⟩]) dr .recv with
        map := exHeldClient.map.filter fun x => x.1 != ⟨0, false⟩
        woken := [⟨⟨0, false⟩, ⟨⟨.Key1 ⟨2⟩, .Seq1 0⟩, [9]⟩, 0⟩]
        seen := [⟨⟨.Key1 ⟨2⟩, .Seq1 0⟩, [9]⟩] } (.call_ok 0)).getD Client.new), 0 + n * (t + 1), none, [],
        [] ++ List.replicate (n + 1) 0 ++ [0], fin ++ [(0 + n * (t + 1), false)]⟩ := fun fin => rfl
  have hrun : clk_run (exHeld t) (pre ++ (ls ++ post)) Clk.new = _ := (clk_run_append pre (ls ++ post) Clk.new).trans
    ((congrArg (fun x => Option.bind x _) hpre).trans ((clk_run_append ls post _).trans
      ((congrArg (fun x => Option.bind x _) h2).trans (hpost _))))
  refine ⟨pre ++ (ls ++ post), _, hrun, ?_, ?_, ?_, ?_, ?_, rfl⟩
  · refine inTime_append _ _ (inTime_noTick _ _ ?_) fun k' hk => ?_
    · intro l hl
      simp only [pre, exHeldStart, List.mem_append, List.mem_map, List.mem_replicate, List.mem_cons, List.not_mem_nil, or_false] at hl
      rintro rfl
      rcases hl with ⟨_, _, h⟩ | ⟨_, h⟩ | h | h | h <;> cases h
    · rw [hpre] at hk
      cases hk
      refine inTime_append _ _ h1 fun _ _ => inTime_noTick _ _ ?_
      intro l hl
      simp only [post, List.mem_map] at hl
      obtain ⟨_, _, rfl⟩ := hl
      simp
  · show [] ++ List.replicate (n + 1) 0 ++ [0] = _
    rw [List.nil_append]
    exact List.replicate_append_replicate (n := n + 1) (m := 1)
  · exact Nat.zero_add _
  · show (([(0, false)] ++ fin') ++ [(0 + n * (t + 1), false)])[n + 1]? = _
    rw [List.getElem?_append_right (by simp [h3]), Nat.zero_add]
    simp [h3]
  · show waited (([(0, false)] ++ fin') ++ [(0 + n * (t + 1), false)]) 0 (n + 1) = n
    unfold waited
    rw [List.take_of_length_le (by simp [h3])]
    simp [h4]

/-- Three messages too many with a timeout of 10: the reply arrives at time 0 and is finished at time 30, the bound of
`c83_queue` (the messages before the first being none). -/
example : ∃ ls k, clk_run (exHeld 9) ls Clk.new = some k ∧ InTime (exHeld 9) ls Clk.new ∧ k.fin[4]? = some (30, false) ∧
    k.arr[4]? = some 0 ∧ finishedBefore k.fin 0 ≤ 0 ∧ 30 = 0 + waited k.fin 0 4 * (exHeld 9).timeout := by
  obtain ⟨ls, k, h1, h2, h3, _, h5, h6, _⟩ := c83_reached 9 3
  exact ⟨ls, k, h1, h2, h5, by rw [h3]; rfl, Nat.le_refl _, by rw [h6]; rfl⟩

/-- With a timeout of zero: the second message finds the queue full and is finished at once. -/
example : ∃ ls k, clk_run ⟨exCfg, 0⟩ ls Clk.new = some k ∧ InTime ⟨exCfg, 0⟩ ls Clk.new ∧ k.fin = [(1, false), (1, false)] ∧
    k.client.subs.chans.map Chan.dropped = [true] := by
  refine ⟨[.client (.sub_excl (cKey 5) 1), .client .in_poll] ++ ([.tick] ++ [.arrive exNews, .arrive exNews,
    .client (.in_recv (some exNews)), .client .in_lookup, .client (.in_recv (some exNews)), .client .in_lookup]), _, rfl, ?_, rfl, rfl⟩
  refine inTime_append _ _ (inTime_noTick _ _ (by simp)) fun k' hk => ?_
  cases hk
  exact inTime_append _ _ ⟨fun _ => rests_recv rfl rfl rfl rfl, fun _ _ => trivial⟩ fun _ _ => inTime_noTick _ _ (by simp)

theorem holds_ticks {cc : ClkCfg} : ∀ (n : Nat) (k : Clk), k.client.lock_free = false → Holds cc (List.replicate n .tick) k
  | 0, _, h => h
  | n + 1, _, h => ⟨h, fun k' hk => by cases hk; exact holds_ticks n _ h⟩

/-- The message as received. -/
def exF : RpcFrame := ⟨⟨.Key1 ⟨5⟩, .Seq1 0⟩, [7]⟩

/-- The second message waits for 10, the client not being able to subscribe, and is then given up. -/
example : ∃ ls k k1 ls' k2 k3, clk_run (exHeld 9) ls Clk.new = some k ∧ InTime (exHeld 9) ls Clk.new ∧ k.client.lock_free = true ∧
    clk_step (exHeld 9) k (.client .in_lookup) = some k1 ∧ Holds (exHeld 9) ls' k1 ∧ clk_run (exHeld 9) ls' k1 = some k2 ∧
    InTime (exHeld 9) ls' k1 ∧ clk_step (exHeld 9) k2 (.client .in_full_timeout) = some k3 ∧ k1.now = 0 ∧ k3.now = 10 ∧
    clk_step (exHeld 9) k2 (.client (.sub_excl (cKey 6) 1)) = none ∧
    (clk_step (exHeld 9) k3 (.client (.sub_excl (cKey 6) 1))).isSome = true := by
  refine ⟨exHeldStart ++ [.arrive exNews, .arrive exNews, .client (.in_recv (some exNews)), .client .in_lookup,
    .client (.in_recv (some exNews))],
    ⟨exUnread [exF] false (.lookup exF), 0, none, [], [0, 0], [(0, false)]⟩,
    ⟨exUnread [exF, exF] false (.full exF 0 false), 0, some 10, [], [0, 0], [(0, false)]⟩, List.replicate 10 .tick,
    ⟨exUnread [exF, exF] false (.full exF 0 false), 10, some 10, [], [0, 0], [(0, false)]⟩,
    ⟨exUnread [exF, exF] true .recv, 10, none, [], [0, 0], [(0, false), (10, true)]⟩, rfl, inTime_noTick _ _ ?_, rfl, rfl,
    holds_ticks _ _ rfl, clk_ticks _ 10 _, inTime_ticks 10 _ rfl rfl rfl rfl (Nat.le_refl _) rfl, rfl, rfl, rfl, rfl, rfl⟩
  intro l hl
  simp only [exHeldStart, List.mem_append, List.mem_map, List.mem_cons, List.not_mem_nil, or_false] at hl
  rintro rfl
  rcases hl with ⟨_, _, h⟩ | h | h | h | h | h <;> cases h

/-- A client closed while its worker waits for room: the worker has ended one moment later. -/
example : ∃ (k : Clk) (ls : List ClkLabel) (k' : Clk), k.client.stopped = true ∧ k.client.lock_free = false ∧ InTime (exHeld 9) ls k ∧
    clk_run (exHeld 9) ls k = some k' ∧ k.now < k'.now := by
  refine ⟨⟨{ exUnread [] false (.full ⟨⟨.Key1 ⟨5⟩, .Seq1 0⟩, [7]⟩ 0 false) with stopped := true }, 0, some 10, [], [0, 0], [(0, false)]⟩,
    [.client .in_yield, .client .in_poll, .client .in_purge] ++ [.tick], _, rfl, rfl, ?_, rfl, Nat.zero_lt_one⟩
  refine inTime_append _ _ (inTime_noTick _ _ (by simp)) fun k' hk => ?_
  cases hk
  exact ⟨fun _ => rests_exited rfl, fun _ _ => trivial⟩

/-- A worker that waits for room rests while the queue is full. -/
example : Rests (exHeld 9) ⟨exUnread [] false (.full ⟨⟨.Key1 ⟨5⟩, .Seq1 0⟩, [7]⟩ 0 false), 3, some 10, [], [0, 0], [(0, false)]⟩ :=
  rests_full rfl rfl rfl rfl (by decide) rfl

end PRpc.Props
