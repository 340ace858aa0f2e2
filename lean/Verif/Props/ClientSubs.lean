import Verif.Props.Client
import Verif.Lemmas.ClientHist
/-!
Property theorems C38-C41: closing, and subscriptions.  `s.stopped` is what `HostClient::is_closed` reports;
`s.subs.arrived` are the frames the receive worker has looked up in the subscription table, in order (`c40_arrivals` ties
them to the bytes the transport delivered).
-/

namespace PRpc.Props

open PRpc PRpc.Spec

set_option synthInstance.maxSize 1000

/-! ### C38 -/

/-- C38: once closed, always closed. -/
theorem c38_stays_closed {cfg : Cfg} {ls : List Label} {s s' : Client} (h : run cfg ls s = some s') (hs : s.stopped = true) :
    s'.stopped = true :=
  run_induct (fun s => s.stopped = true) (fun _ _ _ h1 h2 => step_stopped h2 h1) ls s s' hs h

/-- C38: an explicit close, a transmit error and a receive error all close the client. -/
theorem c38_failures_close {cfg : Cfg} {s s' : Client} {l : Label}
    (hl : l = .close ∨ l = .out_done false ∨ l = .in_recv none) (h : step cfg s l = some s') : s'.stopped = true := by
  rcases hl with rfl | rfl | rfl
  · cases h; rfl
  · simp only [step, out_done] at h
    split at h
    · cases h; rfl
    · cases h
  · simp only [step, in_recv] at h
    split at h
    · cases h; rfl
    · cases h

/-- C38: a worker has gone only if the client is closed. -/
theorem c38_no_silent_worker_exit {cfg : Cfg} {s : Client} (hr : Reachable cfg s)
    (h : s.out_pc = .exited ∨ s.in_pc = .exited) : s.stopped = true := by
  have inv := reachable_purgeInv hr
  rcases h with h | h
  · exact inv.out h
  · exact inv.stop (by rw [h]; rfl)

/-- C38 (the part about pending calls): a call can only get a response that was received before the close. -/
def c38_statement : Prop :=
  ∀ (cfg : Cfg) (ls : List Label) (s s' : Client) (c : Nat) (cl : Call) (err : Bool) (f : RpcFrame) (i : Nat), Reachable cfg s →
    s.stopped = true → run cfg ls s = some s' → s'.calls[c]? = some cl → result cl = some (err, f, i) → i < s.seen.length

/-- The receive worker is being polled when the client is closed; it then receives the response. -/
def exCloseA : List Label := startCall 0 1 2 [7] ++ [.out_poll, .out_recv, .out_done true, .out_yield, .in_poll, .close]

def exCloseB : List Label :=
  [.in_recv (some [0xE0, 0, 0, 0, 0, 0, 0, 0, 2, 0, 0, 0, 0, 70]), .in_lookup, .in_wake (some ⟨0, false⟩), .call_ok 0]

/-- C38 is false as stated: a receive worker in the middle of a poll looks at the stop flag only at its next poll, and all
frames it can receive without waiting are still delivered. -/
theorem c38_closing_false : ¬ c38_statement := by
  intro h
  have h0 : (run exCfg exCloseA Client.new).map (fun s => (s.stopped, s.seen.length)) = some (true, 0) := by decide +kernel
  obtain ⟨s, e1, e2⟩ := Option.map_eq_some_iff.mp h0
  simp only [Prod.mk.injEq] at e2
  have h1 : (run exCfg (exCloseA ++ exCloseB) Client.new).map (fun s => (s.calls[0]?).map result) =
      some (some (some (false, ⟨⟨.Key8 (cKey 2), .Seq4 0⟩, [70]⟩, 0))) := by decide +kernel
  rw [run_append, e1] at h1
  simp only [Option.bind_some] at h1
  obtain ⟨s', e3, e4⟩ := Option.map_eq_some_iff.mp h1
  obtain ⟨cl, e5, e6⟩ := Option.map_eq_some_iff.mp e4
  have := h exCfg exCloseB s s' 0 cl false _ 0 ⟨_, e1⟩ e2.1 e3 e5 e6
  rw [e2.2] at this
  exact absurd this (by decide)

/-- The client is closed and the receive worker is not in the middle of a poll that began before the close (in particular:
it has not been polled since, or it has ended). -/
def RxQuiet (s : Client) : Prop :=
  s.stopped = true ∧ (s.in_polled = false ∨ s.in_pc = .purge ∨ s.in_pc = .exited)

/-- C38: from then on no frame is received any more, by calls or by subscriptions.  Missing for the full statement: frames
received in a poll of the receive worker that began before the close. -/
theorem c38_no_late_traffic_partial {cfg : Cfg} {ls : List Label} {s s' : Client} (hq : RxQuiet s) (h : run cfg ls s = some s') :
    s'.seen = s.seen ∧ s'.subs.arrived = s.subs.arrived := by
  have h0 : RxOver s := by
    rcases hq.2 with h | h | h
    · exact .inr (.inr ⟨hq.1, h⟩)
    · exact .inl h
    · exact .inr (.inl h)
  have := run_induct (fun t => RxOver t ∧ t.seen = s.seen ∧ t.subs.arrived = s.subs.arrived)
    (fun a l b ⟨g1, g2, g3⟩ hs => by
      obtain ⟨q1, q2, q3⟩ := step_rxOver hs g1
      exact ⟨q1, q2.trans g2, q3.trans g3⟩) ls s s' ⟨h0, rfl, rfl⟩ h
  exact this.2

/-- C38: a call that returns a response later returns one received before. -/
theorem c38_no_late_response_partial {cfg : Cfg} {ls : List Label} {s s' : Client} {c : Nat} {cl : Call} {err : Bool} {f : RpcFrame}
    {i : Nat} (hr : Reachable cfg s) (hq : RxQuiet s) (h : run cfg ls s = some s') (hc : s'.calls[c]? = some cl)
    (hd : result cl = some (err, f, i)) : s.seen[i]? = some f := by
  rw [← (c38_no_late_traffic_partial hq h).1]
  exact (c36_completed_by_matching_frame (run_reachable hr h) hc hd).1

/-- `exCloseA` with the receive worker at rest. -/
example : ∃ s, Reachable exCfg s ∧ RxQuiet s ∧ s.calls.map Call.phase = [.waiting .Key8] := by
  have h0 : (run exCfg (startCall 0 1 2 [7] ++ [.in_poll, .in_yield, .close]) Client.new).map
    (fun s => (s.stopped, s.in_polled, s.calls.map Call.phase)) = some (true, false, [.waiting .Key8]) := by decide +kernel
  obtain ⟨s, e1, e2⟩ := Option.map_eq_some_iff.mp h0
  simp only [Prod.mk.injEq] at e2
  exact ⟨s, ⟨_, e1⟩, ⟨e2.1, .inl e2.2.1⟩, e2.2.2⟩

/-- C38: the transmit side: once the client is closed and the transmit worker is not in the middle of a poll, nothing more
is handed to the transport. -/
theorem c38_no_late_transmission {cfg : Cfg} {ls : List Label} {s s' : Client} (hs : s.stopped = true)
    (hq : s.out_polled = false ∨ s.out_pc = .exited) (h : run cfg ls s = some s') : s'.tx = s.tx := by
  have h0 : TxOver s := by
    rcases hq with h | h
    · exact .inr ⟨hs, h⟩
    · exact .inl h
  exact (run_induct (fun t => TxOver t ∧ t.tx = s.tx)
    (fun a l b ⟨g1, g2⟩ hs => by
      obtain ⟨q1, q2⟩ := step_txOver hs g1
      exact ⟨q1, q2.trans g2⟩) ls s s' ⟨h0, rfl⟩ h).2

/-- The steps a worker takes to notice the stop. -/
def outExit (s : Client) : List Label :=
  if s.out_pc = .exited then [] else if s.out_polled then [.out_yield, .out_poll] else [.out_poll]

def inExit (s : Client) : List Label :=
  if s.in_pc = .exited then [] else if s.in_pc = .purge then [.in_purge]
  else if s.in_polled then [.in_yield, .in_poll, .in_purge] else [.in_poll, .in_purge]

theorem run_outExit {cfg : Cfg} {s : Client} (hs : s.stopped = true) :
    ∃ s', run cfg (outExit s) s = some s' ∧ s'.out_pc = .exited ∧ s'.calls = s.calls ∧ s'.stopped = true ∧
      s'.in_pc = s.in_pc ∧ s'.in_polled = s.in_polled ∧ s'.pubs = s.pubs := by
  rw [outExit]
  split
  · rename_i h; exact ⟨s, rfl, h, rfl, hs, rfl, rfl, rfl⟩
  · rename_i h
    split
    · rename_i hp
      refine ⟨{ s with out_polled := false, out_pc := .exited, outq := [] }, ?_, rfl, rfl, hs, rfl, rfl, rfl⟩
      simp [run, step, out_poll, hp, h, hs]
    · rename_i hp
      refine ⟨{ s with out_pc := .exited, outq := [] }, ?_, rfl, rfl, hs, rfl, rfl, rfl⟩
      simp [run, step, out_poll, hp, h, hs]

theorem run_inExit {cfg : Cfg} {s : Client} (hs : s.stopped = true) :
    ∃ s', run cfg (inExit s) s = some s' ∧ s'.in_pc = .exited ∧ s'.out_pc = s.out_pc := by
  rw [inExit]
  split
  · rename_i h; exact ⟨s, rfl, h, rfl⟩
  · rename_i h
    split
    · rename_i hp
      refine ⟨{ s with in_pc := .exited, subs := subs_purge s.subs }, ?_, rfl, rfl⟩
      simp [run, step, hp]
    · rename_i hp
      split
      · rename_i hq
        refine ⟨{ s with in_polled := false, in_pc := .exited, subs := subs_purge s.subs }, ?_, rfl, rfl⟩
        simp [run, step, in_poll, hp, h, hq, hs]
      · rename_i hq
        refine ⟨{ s with in_polled := false, in_pc := .exited, subs := subs_purge s.subs }, ?_, rfl, rfl⟩
        simp [run, step, in_poll, hp, h, hq, hs]

/-- C38: after a close both workers end once they are polled again, whatever they were doing. -/
theorem c38_workers_end {cfg : Cfg} {s : Client} (hs : s.stopped = true) :
    ∃ s', run cfg (outExit s ++ inExit s) s = some s' ∧ s'.out_pc = .exited ∧ s'.in_pc = .exited := by
  obtain ⟨s1, h1, h2, _, h4, h5, h6, _⟩ := run_outExit (cfg := cfg) hs
  obtain ⟨s2, g1, g2, g3⟩ := run_inExit (cfg := cfg) h4
  refine ⟨s2, ?_, by rw [g3]; exact h2, g2⟩
  rw [run_append, h1, Option.bind_some]
  have : inExit s1 = inExit s := by rw [inExit, inExit, h5, h6]
  rw [← this]; exact g1

/-- C38: a closed client's publications fail once the transmit worker has ended; before that one that waits can fail at
any time. -/
theorem c38_publish_fails {cfg : Cfg} {s : Client} {p : Nat} {pb : Pub} (hp : s.pubs[p]? = some pb) (hn : pb.res = none)
    (hs : s.stopped = true) :
    (∃ s', step cfg s (.pub_closed p) = some s' ∧ s'.pubs = s.pubs.set p { pb with res := some false }) ∧
    (s.out_pc = .exited → ∀ s', step cfg s (.pub_send p) = some s' → s'.pubs = s.pubs.set p { pb with res := some false }) := by
  refine ⟨⟨_, by simp only [step, hp, hn, hs, and_self, if_true]; rfl, rfl⟩, fun ho s' h => ?_⟩
  simp [step, hp, hn, pub_send, Client.out_open, ho] at h
  subst h; rfl

theorem done_of_send {cfg : Cfg} {s : Client} {c : Nat} {cl : Call} {k : VarKeyKind} (ho : s.out_pc = .exited)
    (hc : s.calls[c]? = some cl) (hp : cl.phase = .registered k) :
    ∃ s' cl', run cfg [.call_send c] s = some s' ∧ s'.calls[c]? = some cl' ∧ cl'.phase = .done .Closed := by
  refine ⟨(s.drop_waits c).set_phase c cl (.done .Closed), _, ?_, (set_get hc _ _).trans (if_pos rfl), rfl⟩
  simp [run, step, hc, hp, call_send, Client.out_open, ho]

theorem done_of_half {cfg : Cfg} {s : Client} {c : Nat} {cl : Call} {k : VarKeyKind} (ho : s.out_pc = .exited)
    (hc : s.calls[c]? = some cl) (hp : cl.phase = .half k) :
    ∃ ls s' cl' r, run cfg ls s = some s' ∧ s'.calls[c]? = some cl' ∧ cl'.phase = .done r ∧ (r = .Closed ∨ r = .BadResponse) := by
  cases e : map_enqueue s.map ⟨c, true⟩ (cl.err_hdr cfg k) with
  | none =>
    refine ⟨[.call_reg_err c], (s.drop_waits c).set_phase c cl (.done .BadResponse), _, _, ?_,
      (set_get hc _ _).trans (if_pos rfl), rfl, .inr rfl⟩
    simp [run, step, hc, hp, call_reg_err, e]
  | some m =>
    obtain ⟨s', cl', h1, h2, h3⟩ := done_of_send (cfg := cfg) (s := { s with map := m }.set_phase c cl (.registered k)) (k := k)
      (c := c) ho ((set_get hc _ _).trans (if_pos rfl)) rfl
    refine ⟨[.call_reg_err c, .call_send c], s', cl', _, ?_, h2, h3, .inl rfl⟩
    rw [← h1]
    simp [run, step, hc, hp, call_reg_err, e]

theorem done_of_kinded {cfg : Cfg} {s : Client} {c : Nat} {cl : Call} {k : VarKeyKind} (ho : s.out_pc = .exited)
    (hc : s.calls[c]? = some cl) (hp : cl.phase = .kinded k) :
    ∃ ls s' cl' r, run cfg ls s = some s' ∧ s'.calls[c]? = some cl' ∧ cl'.phase = .done r ∧ (r = .Closed ∨ r = .BadResponse) := by
  cases e : map_enqueue s.map ⟨c, false⟩ (cl.ok_hdr k) with
  | none =>
    refine ⟨[.call_reg_ok c], s.set_phase c cl (.done .BadResponse), _, _, ?_,
      (set_get hc _ _).trans (if_pos rfl), rfl, .inr rfl⟩
    simp [run, step, hc, hp, call_reg_ok, e]
  | some m =>
    obtain ⟨ls, s', cl', r, h1, h2, h3, h4⟩ := done_of_half (cfg := cfg)
      (s := { s with map := m, calls := s.calls.set c { cl with phase := .half k, reg_at := s.seen.length } }) (k := k)
      (c := c) ho ((set_get hc _ _).trans (if_pos rfl)) rfl
    refine ⟨.call_reg_ok c :: ls, s', cl', r, ?_, h2, h3, h4⟩
    rw [← h1]
    simp [run, step, hc, hp, call_reg_ok, e]

/-- C38 (everyone is released): in a closed client every call that has not returned gets to return (unless dropped first)
once the transmit worker and the call are polled: with `Closed`, or `BadResponse` if its header was a duplicate. -/
theorem c38_calls_are_released {cfg : Cfg} {s : Client} {c : Nat} {cl : Call} (hs : s.stopped = true)
    (hc : s.calls[c]? = some cl) (hun : Unfinished cl) :
    ∃ ls s' cl' r, run cfg ls s = some s' ∧ s'.calls[c]? = some cl' ∧ cl'.phase = .done r ∧ (r = .Closed ∨ r = .BadResponse) := by
  obtain ⟨s1, h1, h2, h3, h4, _⟩ := run_outExit (cfg := cfg) hs
  have hc1 : s1.calls[c]? = some cl := by rw [h3]; exact hc
  have pre : (∃ ls s' cl' r, run cfg ls s1 = some s' ∧ s'.calls[c]? = some cl' ∧ cl'.phase = .done r ∧
      (r = .Closed ∨ r = .BadResponse)) → ∃ ls s' cl' r, run cfg ls s = some s' ∧ s'.calls[c]? = some cl' ∧
      cl'.phase = .done r ∧ (r = .Closed ∨ r = .BadResponse) := by
    intro ⟨ls, s', cl', r, g1, g2⟩
    exact ⟨outExit s ++ ls, s', cl', r, by rw [run_append, h1]; exact g1, g2⟩
  cases hp : cl.phase with
  | begun =>
    obtain ⟨ls, s', cl', r, g1, g2⟩ := done_of_kinded (cfg := cfg) (s := s1.set_phase c cl (.kinded s1.kkind)) (k := s1.kkind)
      (c := c) h2 ((set_get hc1 _ _).trans (if_pos rfl)) rfl
    refine pre ⟨.call_kind c :: ls, s', cl', r, ?_, g2⟩
    rw [← g1]
    simp [run, step, hc1, hp]
  | kinded k => exact pre (done_of_kinded h2 hc1 hp)
  | half k => exact pre (done_of_half h2 hc1 hp)
  | registered k =>
    obtain ⟨s', cl', g1, g2, g3⟩ := done_of_send (cfg := cfg) h2 hc1 hp
    exact pre ⟨_, s', cl', _, g1, g2, g3, .inl rfl⟩
  | waiting k =>
    refine ⟨[.call_closed c], (s.drop_waits c).set_phase c cl (.done .Closed), _, _, ?_,
      (set_get hc _ _).trans (if_pos rfl), rfl, .inl rfl⟩
    simp [run, step, hc, hp, hs]
  | done r => exact absurd hp (hun.1 r)
  | dropped => exact absurd hp hun.2

/-- An unregistered exclusive subscription returns what is queued and then the end. -/
theorem drain_unregistered {id : Nat} : ∀ (q : List RpcFrame) (t : Subs) (c : Chan), (∀ k, (k, id) ∉ t.exclusive_list) →
    t.chans[id]? = some c → c.queue = q → drain id (q.length + 1) t = q.map (fun f => some (some f)) ++ [some none] := by
  intro q
  induction q with
  | nil =>
    intro t c h1 h2 h3
    have : (t.exclusive_list.any fun e => e.2 == id) = false := by
      rw [List.any_eq_false]
      rintro ⟨k, i⟩ hm
      simp only [beq_iff_eq]
      intro e; subst e
      exact h1 k hm
    simp [drain, sub_recv, h2, h3, this]
  | cons f q ih =>
    intro t c h1 h2 h3
    have hr : sub_recv t id = (some (some f), { t with chans := t.chans.set id { c with queue := q, got := c.got ++ [f] } }) := by
      simp only [sub_recv, h2, h3]
    rw [List.length_cons, drain, hr]
    simp only
    rw [ih { t with chans := t.chans.set id { c with queue := q, got := c.got ++ [f] } }
      { c with queue := q, got := c.got ++ [f] } h1 ?_ rfl]
    · rfl
    · simp only
      rw [List.getElem?_set, if_pos rfl, if_pos]
      rcases Nat.lt_or_ge id t.chans.length with h | h
      · exact h
      · rw [List.getElem?_eq_none h] at h2; cases h2

/-- C38 (subscriptions end): after the receive worker has ended, an exclusive subscription returns what was queued, in
order, and then the end. -/
theorem c38_subscription_drains {cfg : Cfg} {s : Client} (hr : Reachable cfg s) (he : s.in_pc = .exited) {id : Nat} {c : Chan}
    (hc : s.subs.chans[id]? = some c) :
    drain id (c.queue.length + 1) s.subs = c.queue.map (fun f => some (some f)) ++ [some none] := by
  have inv := reachable_purgeInv hr
  have hx : s.subs.exclusive_list = [] := (inv.empty (inv.iff.mpr he)).1
  exact drain_unregistered c.queue s.subs c (by rw [hx]; simp) hc rfl

/-- C38: a multi-subscription likewise, after reporting what it had lost. -/
theorem c38_multi_subscription_drains {cfg : Cfg} {s : Client} (hr : Reachable cfg s) (he : s.in_pc = .exited) {id : Nat} {r : BRx}
    (hc : s.subs.brxs[id]? = some r) :
    drainMulti id ((if 0 < r.missed then 1 else 0) + r.pending.length + 1) s.subs =
      (if 0 < r.missed then [some (.Lagged r.missed)] else []) ++ r.pending.map (fun f => some (.Ok f)) ++ [some .IoClosed] := by
  have inv := reachable_purgeInv hr
  have hx : s.subs.broadcast_list = [] := (inv.empty (inv.iff.mpr he)).2
  have lt : ∀ {t : Subs} {r : BRx}, t.brxs[id]? = some r → id < t.brxs.length := by
    intro t r h
    rcases Nat.lt_or_ge id t.brxs.length with h' | h'
    · exact h'
    · rw [List.getElem?_eq_none h'] at h; cases h
  have gen : ∀ (q : List RpcFrame) (t : Subs) (c : BRx), t.broadcast_list = [] → t.brxs[id]? = some c → c.missed = 0 →
      c.pending = q → drainMulti id (q.length + 1) t = q.map (fun f => some (.Ok f)) ++ [some .IoClosed] := by
    intro q
    induction q with
    | nil =>
      intro t c h1 h2 h3 h4
      simp [drainMulti, multi_recv, h2, h3, h4, h1]
    | cons f q ih =>
      intro t c h1 h2 h3 h4
      have hr : multi_recv t id = (some (.Ok f), { t with brxs := t.brxs.set id { c with pending := q, got := c.got ++ [f] } }) := by
        simp only [multi_recv, h2, h3, h4]
        rfl
      rw [List.length_cons, drainMulti, hr]
      simp only
      rw [ih { t with brxs := t.brxs.set id { c with pending := q, got := c.got ++ [f] } }
        { c with pending := q, got := c.got ++ [f] } h1 ?_ h3 rfl]
      · rfl
      · simp only
        rw [List.getElem?_set, if_pos rfl, if_pos (lt h2)]
  by_cases hm : 0 < r.missed
  · rw [if_pos hm, if_pos hm]
    have hr : multi_recv s.subs id = (some (.Lagged r.missed), { s.subs with brxs := s.subs.brxs.set id { r with missed := 0 } }) := by
      simp only [multi_recv, hc, if_pos hm]
    have : 1 + r.pending.length + 1 = (r.pending.length + 1) + 1 := by omega
    rw [this, drainMulti, hr]
    simp only
    rw [gen r.pending { s.subs with brxs := s.subs.brxs.set id { r with missed := 0 } } { r with missed := 0 } hx ?_ rfl rfl]
    · rfl
    · simp only
      rw [List.getElem?_set, if_pos rfl, if_pos (lt hc)]
  · rw [if_neg hm, if_neg hm, Nat.zero_add]
    exact gen r.pending s.subs r hx hc (by omega) rfl

/-- A subscription with a queued message, and a closed client whose workers have ended. -/
def exSubClosed : List Label :=
  [.sub_repl (cKey 5) 4, .sub_multi (cKey 5) 4, .in_poll, .in_recv (some [0x00, 5, 1, 42]), .in_lookup, .close, .in_yield, .in_poll,
    .in_purge, .out_poll]

example : (run exCfg exSubClosed Client.new).map (fun s => (s.in_pc, s.out_pc, s.stopped, drain 0 2 s.subs, drainMulti 0 2 s.subs)) =
    some (.exited, .exited, true, [some (some ⟨⟨.Key1 ⟨5⟩, .Seq1 1⟩, [42]⟩), some none],
      [some (.Ok ⟨⟨.Key1 ⟨5⟩, .Seq1 1⟩, [42]⟩), some .IoClosed]) := by decide +kernel

/-! ### C39 -/

/-- Subscription `id` of topic `key` is live: it was not dropped, and messages of the topic are still sent to it. -/
def Live (s : Subs) (key : Key) (id : Nat) : Prop :=
  (key, id) ∈ s.exclusive_list ∧ ∃ c, s.chans[id]? = some c ∧ c.rx_alive = true

/-- C39: at most one exclusive subscription per topic is registered. -/
theorem c39_at_most_one {cfg : Cfg} {s : Client} (hr : Reachable cfg s) {key : Key} {a b : Nat}
    (ha : (key, a) ∈ s.subs.exclusive_list) (hb : (key, b) ∈ s.subs.exclusive_list) : a = b := by
  have := inj_of_nodup_map (reachable_einv hr).nd ha hb rfl
  exact (Prod.mk.inj this).2

/-- C39: a message is put into a subscription's queue only while it is the registered one of its topic, and not dropped. -/
theorem c39_only_registered_receive {cfg : Cfg} {s s' : Client} {l : Label} (hr : Reachable cfg s) (h : step cfg s l = some s')
    {id : Nat} {c c' : Chan} (hc : s.subs.chans[id]? = some c) (hc' : s'.subs.chans[id]? = some c')
    (hq : c.queue.length < c'.queue.length) : Live s.subs c.key id := by
  have inv := reachable_einv hr
  have key : ∀ a b : Exc, EStep a b → EInv a → a.ch[id]? = some c → b.ch[id]? = some c' →
      (c.key, id) ∈ a.xl ∧ c.rx_alive = true := by
    intro a b hs inv h1 h2
    have no : c' = c → (c.key, id) ∈ a.xl ∧ c.rx_alive = true := fun e => absurd hq (by rw [e]; omega)
    have set : ∀ {ch : List Chan} {i : Nat} {x y : Chan}, ch[id]? = some c → ch[i]? = some x → (ch.set i y)[id]? = some c' →
        (i = id ∧ x = c ∧ y = c') ∨ c' = c := by
      intro ch i x y e1 e2 e3
      rw [List.getElem?_set] at e3
      split at e3
      · rename_i e
        subst e
        split at e3
        · exact .inl ⟨rfl, Option.some.inj (e2.symm.trans e1), Option.some.inj e3⟩
        · cases e3
      · exact .inr (Option.some.inj (e3.symm.trans e1))
    have snoc : ∀ {ch : List Chan} {y : Chan}, ch[id]? = some c → (ch ++ [y])[id]? = some c' → c' = c := by
      intro ch y e1 e2
      have : id < ch.length := by
        rcases Nat.lt_or_ge id ch.length with h | h
        · exact h
        · rw [List.getElem?_eq_none h] at e1; cases e1
      rw [List.getElem?_append_left this] at e2
      exact Option.some.inj (e2.symm.trans e1)
    cases hs with
    | arriveOk a x ch f k i cc hf hcc ha =>
      rcases set h1 hcc h2 with ⟨rfl, rfl, rfl⟩ | e
      · have hm := List.mem_of_find?_eq_some hf
        obtain ⟨c0, g1, g2⟩ := inv.ent k i hm
        have e : c0 = cc := Option.some.inj (g1.symm.trans hcc)
        subst e
        exact ⟨by rw [g2]; exact hm, ha⟩
      · exact no e
    | waitOk a x ch f i cc hcc ha =>
      rcases set h1 hcc h2 with ⟨rfl, rfl, rfl⟩ | e
      · obtain ⟨k, hm, _, _⟩ := inv.pendOk f i rfl
        obtain ⟨c0, g1, g2⟩ := inv.ent k i hm
        have e : c0 = cc := Option.some.inj (g1.symm.trans hcc)
        subst e
        exact ⟨by rw [g2]; exact hm, ha⟩
      · exact no e
    | arriveDrop a x ch f k i cc hf hcc ha hfull =>
      rcases set h1 hcc h2 with ⟨rfl, rfl, rfl⟩ | e
      · exact absurd hq (by simp)
      · exact no e
    | waitDrop a x ch f i cc hcc =>
      rcases set h1 hcc h2 with ⟨rfl, rfl, rfl⟩ | e
      · exact absurd hq (by simp)
      · exact no e
    | recv a x ch p i cc f q hcc hqq =>
      rcases set h1 hcc h2 with ⟨rfl, rfl, rfl⟩ | e
      · rw [hqq, List.length_cons] at hq; exact absurd hq (by simp)
      · exact no e
    | dropRx a x ch p i cc hcc =>
      rcases set h1 hcc h2 with ⟨rfl, rfl, rfl⟩ | e
      · exact absurd hq (by simp)
      · exact no e
    | fresh => exact no (snoc h1 h2)
    | replace => exact no (snoc h1 h2)
    | _ => exact no (Option.some.inj (h2.symm.trans h1))
  obtain ⟨h1, h2⟩ := key _ _ (step_exc h) inv hc hc'
  exact ⟨h1, c, hc, h2⟩

/-- C39: on a running client a non-replacing subscribe fails with `AlreadySubscribed` exactly when a live exclusive
subscription of the topic exists, and succeeds otherwise (a queue of depth zero panics). -/
theorem c39_exclusive_refused_iff_live {cfg : Cfg} {s : Client} (hr : Reachable cfg s) (hs : s.subs.stopped = false) (key : Key)
    (depth : Nat) (hd : depth ≠ 0) :
    ((subscribe_inner_exclusive s.subs key depth).1 = .AlreadySubscribed ↔ ∃ id, Live s.subs key id) ∧
    ((¬ ∃ id, Live s.subs key id) → (subscribe_inner_exclusive s.subs key depth).1 = .Ok s.subs.chans.length) := by
  have inv := reachable_einv hr
  have hst : ¬ s.subs.stopped = true := by rw [hs]; simp
  cases hf : find_entry s.subs.exclusive_list key with
  | none =>
    have hno : ¬ ∃ id, Live s.subs key id := by
      rintro ⟨id, hl, _⟩
      exact find_entry_none hf (List.mem_map.mpr ⟨_, hl, rfl⟩)
    have : (subscribe_inner_exclusive s.subs key depth).1 = .Ok s.subs.chans.length := by
      simp [subscribe_inner_exclusive, hd, hst, hf]
    rw [this]
    exact ⟨⟨fun h => (by cases h), fun h => absurd h hno⟩, fun _ => rfl⟩
  | some old =>
    have hm := find_entry_some hf
    obtain ⟨c, hc, _⟩ := inv.ent key old hm
    have hc : s.subs.chans[old]? = some c := hc
    have hcl : s.subs.is_closed old = !c.rx_alive := by simp only [Subs.is_closed, hc]
    cases ha : c.rx_alive with
    | true =>
      have : (subscribe_inner_exclusive s.subs key depth).1 = .AlreadySubscribed := by
        simp [subscribe_inner_exclusive, hd, hst, hf, hcl, ha]
      have hl : ∃ id, Live s.subs key id := ⟨old, hm, c, hc, ha⟩
      exact ⟨⟨fun _ => hl, fun _ => this⟩, fun h => absurd hl h⟩
    | false =>
      have hno : ¬ ∃ id, Live s.subs key id := by
        rintro ⟨id, hl, c', hc', ha'⟩
        have e := c39_at_most_one hr hl hm
        subst e
        rw [hc] at hc'; cases hc'
        rw [ha] at ha'; cases ha'
      have : (subscribe_inner_exclusive s.subs key depth).1 = .Ok s.subs.chans.length := by
        simp [subscribe_inner_exclusive, hd, hst, hf, hcl, ha]
      rw [this]
      exact ⟨⟨fun h => (by cases h), fun h => absurd h hno⟩, fun _ => rfl⟩

/-- C39: a replacing subscribe always succeeds on a running client; the new subscription is live and any previous one of
the topic is not registered any more, so it returns what it had queued and then the end. -/
theorem c39_replace_ends_previous {cfg : Cfg} {s : Client} (hr : Reachable cfg s) (hs : s.subs.stopped = false) (key : Key)
    (depth : Nat) (hd : depth ≠ 0) :
    (subscribe_inner s.subs key depth).1 = .Ok s.subs.chans.length ∧
    Live (subscribe_inner s.subs key depth).2 key s.subs.chans.length ∧
    (∀ id, (key, id) ∈ (subscribe_inner s.subs key depth).2.exclusive_list → id = s.subs.chans.length) ∧
    (∀ id c, s.subs.chans[id]? = some c → c.key = key →
      drain id (c.queue.length + 1) (subscribe_inner s.subs key depth).2 = c.queue.map (fun f => some (some f)) ++ [some none]) := by
  have inv := reachable_einv hr
  have hst : ¬ s.subs.stopped = true := by rw [hs]; simp
  have hnd : (s.subs.exclusive_list.map Prod.fst).Nodup := inv.nd
  have hent : ∀ k (i : Nat), (k, i) ∈ s.subs.exclusive_list → ∃ c, s.subs.chans[i]? = some c ∧ c.key = k := inv.ent
  -- the new table
  have tab : ∃ xl, subscribe_inner s.subs key depth = (.Ok s.subs.chans.length,
      { s.subs with chans := s.subs.chans ++ [Chan.new key depth s.subs.arrived.length], exclusive_list := xl }) ∧
      (key, s.subs.chans.length) ∈ xl ∧
      ∀ k id, (k, id) ∈ xl → (k = key ∧ id = s.subs.chans.length) ∨ (k ≠ key ∧ (k, id) ∈ s.subs.exclusive_list) := by
    cases hf : find_entry s.subs.exclusive_list key with
    | none =>
      refine ⟨s.subs.exclusive_list ++ [(key, s.subs.chans.length)], by simp [subscribe_inner, hd, hst, hf], by simp, ?_⟩
      intro k id hm
      rcases List.mem_append.mp hm with hm | hm
      · refine .inr ⟨?_, hm⟩
        intro e
        rw [e] at hm
        exact find_entry_none hf (List.mem_map.mpr ⟨(key, id), hm, rfl⟩)
      · simp only [List.mem_singleton, Prod.mk.injEq] at hm
        exact .inl hm
    | some old =>
      have hm := find_entry_some hf
      refine ⟨set_entry key s.subs.chans.length s.subs.exclusive_list, by simp [subscribe_inner, hd, hst, hf],
        set_entry_here (List.mem_map.mpr ⟨_, hm, rfl⟩), fun k id h => ?_⟩
      exact set_entry_mem hnd h
  obtain ⟨xl, e, hin, hxl⟩ := tab
  rw [e]
  refine ⟨rfl, ⟨hin, _, List.getElem?_concat_length, rfl⟩, fun id hid => ?_, fun id c hc hk => ?_⟩
  · rcases hxl key id hid with ⟨_, h⟩ | ⟨h, _⟩
    · exact h
    · exact absurd rfl h
  · have hlt : id < s.subs.chans.length := by
      rcases Nat.lt_or_ge id s.subs.chans.length with h | h
      · exact h
      · rw [List.getElem?_eq_none h] at hc; cases hc
    -- the old channel has no entry in the new table
    have hno : ∀ k, (k, id) ∉ xl := by
      intro k hm
      rcases hxl k id hm with ⟨_, h⟩ | ⟨h1, h2⟩
      · omega
      · obtain ⟨c', g1, g2⟩ := hent k id h2
        rw [hc] at g1; cases g1
        exact h1 (g2.symm.trans hk)
    refine drain_unregistered c.queue _ c hno ?_ rfl
    simp only
    rw [List.getElem?_append_left hlt]
    exact hc

/-- Subscribing twice: refused while the first lives, replaced, and allowed again after a drop. -/
def exSubTwice : List Label := [.sub_excl (cKey 5) 4, .sub_excl (cKey 6) 4, .drop_excl 1]

example : (run exCfg exSubTwice Client.new).map (fun s => (s.subs.stopped, (subscribe_inner_exclusive s.subs (cKey 5) 2).1,
    (subscribe_inner_exclusive s.subs (cKey 6) 2).1, (subscribe_inner s.subs (cKey 5) 2).1, (subscribe_inner s.subs (cKey 5) 2).2.exclusive_list)) =
    some (false, .AlreadySubscribed, .Ok 2, .Ok 2, [(cKey 5, 2), (cKey 6, 1)]) := by decide +kernel

/-! ### C40 -/

/-- C40 (arrivals): the frames looked up are, in order, a beginning of the well-formed frames the transport delivered;
while the receive worker runs at most the one being processed is missing. -/
theorem c40_arrivals {cfg : Cfg} {ls : List Label} {s : Client} (h : run cfg ls Client.new = some s) :
    s.subs.arrived <+: heard ls ∧
      (s.in_pc ≠ .purge → s.in_pc ≠ .exited → (∀ f, s.in_pc ≠ .lookup f) → s.subs.arrived = heard ls) := by
  obtain ⟨h1, h2⟩ := run_arr ls Client.new s [] h (List.prefix_refl _) (fun _ => rfl)
  refine ⟨h1, fun n1 n2 n3 => ?_⟩
  have ho : s.in_pc.over = false := by
    cases hp : s.in_pc with
    | purge => exact absurd hp n1
    | exited => exact absurd hp n2
    | _ => rfl
  have := h2 ho
  rw [Client.arrNow] at this
  cases hp : s.in_pc with
  | lookup f => exact absurd hp (n3 f)
  | _ => rw [hp] at this; simpa using this

/-- C40 (the start): a new subscription of each kind starts at the present end of the arrivals, with nothing received. -/
theorem c40_starts_now (s : Subs) (key : Key) (depth id : Nat) :
    ((subscribe_inner s key depth).1 = .Ok id → ∃ c, (subscribe_inner s key depth).2.chans[id]? = some c ∧
      c.key = key ∧ c.since = s.arrived.length ∧ c.got = [] ∧ c.queue = []) ∧
    ((subscribe_inner_exclusive s key depth).1 = .Ok id → ∃ c, (subscribe_inner_exclusive s key depth).2.chans[id]? = some c ∧
      c.key = key ∧ c.since = s.arrived.length ∧ c.got = [] ∧ c.queue = []) ∧
    ((subscribe_multi_inner s key depth).1 = .Ok id → ∃ r, (subscribe_multi_inner s key depth).2.brxs[id]? = some r ∧
      r.key = key ∧ r.since = s.arrived.length ∧ r.got = [] ∧ r.pending = [] ∧ r.missed = 0) := by
  refine ⟨fun h => ⟨Chan.new key depth s.arrived.length, ?_, rfl, rfl, rfl, rfl⟩,
    fun h => ⟨Chan.new key depth s.arrived.length, ?_, rfl, rfl, rfl, rfl⟩, fun h => ?_⟩
  · simp only [subscribe_inner] at h ⊢
    split at h
    · cases h
    · split at h
      · cases h
      · rename_i h1 h2
        simp only [h1, h2, if_false]
        split at h <;> cases h <;> simp
  · simp only [subscribe_inner_exclusive] at h ⊢
    split at h
    · cases h
    · split at h
      · cases h
      · rename_i h1 h2
        simp only [h1, h2, if_false]
        split at h
        · split at h
          · cases h
          · rename_i h3 h4
            cases h
            simp [h4]
        · rename_i h3
          cases h
          simp
  · simp only [subscribe_multi_inner] at h ⊢
    split at h
    · cases h
    · rename_i h1
      simp only [h1]
      split at h
      · cases h
        simp
      · split at h
        · cases h
        · rename_i h2 h3
          cases h
          simp [h3]

/-- C40 (order): what an exclusive subscription returned so far, followed by what it has queued, is a subsequence of the
frames of its topic that arrived since it was made: in order and without duplicates. -/
theorem c40_delivery_order {cfg : Cfg} {ls : List Label} {s : Client} (h : run cfg ls Client.new = some s) {id : Nat} {c : Chan}
    (hc : s.subs.chans[id]? = some c) :
    (received cfg id ls Client.new ++ c.queue).Sublist (topicPart c.key c.since s.subs.arrived) := by
  have hg := run_gotL ls Client.new s h id
  have h0 : Client.new.subs.gotL id = [] := by simp [Client.new, Subs.new, Subs.gotL]
  rw [h0, List.nil_append, Subs.gotL, hc] at hg
  simp only [Option.map_some, Option.getD_some] at hg
  rw [← hg, ← topicFrames_eq]
  have := (reachable_einv ⟨ls, h⟩).sub id c hc
  refine List.Sublist.trans ?_ this
  exact List.Sublist.append_left (List.sublist_append_left _ _) _

/-- C40 (order), multi-subscriptions. -/
theorem c40_multi_delivery_order {cfg : Cfg} {ls : List Label} {s : Client} (h : run cfg ls Client.new = some s) {id : Nat} {r : BRx}
    (hr : s.subs.brxs[id]? = some r) :
    (receivedMulti cfg id ls Client.new ++ r.pending).Sublist (topicPart r.key r.since s.subs.arrived) := by
  have hg := run_gotM ls Client.new s h id
  have h0 : Client.new.subs.gotM id = [] := by simp [Client.new, Subs.new, Subs.gotM]
  rw [h0, List.nil_append, Subs.gotM, hr] at hg
  simp only [Option.map_some, Option.getD_some] at hg
  rw [← hg, ← topicFrames_eq]
  exact (reachable_bcinv ⟨ls, h⟩).1.sub r (List.mem_iff_getElem?.mpr ⟨id, hr⟩)

/-- The message the receive worker is holding for subscription `id` while it waits for room in its queue. -/
def waitingFor (s : Client) (id : Nat) : List RpcFrame :=
  match s.in_pc with
  | .full f i _ => if i = id then [f] else []
  | _ => []

/-- The subscription was not dropped, not replaced by a later one of the same topic, and the receive worker runs. -/
structure Undisturbed (s : Client) (id : Nat) (c : Chan) : Prop where
  here : s.subs.chans[id]? = some c
  alive : c.rx_alive = true
  last : ∀ (j : Nat) cj, id < j → s.subs.chans[j]? = some cj → cj.key ≠ c.key
  running : s.in_pc ≠ .purge ∧ s.in_pc ≠ .exited

/-- C40 (completeness): an undisturbed subscription for which no message was thrown away because its queue was full gets
all frames of its topic. -/
def c40_statement : Prop :=
  ∀ (cfg : Cfg) (ls : List Label) (s : Client) (id : Nat) (c : Chan), run cfg ls Client.new = some s → Undisturbed s id c →
    c.dropped = false →
    received cfg id ls Client.new ++ c.queue ++ waitingFor s id = topicPart c.key c.since s.subs.arrived

/-- Two topics whose keys agree in their 1-byte form; the server uses 1-byte keys. -/
def exCollide : List Label :=
  [.sub_repl (cKey 5) 4, .sub_repl ⟨5, 0, 0, 0, 0, 0, 0, 0⟩ 4, .in_poll, .in_recv (some [0x00, 5, 1, 42]), .in_lookup, .in_yield]

/-- C40 is false as stated: of two subscribed topics whose short keys agree only the first subscribed gets the messages. -/
theorem c40_all_delivered_false : ¬ c40_statement := by
  intro h
  have h1 : (run exCfg exCollide Client.new).map (fun s => (s.subs.chans[1]?, s.subs.chans.length, s.in_pc, s.subs.arrived)) =
      some (some ⟨⟨5, 0, 0, 0, 0, 0, 0, 0⟩, 4, [], true, 0, [], false⟩, 2, .recv, [⟨⟨.Key1 ⟨5⟩, .Seq1 1⟩, [42]⟩]) := by
    decide +kernel
  obtain ⟨s, e1, e2⟩ := Option.map_eq_some_iff.mp h1
  simp only [Prod.mk.injEq] at e2
  obtain ⟨e2, e3, e4, e5⟩ := e2
  have := h exCfg exCollide s 1 _ e1 ⟨e2, rfl, fun j cj hj hc => ?_, by rw [e4]; exact ⟨by simp, by simp⟩⟩ rfl
  · rw [waitingFor, e4, e5] at this
    have h2 : received exCfg 1 exCollide Client.new = [] := by decide +kernel
    rw [h2] at this
    revert this
    decide +kernel
  · rw [List.getElem?_eq_none (by omega)] at hc; cases hc

/-- No frame that arrived is of two different topics that were subscribed to. -/
def NoShared (s : Client) : Prop := ∀ f ∈ s.subs.arrived, ∀ c1 ∈ s.subs.chans, ∀ c2 ∈ s.subs.chans,
  OfTopic c1.key f → OfTopic c2.key f → c1.key = c2.key

theorem noCol_of_noShared {s : Client} (h : NoShared s) : NoCol s.exc := by
  intro f hf c1 h1 c2 h2 m1 m2
  rw [match_topic, decide_eq_true_eq] at m1 m2
  exact h f hf c1 h1 c2 h2 m1 m2

/-- C40, completeness, when no arriving frame is of two subscribed topics.  Missing: topics whose short keys agree. -/
theorem c40_all_delivered_partial {cfg : Cfg} {ls : List Label} {s : Client} {id : Nat} {c : Chan} (h : run cfg ls Client.new = some s)
    (hu : Undisturbed s id c) (hd : c.dropped = false) (hn : NoShared s) :
    received cfg id ls Client.new ++ c.queue ++ waitingFor s id = topicPart c.key c.since s.subs.arrived := by
  have hr : Reachable cfg s := ⟨ls, h⟩
  have nc := noCol_of_noShared hn
  have ho : s.exc.over = false := by
    change s.in_pc.over = false
    cases hp : s.in_pc with
    | purge => exact absurd hp hu.running.1
    | exited => exact absurd hp hu.running.2
    | _ => rfl
  have hreg : (c.key, id) ∈ s.exc.xl := by
    rcases reachable_regInv hr nc ho id c hu.here hu.alive with ⟨j, cj, h1, h2, h3⟩ | h
    · exact absurd h3 (hu.last j cj h1 h2)
    · exact h
  have heq := (reachable_cinv hr).eq nc ho c.key id c hreg hu.here hd hu.alive
  have hg := run_gotL ls Client.new s h id
  have h0 : Client.new.subs.gotL id = [] := by simp [Client.new, Subs.new, Subs.gotL]
  rw [h0, List.nil_append, Subs.gotL, hu.here] at hg
  simp only [Option.map_some, Option.getD_some] at hg
  have hw : waitingFor s id = pendOf s.exc.pend id := by
    change _ = pendOf s.in_pc.pend id
    rw [waitingFor]
    cases s.in_pc <;> rfl
  rw [← hg, ← topicFrames_eq, hw, List.append_assoc]
  exact heq

/-- C40, completeness, for subscriptions that ended (replaced, or the worker ended): they get a beginning of what arrived. -/
theorem c40_prefix_delivered_partial {cfg : Cfg} {ls : List Label} {s : Client} {id : Nat} {c : Chan} (h : run cfg ls Client.new = some s)
    (hc : s.subs.chans[id]? = some c) (hd : c.dropped = false) (hn : NoShared s) :
    received cfg id ls Client.new <+: topicPart c.key c.since s.subs.arrived := by
  have hg := run_gotL ls Client.new s h id
  have h0 : Client.new.subs.gotL id = [] := by simp [Client.new, Subs.new, Subs.gotL]
  rw [h0, List.nil_append, Subs.gotL, hc] at hg
  simp only [Option.map_some, Option.getD_some] at hg
  rw [← hg, ← topicFrames_eq]
  exact (reachable_cinv ⟨ls, h⟩).preD (noCol_of_noShared hn) id c hc hd

/-- No frame that arrived is of two different topics with multi-subscriptions. -/
def NoSharedMulti (s : Client) : Prop := ∀ f ∈ s.subs.arrived, ∀ r1 ∈ s.subs.brxs, ∀ r2 ∈ s.subs.brxs,
  OfTopic r1.key f → OfTopic r2.key f → r1.key = r2.key

theorem noColB_of {s : Client} (h : NoSharedMulti s) : NoColB s.bc := by
  intro f hf c1 h1 c2 h2 m1 m2
  rw [match_topic, decide_eq_true_eq] at m1 m2
  exact h f hf c1 h1 c2 h2 m1 m2

/-- C40, completeness, multi-subscriptions: received, pending and lost messages together are all frames of the topic since
it was made; the lost ones are reported through `Lagged` (up to those in `missed`, still to be reported). -/
theorem c40_multi_all_accounted_partial {cfg : Cfg} {ls : List Label} {s : Client} {id : Nat} {r : BRx}
    (h : run cfg ls Client.new = some s) (hr : s.subs.brxs[id]? = some r) (ha : r.alive = true) (hn : NoSharedMulti s) :
    (receivedMulti cfg id ls Client.new).length + r.pending.length + r.lost = (topicPart r.key r.since s.subs.arrived).length ∧
      (r.lost = 0 → receivedMulti cfg id ls Client.new ++ r.pending = topicPart r.key r.since s.subs.arrived) := by
  have inv := reachable_bcinv ⟨ls, h⟩
  have hm : r ∈ s.subs.brxs := List.mem_iff_getElem?.mpr ⟨id, hr⟩
  have hg := run_gotM ls Client.new s h id
  have h0 : Client.new.subs.gotM id = [] := by simp [Client.new, Subs.new, Subs.gotM]
  rw [h0, List.nil_append, Subs.gotM, hr] at hg
  simp only [Option.map_some, Option.getD_some] at hg
  rw [← hg, ← topicFrames_eq]
  have hcount := inv.2.count (noColB_of hn) r hm ha
  refine ⟨hcount, fun hl => ?_⟩
  refine List.Sublist.eq_of_length (inv.1.sub r hm) ?_
  rw [List.length_append, ← show s.bc.arr = s.subs.arrived from rfl] 
  omega

/-- Two topics with exclusive subscriptions and a multi-subscription; messages of both arrive and are received. -/
def exDeliver : List Label :=
  [.sub_repl (cKey 5) 4, .sub_repl (cKey 6) 4, .sub_multi (cKey 6) 4, .in_poll, .in_recv (some [0x00, 5, 1, 42]), .in_lookup,
    .in_recv (some [0x00, 6, 1, 43]), .in_lookup, .in_recv (some [0x40, 0, 5, 1, 44]), .in_lookup, .in_yield, .recv_excl 0,
    .recv_multi 0]

example : (run exCfg exDeliver Client.new).map (fun s => (s.in_pc, s.subs.chans.map fun c => (c.rx_alive, c.dropped, c.queue.length))) =
    some (.recv, [(true, false, 1), (true, false, 1)]) ∧
    received exCfg 0 exDeliver Client.new = [⟨⟨.Key1 ⟨5⟩, .Seq1 1⟩, [42]⟩] ∧
    receivedMulti exCfg 0 exDeliver Client.new = [⟨⟨.Key1 ⟨6⟩, .Seq1 1⟩, [43]⟩] ∧
    (heard exDeliver).map (fun f => f.body) = [[42], [43], [44]] := by decide +kernel

example : ∃ s, run exCfg exDeliver Client.new = some s ∧ NoShared s ∧ NoSharedMulti s ∧ ∃ c, Undisturbed s 0 c ∧ c.dropped = false := by
  have h1 : (run exCfg exDeliver Client.new).map (fun s => (s.in_pc, s.subs.chans, s.subs.brxs.map BRx.key, s.subs.arrived)) =
      some (.recv, [⟨cKey 5, 4, [⟨⟨.Key2 ⟨0, 5⟩, .Seq1 1⟩, [44]⟩], true, 0, [⟨⟨.Key1 ⟨5⟩, .Seq1 1⟩, [42]⟩], false⟩,
        ⟨cKey 6, 4, [⟨⟨.Key1 ⟨6⟩, .Seq1 1⟩, [43]⟩], true, 0, [], false⟩], [cKey 6],
        [⟨⟨.Key1 ⟨5⟩, .Seq1 1⟩, [42]⟩, ⟨⟨.Key1 ⟨6⟩, .Seq1 1⟩, [43]⟩, ⟨⟨.Key2 ⟨0, 5⟩, .Seq1 1⟩, [44]⟩]) := by decide +kernel
  obtain ⟨s, e1, e2⟩ := Option.map_eq_some_iff.mp h1
  simp only [Prod.mk.injEq] at e2
  obtain ⟨e2, e3, e4, e5⟩ := e2
  refine ⟨s, e1, ?_, ?_, ⟨cKey 5, 4, [⟨⟨.Key2 ⟨0, 5⟩, .Seq1 1⟩, [44]⟩], true, 0, [⟨⟨.Key1 ⟨5⟩, .Seq1 1⟩, [42]⟩], false⟩,
    ⟨by rw [e3]; rfl, rfl, fun j cj hj hc => ?_, by rw [e2]; exact ⟨by simp, by simp⟩⟩, rfl⟩
  · unfold NoShared; rw [e3, e5]; decide +kernel
  · intro f hf r1 h1 r2 h2 _ _
    have k : ∀ r ∈ s.subs.brxs, r.key = cKey 6 := by
      intro r hr
      have : r.key ∈ s.subs.brxs.map BRx.key := List.mem_map.mpr ⟨r, hr, rfl⟩
      rw [e4] at this
      simpa using this
    rw [k r1 h1, k r2 h2]
  · rw [e3] at hc
    match j, hj, hc with
    | 1, _, hc => cases hc; decide
    | j + 2, _, hc => simp at hc

/-! ### C41 -/

/-- C41: after the receive worker has ended, whatever happens, no subscription is registered and every attempt to subscribe
is refused without changing anything (a queue of depth zero panics before that). -/
theorem c41_no_subscription_outlives {cfg : Cfg} {ls : List Label} {s s' : Client} (hr : Reachable cfg s) (he : s.in_pc = .exited)
    (h : run cfg ls s = some s') :
    s'.subs.exclusive_list = [] ∧ s'.subs.broadcast_list = [] ∧
    ∀ (key : Key) (depth : Nat), depth ≠ 0 →
      subscribe_inner s'.subs key depth = (.IoClosed, s'.subs) ∧
      subscribe_inner_exclusive s'.subs key depth = (.IoClosed, s'.subs) ∧
      subscribe_multi_inner s'.subs key depth = (.IoClosed, s'.subs) := by
  have hx : s'.in_pc = .exited := by
    refine run_induct (fun t => t.in_pc = .exited) (fun a l b h1 h2 => ?_) ls s s' he h
    cases l with
    | _ =>
      simp only [step, send_resp_begin, call_reg_ok, call_reg_err, call_send, call_take, publish_raw_begin, pub_send,
        out_poll, out_recv, out_done, in_poll, in_recv, in_lookup, in_full_send, in_full_timeout, after_lookup, in_wake,
        Client.set_phase, Client.drop_waits] at h2
      repeat' split at h2
      all_goals first
        | (cases h2; done)
        | (cases h2; exact h1)
        | (cases h2; split <;> exact h1)
        | (simp_all; done)
  have inv := reachable_purgeInv (run_reachable hr h)
  have hst := inv.iff.mpr hx
  obtain ⟨h1, h2⟩ := inv.empty hst
  refine ⟨h1, h2, fun key depth hd => ⟨?_, ?_, ?_⟩⟩
  · simp [subscribe_inner, hd, hst]
  · simp [subscribe_inner_exclusive, hd, hst]
  · simp [subscribe_multi_inner, hst]

/-- C41 (racing with the shutdown): a subscription made while the worker shuts down is gone once it has ended, and its
receiver sees the end. -/
theorem c41_racing_subscription_ends {cfg : Cfg} {ls : List Label} {s s1 s2 : Client} {key : Key} {depth id : Nat} (hr : Reachable cfg s)
    (hid : (subscribe_inner s.subs key depth).1 = .Ok id) (h1 : step cfg s (.sub_repl key depth) = some s1)
    (h2 : run cfg ls s1 = some s2) (he : s2.in_pc = .exited) :
    ∃ c, s2.subs.chans[id]? = some c ∧
      drain id (c.queue.length + 1) s2.subs = c.queue.map (fun f => some (some f)) ++ [some none] := by
  have len : ∀ (ls : List Label) (a b : Client), run cfg ls a = some b → a.subs.chans.length ≤ b.subs.chans.length := by
    intro ls a b h
    refine run_induct (fun t => a.subs.chans.length ≤ t.subs.chans.length) (fun x l y g1 g2 => ?_) ls a b (Nat.le_refl _) h
    refine Nat.le_trans g1 ?_
    have gen : ∀ a b : Exc, EStep a b → a.ch.length ≤ b.ch.length := by
      intro a b he
      cases he <;> simp
    exact gen _ _ (step_exc g2)
  have hlt : id < s1.subs.chans.length := by
    simp only [step] at h1
    split at h1
    · cases h1
      simp only [subscribe_inner] at hid ⊢
      split at hid
      · cases hid
      · split at hid
        · cases hid
        · rename_i g1 g2
          simp only [g1, g2, if_false]
          split at hid <;> cases hid <;> simp
    · cases h1
  have hlt2 := Nat.lt_of_lt_of_le hlt (len ls s1 s2 h2)
  refine ⟨s2.subs.chans[id], List.getElem?_eq_getElem hlt2, ?_⟩
  exact c38_subscription_drains (run_reachable (reachable_step hr h1) h2) he (List.getElem?_eq_getElem hlt2)

/-- The stop has been noticed, a subscription is made before the clean-up, and the clean-up runs. -/
example : (run exCfg [.close, .in_poll, .sub_repl (cKey 5) 2, .in_purge] Client.new).map
    (fun s => (s.in_pc, s.subs.chans.length, s.subs.exclusive_list, drain 0 1 s.subs, (subscribe_inner s.subs (cKey 5) 2).1)) =
    some (.exited, 1, [], [some none], .IoClosed) := by decide +kernel

end PRpc.Props
