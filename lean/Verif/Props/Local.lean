import Verif.Lemmas.Local
import Verif.Props.Progress
import Verif.Props.ClientSubs
/-! C80: a client joined to the fake server of the test utilities. -/

namespace PRpc.Props

open PRpc.Spec

/-- C80: `local_setup` panics with a bound of 0 and otherwise gives a client that sends two-byte sequence numbers at most, holds at
most `bound` frames in its queue and drops what a full subscription cannot take. -/
theorem c80_setup (bound : Nat) (err_key : Key) :
    (bound = 0 → local_setup bound err_key = .panic) ∧
    (bound ≠ 0 → ∃ cfg, local_setup bound err_key = .ok (cfg, Local.new) ∧ cfg.seq_kind = .Seq2 ∧ cfg.err_key = err_key ∧
      cfg.outgoing_depth = bound ∧ cfg.zero = true) := by
  refine ⟨fun h => by simp [local_setup, h], fun h => ⟨_, by rw [local_setup, if_neg h], rfl, rfl, rfl, rfl⟩⟩

example : ∃ cfg, local_setup 4 (cKey 9) = .ok (cfg, Local.new) ∧ cfg.outgoing_depth = 4 := ⟨_, rfl, rfl⟩

/-- C80: what the client does in the pair it could do by itself, so every property of clients applies to it. -/
theorem c80_client_is_a_client {cfg : Cfg} {bound : Nat} {ls : List LLabel} {s : Local} (h : l_run cfg bound ls Local.new = some s) :
    run cfg (clientRun ls) Client.new = some s.client := l_run_client h

/-- A configuration, and a call answered by the server through the pair. -/
def exLCfg : Cfg := ⟨.Seq2, cKey 9, 2, true⟩

/-- The reply of the example. -/
def exLReply : SrvOp := .reply 0#32 (cKey 2) [7]

/-- Its bytes. -/
def exLBytes : Bytes := match exLReply.bytes with
  | .ok b => b
  | .panic => []

/-- The call goes out. -/
def exLCall : List LLabel :=
  [.client (.call_begin (cKey 1) (cKey 2) [5]), .client (.call_kind 0), .client (.call_reg_ok 0), .client (.call_reg_err 0),
   .client (.call_send 0), .client .out_poll, .client .out_recv, .tx_check, .tx_ok, .srv_recv, .srv_send exLReply]

/-- The answer comes in. -/
def exLAnswer : List LLabel :=
  [.client .in_poll, .rx_check, .rx_msg exLBytes, .client .in_lookup, .client (.in_wake (some ⟨0, false⟩)), .client (.call_ok 0)]

set_option synthInstance.maxSize 1000 in
theorem exL_runs : (l_run exLCfg 2 (exLCall ++ exLAnswer) Local.new).map (fun s => (s.client.calls.map result, s.up, s.down)) =
    some ([some (false, ⟨⟨.Key8 (cKey 2), .Seq4 0#32⟩, [7]⟩, 0)], [], []) := by decide +kernel

theorem exL_got : srvGot exLCfg 2 (exLCall ++ exLAnswer) Local.new = [.ok ⟨⟨.Key8 (cKey 1), .Seq4 0#32⟩, [5]⟩] ∧
    srvSaid exLCfg 2 (exLCall ++ exLAnswer) Local.new = [exLReply] := by
  refine ⟨?_, by decide +kernel⟩
  rfl

example : ∃ s, l_run exLCfg 2 (exLCall ++ exLAnswer) Local.new = some s ∧
    run exLCfg (clientRun (exLCall ++ exLAnswer)) Client.new = some s.client := by
  obtain ⟨s, h, _⟩ := Option.map_eq_some_iff.mp exL_runs
  exact ⟨s, h, c80_client_is_a_client h⟩

/-- C80: the server receives the frames the client's queue accepted, in order, each once; never is one malformed.  When the
channel is empty and the client's transmit worker has ended it is told that the channel is closed, and nothing after that. -/
theorem c80_server_receives {cfg : Cfg} {bound : Nat} {ls : List LLabel} {s : Local} (h : l_run cfg bound ls Local.new = some s) :
    ∃ n m, srvGot cfg bound ls Local.new = (s.client.enq.take n).map .ok ++ List.replicate m (.error .TxClosed) ∧
      n + s.up.length ≤ s.client.enq.length ∧ (0 < m → s.up = [] ∧ s.client.out_pc = .exited) ∧ s.up.length ≤ bound := by
  obtain ⟨hb, m, i1, i2, i3, i4, i5, i6⟩ := l_upInv h
  obtain ⟨o1, o2, _⟩ := c48_submission_order (l_reachable h)
  obtain ⟨rest0, hrest⟩ := i3
  have hlen : hb.length ≤ s.client.tx.length := by rw [← hrest]; simp
  refine ⟨hb.length, m, ?_, ?_, i2, i4⟩
  · rw [i1]
    congr 1
    apply List.ext_getElem?
    intro i
    rw [List.getElem?_map, List.getElem?_map, List.getElem?_take]
    split
    · rename_i hi
      have hbi : hb[i]? = some hb[i] := List.getElem?_eq_getElem hi
      have ht : s.client.tx[i]? = some hb[i] := by rw [← hrest, List.getElem?_append_left hi, hbi]
      obtain ⟨f, hf1, hf2⟩ := o2 i _ ht
      rw [hbi, hf1]
      simp only [Option.map_some, decB, (isFrame_iff _ _ _).mp hf2]
    · rename_i hi
      rw [List.getElem?_eq_none (by omega)]
      rfl
  · cases hx : s.srv_rx with
    | false => rw [i5 hx]; simp only [List.length_nil]; omega
    | true =>
      obtain ⟨rest, r1, _⟩ := i6 hx
      have := congrArg List.length r1
      simp only [List.length_append] at this
      omega

/-- The server of the example received the one frame. -/
example : ∃ s n m, l_run exLCfg 2 (exLCall ++ exLAnswer) Local.new = some s ∧
    ([.ok ⟨⟨.Key8 (cKey 1), .Seq4 0#32⟩, [5]⟩] : List (Except LocalErr RpcFrame)) =
      (s.client.enq.take n).map .ok ++ List.replicate m (.error LocalErr.TxClosed) := by
  obtain ⟨s, h, _⟩ := Option.map_eq_some_iff.mp exL_runs
  obtain ⟨n, m, h1, _⟩ := c80_server_receives h
  rw [exL_got.1] at h1
  exact ⟨s, n, m, h, h1⟩

/-- C80: the client's transport delivers what the server said, in order; what is missing is on the channel, which holds at most
`bound` messages. -/
theorem c80_client_receives {cfg : Cfg} {bound : Nat} {ls : List LLabel} {s : Local} (h : l_run cfg bound ls Local.new = some s) :
    ∃ pending, heard (clientRun ls) ++ pending = (srvSaid cfg bound ls Local.new).filterMap opFrame ∧
      pending.length ≤ s.down.length ∧ s.down.length ≤ bound :=
  ⟨_, (l_downInv h).1, List.length_filterMap_le _ _, (l_downInv h).2⟩

example : ∃ s, l_run exLCfg 2 (exLCall ++ exLAnswer) Local.new = some s ∧ s.down = [] ∧
    (srvSaid exLCfg 2 (exLCall ++ exLAnswer) Local.new).filterMap opFrame = [⟨⟨.Key8 (cKey 2), .Seq4 0#32⟩, [7]⟩] := by
  obtain ⟨s, h, e⟩ := Option.map_eq_some_iff.mp exL_runs
  exact ⟨s, h, (Prod.ext_iff.mp (Prod.ext_iff.mp e).2).2, by rw [exL_got.2]; rfl⟩

/-- C80: a call that ended with a frame ended with one the server sent, with the call's sequence number and response (or error)
key. -/
theorem c80_call_answered {cfg : Cfg} {bound : Nat} {ls : List LLabel} {s : Local} (h : l_run cfg bound ls Local.new = some s)
    {c : Nat} {cl : Call} {err : Bool} {f : RpcFrame} {i : Nat} (hc : s.client.calls[c]? = some cl) (hd : result cl = some (err, f, i)) :
    (∃ op ∈ srvSaid cfg bound ls Local.new, opFrame op = some f) ∧
    (∃ k, Answers (keyLen k) (wantKey cfg cl err) cl.rqst.header f.header) ∧
    ((∀ op ∈ srvSaid cfg bound ls Local.new, ∀ b, op ≠ .raw b) →
      ∃ op ∈ srvSaid cfg bound ls Local.new, Sends op (wantKey cfg cl err) f ∧ seqVal f.header.seq_no = seqVal cl.rqst.header.seq_no) := by
  have hr := l_reachable h
  obtain ⟨h1, _, h3⟩ := c36_completed_by_matching_frame hr hc hd
  have hs := (l_holds h).2
  refine ⟨hs f (List.mem_iff_getElem?.mpr ⟨i, h1⟩), h3, fun hraw => ?_⟩
  have shape : ∀ op ∈ srvSaid cfg bound ls Local.new, ∀ g, opFrame op = some g →
      ∃ key seq data, (op = .reply seq key data ∨ op = .publish seq key data) ∧ g = ⟨⟨.Key8 key, .Seq4 seq⟩, data⟩ := by
    intro op hop g hg
    cases op with
    | reply seq key data => cases hg; exact ⟨key, seq, data, .inl rfl, rfl⟩
    | publish seq key data => cases hg; exact ⟨key, seq, data, .inr rfl, rfl⟩
    | raw b => exact absurd rfl (hraw _ hop b)
  have hcons : Consist .Key8 s.client := by
    intro c' cl' err' f' i' g1 g2
    obtain ⟨g3, _⟩ := c36_completed_by_matching_frame hr g1 (by rw [result_eq]; exact g2)
    obtain ⟨op, g4, g5⟩ := hs f' (List.mem_iff_getElem?.mpr ⟨i', g3⟩)
    obtain ⟨key, seq, data, _, rfl⟩ := shape op g4 f' g5
    rfl
  obtain ⟨k, hk, ha⟩ := reachable_answered hr hcons hc (by rw [← result_eq]; exact hd)
  have hk : k = .Key8 := by rcases hk with h | h <;> exact h
  subst hk
  obtain ⟨op, g4, g5⟩ := hs f (List.mem_iff_getElem?.mpr ⟨i, h1⟩)
  obtain ⟨key, seq, data, g6, rfl⟩ := shape op g4 f g5
  refine ⟨op, g4, ⟨seq, data, ?_⟩, ha.seq⟩
  have hkey : key = wantKey cfg cl err := by
    have := ha.key
    have hl : (keyBytes (VarKey.Key8 key)).length = 8 := rfl
    rw [KeyAgrees] at this
    simp only [hl] at this
    have e : min (keyLen .Key8) 8 = 8 := rfl
    rw [e, short_eight] at this
    have e2 : fold 8 (keyBytes (VarKey.Key8 key)) = short 8 key := rfl
    rw [e2, short_eight] at this
    simp only [Key.to_bytes, List.cons.injEq] at this
    obtain ⟨a1, a2, a3, a4, a5, a6, a7, a8, _⟩ := this
    cases key; cases hw : wantKey cfg cl err
    rw [hw] at a1 a2 a3 a4 a5 a6 a7 a8
    simp only at a1 a2 a3 a4 a5 a6 a7 a8
    rw [a1, a2, a3, a4, a5, a6, a7, a8]
  rw [hkey] at g6
  exact ⟨g6, by rw [hkey]⟩

/-- The call of the example ended with the reply; nothing raw was sent. -/
example : ∃ s cl f, l_run exLCfg 2 (exLCall ++ exLAnswer) Local.new = some s ∧ s.client.calls[0]? = some cl ∧
    result cl = some (false, f, 0) ∧ ∀ op ∈ srvSaid exLCfg 2 (exLCall ++ exLAnswer) Local.new, ∀ b, op ≠ .raw b := by
  obtain ⟨s, h, e⟩ := Option.map_eq_some_iff.mp exL_runs
  have e1 := congrArg (fun x => x[0]?) (Prod.ext_iff.mp e).1
  simp only [List.getElem?_map] at e1
  obtain ⟨cl, e2, e3⟩ := Option.map_eq_some_iff.mp e1
  exact ⟨s, cl, _, h, e2, e3, by rw [exL_got.2]; simp [exLReply]⟩

/-- The full statement about the simulated failure: the code checks the stopper before it waits, "this way recv can't accidentally
win the select", so after `cause_fatal_error` no message gets through in either direction. -/
def C80Full : Prop := ∀ (cfg : Cfg) (bound : Nat) (ls ls' : List LLabel) (s : Local),
  l_run cfg bound (ls ++ .fatal :: ls') Local.new = some s → ∀ l ∈ ls', Comes l = false ∧ Goes l = false

/-- C80, what holds: after the failure at most one message gets through in each direction, and none in a direction in which no
receive or send was waiting when it happened.  Missing: that one. -/
theorem c80_failure_stops_traffic_partial {cfg : Cfg} {bound : Nat} {ls' : List LLabel} {s0 s : Local}
    (h : l_run cfg bound (.fatal :: ls') s0 = some s) :
    ls'.countP Comes ≤ 1 ∧ ls'.countP Goes ≤ 1 ∧ (s0.rx_began = false → ls'.countP Comes = 0) ∧
      (s0.tx_began = false → ls'.countP Goes = 0) := by
  have h : l_run cfg bound ls' { s0 with failed := true } = some s := h
  obtain ⟨_, h2, h3⟩ := l_run_failed h rfl
  have h2 : ls'.countP Comes + s.rx_began.toNat ≤ s0.rx_began.toNat := h2
  have h3 : ls'.countP Goes + s.tx_began.toNat ≤ s0.tx_began.toNat := h3
  have h4 := s0.rx_began.toNat_le
  have h5 := s0.tx_began.toNat_le
  refine ⟨by omega, by omega, fun e => ?_, fun e => ?_⟩
  · rw [e] at h2; simp at h2; exact List.countP_eq_zero.mpr (by simpa using h2.1)
  · rw [e] at h3; simp at h3; exact List.countP_eq_zero.mpr (by simpa using h3.1)

/-- C80 as the code's comment has it does not hold: a receive that was waiting when the failure was caused finds both branches of
its `select!` ready if a message is there too, and may take the message. -/
theorem c80_failure_does_not_stop_traffic : ¬ C80Full := by
  intro h
  have hrun : (l_run exLCfg 2 ((exLCall ++ [.client .in_poll, .rx_check]) ++ .fatal :: [.rx_msg exLBytes]) Local.new).isSome = true := by
    decide +kernel
  obtain ⟨s, hs⟩ := Option.isSome_iff_exists.mp hrun
  have := (h exLCfg 2 _ _ s hs (.rx_msg exLBytes) (by simp)).1
  cases this

/-- The same in the other direction. -/
example : (l_run exLCfg 2 (exLCall.take 8 ++ .fatal :: [.tx_ok]) Local.new).isSome = true := by decide +kernel

example : ∃ s0 s, l_run exLCfg 2 (exLCall ++ [.client .in_poll, .rx_check]) Local.new = some s0 ∧
    l_run exLCfg 2 (.fatal :: [.rx_msg exLBytes]) s0 = some s := by
  have hrun : ((l_run exLCfg 2 (exLCall ++ [.client .in_poll, .rx_check]) Local.new).bind
    (l_run exLCfg 2 (.fatal :: [.rx_msg exLBytes]))).isSome = true := by decide +kernel
  obtain ⟨s, hs⟩ := Option.isSome_iff_exists.mp hrun
  obtain ⟨s0, h0, h1⟩ := Option.bind_eq_some_iff.mp hs
  exact ⟨s0, s, h0, h1⟩

/-- C80: left to itself the pair comes to rest, however the steps are chosen. -/
theorem c80_work_is_bounded {cfg : Cfg} {bound : Nat} {s t : Local} {ls : List LLabel} (h : LOwnRun cfg bound s ls t) :
    ls.length ≤ 2 * (7 * s.client.calls.length + 3 * s.client.pubs.length + 2 * s.client.outq.length + 13) + 9 * s.down.length + 2 := by
  have h1 := lOwnRun_rank h
  have h2 := rank_le s.client
  have h3 : (if s.rx_began then 0 else 1) ≤ 1 := by split <;> omega
  have h4 : (if s.tx_began then 0 else 1) ≤ 1 := by split <;> omega
  simp only [Local.rank] at h1
  omega

/-- A run of own steps from labels that are always own. -/
theorem lOwnRun_of {cfg : Cfg} {bound : Nat} {ls : List LLabel} : ∀ {s t : Local}, (∀ l ∈ ls, ∀ u, LOwn u l) →
    l_run cfg bound ls s = some t → LOwnRun cfg bound s ls t := by
  induction ls with
  | nil => intro s t _ h; cases h; exact .nil _
  | cons l ls ih =>
    intro s t ho h
    simp only [l_run] at h
    split at h
    · rename_i u hu
      exact .cons (ho l (by simp) s) hu (ih (fun x hx => ho x (by simp [hx])) h)
    · cases h

/-- The answer of the example comes in by steps of the pair's own. -/
example : ∃ s t, l_run exLCfg 2 exLCall Local.new = some s ∧ LOwnRun exLCfg 2 s exLAnswer t := by
  obtain ⟨t, h, _⟩ := Option.map_eq_some_iff.mp exL_runs
  rw [l_run_append] at h
  obtain ⟨s, h1, h2⟩ := Option.bind_eq_some_iff.mp h
  refine ⟨s, t, h1, lOwnRun_of (fun l hl u => ?_) h2⟩
  simp only [exLAnswer, List.mem_cons, List.not_mem_nil, or_false] at hl
  rcases hl with rfl | rfl | rfl | rfl | rfl | rfl <;> trivial

/-- A step of the client that it can take in the pair. -/
theorem lstuck_client {cfg : Cfg} {bound : Nat} {s : Local} (h : LStuck cfg bound s) {l : Label} (ho : Own s.client l)
    (hl : ∀ b, l ≠ .out_done b) : step cfg s.client l = none := by
  have := h (.client l) ho
  cases l with
  | out_done b => exact absurd rfl (hl b)
  | in_recv r => cases ho
  | _ => simpa only [l_step, Option.map_eq_none_iff] using this

/-- C80: after the simulated failure the client comes to its end by itself: both workers end, every call and every publication
returns. -/
theorem c80_failure_ends_client {cfg : Cfg} {bound : Nat} {ls : List LLabel} {s t : Local} {own : List LLabel}
    (hd : 0 < cfg.outgoing_depth) (h : l_run cfg bound ls Local.new = some s) (hf : .fatal ∈ ls) (ho : LOwnRun cfg bound s own t) :
    (LStuck cfg bound t → Over t.client) ∧ ∃ more u, LOwnRun cfg bound t more u ∧ LStuck cfg bound u ∧ Over u.client := by
  have failed : ∀ ls s, l_run cfg bound ls Local.new = some s → .fatal ∈ ls → s.failed = true := by
    intro ls s h hf
    obtain ⟨a, b, rfl⟩ := List.append_of_mem hf
    rw [l_run_append] at h
    obtain ⟨s0, h1, h2⟩ := Option.bind_eq_some_iff.mp h
    have h2 : l_run cfg bound b { s0 with failed := true } = some s := h2
    exact (l_run_failed h2 rfl).1
  have main : ∀ {ls : List LLabel} {t : Local}, l_run cfg bound ls Local.new = some t → .fatal ∈ ls → LStuck cfg bound t → Over t.client := by
    intro ls t h hf hst
    have hr := l_reachable h
    have hfl := failed ls t h hf
    have hdone : ∀ b, step cfg t.client (.out_done b) = none := by
      have := hst .tx_err trivial
      simp only [l_step, hfl, true_or, if_true, Option.map_eq_none_iff] at this
      intro b
      simp only [step, out_done] at this ⊢
      split
      · rename_i b' e1 e2
        simp [e1, e2] at this
      · rfl
    have hstuck : Stuck cfg t.client := by
      intro l ho
      by_cases hl : ∃ b, l = .out_done b
      · obtain ⟨b, rfl⟩ := hl; exact hdone b
      · exact lstuck_client hst ho (fun b e => hl ⟨b, e⟩)
    obtain ⟨g1, g2⟩ := c66_nothing_stuck hd hr hstuck
    cases hs : t.client.stopped with
    | true => exact g2 hs
    | false =>
      exfalso
      have idle := g1 hs
      have h1 := hst .rx_err trivial
      simp only [l_step, hfl, true_or, if_true, Option.map_eq_none_iff] at h1
      have h2 := lstuck_client hst (l := .in_poll) trivial (by simp)
      simp only [step, in_recv, idle.inp] at h1
      simp only [step, in_poll, idle.inp, hs] at h2
      cases hp : t.client.in_polled with
      | true => simp [hp] at h1
      | false => simp [hp] at h2
  have ht : l_run cfg bound (ls ++ own) Local.new = some t := by rw [l_run_append, h, Option.bind_some]; exact lOwnRun_run ho
  refine ⟨main ht (List.mem_append.mpr (.inl hf)), ?_⟩
  obtain ⟨more, u, h1, h2⟩ := lOwnRun_to_stuck (cfg := cfg) (bound := bound) t.rank t (Nat.le_refl _)
  have hu : l_run cfg bound ((ls ++ own) ++ more) Local.new = some u := by rw [l_run_append, ht, Option.bind_some]; exact lOwnRun_run h1
  exact ⟨more, u, h1, h2, main hu (by simp [hf]) h2⟩

/-- The call of the example is out when the failure is caused. -/
example : ∃ s, l_run exLCfg 2 (exLCall ++ [.fatal]) Local.new = some s ∧ 0 < exLCfg.outgoing_depth ∧ LOwnRun exLCfg 2 s [] s ∧
    s.client.calls.map Call.phase = [.waiting .Key8] := by
  have hrun : (l_run exLCfg 2 (exLCall ++ [.fatal]) Local.new).map (fun s => s.client.calls.map Call.phase) = some [.waiting .Key8] := by
    decide +kernel
  obtain ⟨s, hs, e⟩ := Option.map_eq_some_iff.mp hrun
  exact ⟨s, hs, by decide, .nil _, e⟩

/-- C80: at rest, with the server's channel ends in place and the client open, everything the server said has reached the client,
and unless the channel to the server is full everything the client was given has been put on it. -/
theorem c80_rest {cfg : Cfg} {bound : Nat} {ls : List LLabel} {s : Local} (hd : 0 < cfg.outgoing_depth)
    (h : l_run cfg bound ls Local.new = some s) (hst : LStuck cfg bound s) (hf : s.failed = false) (hrx : s.srv_rx = true)
    (hs : s.client.stopped = false) :
    heard (clientRun ls) = (srvSaid cfg bound ls Local.new).filterMap opFrame ∧
      (s.up.length = bound ∨ Idle s.client ∧ (srvGot cfg bound ls Local.new).length + s.up.length = s.client.enq.length) := by
  have hr := l_reachable h
  have hx := fun e => c38_no_silent_worker_exit hr e
  have ho : s.client.out_pc ≠ .exited := fun e => by have := hx (.inl e); rw [hs] at this; cases this
  have hi : s.client.in_pc ≠ .exited := fun e => by have := hx (.inr e); rw [hs] at this; cases this
  have st : ∀ {l : Label}, Own s.client l → (∀ b, l ≠ .out_done b) → step cfg s.client l = none := fun a b => lstuck_client hst a b
  have hpurge : s.client.in_pc ≠ .purge := fun e => by
    have := st (l := .in_purge) trivial (by simp)
    simp [step, e] at this
  have hop : s.client.out_polled = true := by
    cases e : s.client.out_polled with
    | true => rfl
    | false =>
      have := st (l := .out_poll) trivial (by simp)
      simp [step, out_poll, ho, e, hs] at this
  have hip : s.client.in_polled = true := by
    cases e : s.client.in_polled with
    | true => rfl
    | false =>
      have := st (l := .in_poll) trivial (by simp)
      simp [step, in_poll, hi, hpurge, e, hs] at this
  have hin : s.client.in_pc = .recv := by
    cases e : s.client.in_pc with
    | recv => rfl
    | exited => exact absurd e hi
    | purge => exact absurd e hpurge
    | lookup f =>
      have := st (l := .in_lookup) trivial (by simp)
      simp only [step, in_lookup, e, hip] at this
      split at this <;> cases this
    | full f id rm =>
      have := st (l := .in_full_timeout) trivial (by simp)
      simp [step, in_full_timeout, e, hip] at this
    | wake f =>
      have := st (l := .in_wake none) trivial (by simp)
      simp only [step, in_wake, e, hip] at this
      split at this
      · rename_i hany
        obtain ⟨x, hx, hx2⟩ := List.any_eq_true.mp hany
        have := st (l := .in_wake (some x.1)) trivial (by simp)
        simp only [step, in_wake, e, hip] at this
        split at this
        · cases this
        · rename_i hna
          exact absurd (List.any_eq_true.mpr ⟨x, hx, by simp [hx2]⟩) hna
      · cases this
  have hbegan : s.rx_began = true := by
    cases e : s.rx_began with
    | true => rfl
    | false =>
      have := hst .rx_check trivial
      simp [l_step, hin, hip, e, hf] at this
  have hdown : s.down = [] := by
    cases e : s.down with
    | nil => rfl
    | cons b q =>
      have := hst (.rx_msg b) trivial
      simp only [l_step, e, hbegan, and_self, if_true, Option.map_eq_none_iff] at this
      simp only [step, in_recv, hin, hip, and_self, if_true] at this
      split at this
      · rename_i hp; exact absurd hp (c03_header_decode_no_panic b)
      · cases this
      · cases this
  refine ⟨?_, ?_⟩
  · have := (l_downInv h).1
    rw [hdown, List.filterMap_nil, List.append_nil] at this
    exact this
  · obtain ⟨hb, m, i1, i2, i3, i4, i5, i6⟩ := l_upInv h
    cases hpc : s.client.out_pc with
    | exited => exact absurd hpc ho
    | sending b =>
      left
      have htb : s.tx_began = true := by
        cases e : s.tx_began with
        | true => rfl
        | false =>
          have := hst .tx_check trivial
          simp [l_step, hpc, hop, e, hf] at this
      have := hst .tx_ok trivial
      simp only [l_step, hpc, htb, hrx] at this
      have hge : ¬ s.up.length < bound := by
        intro hlt
        simp [hlt, step, out_done, hpc, hop] at this
      omega
    | recv =>
      right
      have hstuck : Stuck cfg s.client := by
        intro l hol
        by_cases hl : ∃ b, l = .out_done b
        · obtain ⟨b, rfl⟩ := hl; simp [step, out_done, hpc]
        · exact st hol (fun b e => hl ⟨b, e⟩)
      have idle := (c66_nothing_stuck hd hr hstuck).1 hs
      refine ⟨idle, ?_⟩
      have hm : m = 0 := by
        rcases Nat.eq_zero_or_pos m with h | h
        · exact h
        · exact absurd (i2 h).2 ho
      obtain ⟨rest, r1, _, r3, _⟩ := i6 hrx
      rw [r3 hpc, List.append_nil] at r1
      rw [i1, hm, ← (c66_idle_sent_everything hr idle).1, ← r1]
      simp

/-- The state of the example after its call was answered and the receive worker waits again. -/
def exLRest : List LLabel := exLCall ++ exLAnswer ++ [.rx_check]

/-- A phase in which a call has ended. -/
def ended : Phase → Bool
  | .done _ => true
  | _ => false

set_option synthInstance.maxSize 2000 in
set_option synthInstance.maxHeartbeats 200000 in
theorem exL_rest : (l_run exLCfg 2 exLRest Local.new).map (fun s => ((s.client.out_pc, s.client.out_polled, s.client.in_pc,
    s.client.in_polled, s.client.stopped), (s.client.outq, s.client.handles, s.client.calls.map fun c => ended c.phase),
    (s.client.pubs, s.down, s.rx_began, s.failed, s.srv_rx))) =
    some ((.recv, true, .recv, true, false), ([], true, [true]), ([], [], true, false, true)) := by decide +kernel

/-- The pair of the example at rest: the server's ends in place, the client open. -/
example : ∃ s, 0 < exLCfg.outgoing_depth ∧ l_run exLCfg 2 exLRest Local.new = some s ∧ LStuck exLCfg 2 s ∧ s.failed = false ∧
    s.srv_rx = true ∧ s.client.stopped = false := by
  obtain ⟨s, h, e⟩ := Option.map_eq_some_iff.mp exL_rest
  simp only [Prod.mk.injEq] at e
  obtain ⟨⟨a1, a2, a3, a4, a5⟩, ⟨b1, b2, b3⟩, c1, c2, c3, c4, c5⟩ := e
  have hcall : ∀ (c : Nat) (cl : Call), s.client.calls[c]? = some cl → ∃ r, cl.phase = .done r := by
    intro c cl hc
    have h1 : (s.client.calls.map fun c => ended c.phase)[c]? = some (ended cl.phase) := by rw [List.getElem?_map, hc]; rfl
    rw [b3] at h1
    have h2 : ended cl.phase = true := by
      match c, h1 with
      | 0, h1 => simpa using h1.symm
      | c + 1, h1 => simp at h1
    cases hp : cl.phase with
    | done r => exact ⟨r, rfl⟩
    | _ => rw [hp] at h2; cases h2
  refine ⟨s, by decide, h, fun l ho => ?_, c4, c5, a5⟩
  cases l with
  | srv_recv | srv_send | fatal | drop_rx | drop_tx => cases ho
  | rx_check => simp [l_step, c3]
  | rx_msg b => simp [l_step, c2]
  | rx_err =>
    simp only [l_step, c3, c4]
    have hx : s.srv_tx = true := by
      have : (l_run exLCfg 2 exLRest Local.new).map Local.srv_tx = some true := by decide +kernel
      rw [h] at this
      exact Option.some.inj this
    simp [hx]
  | tx_check => simp [l_step, a1]
  | tx_ok => simp [l_step, a1]
  | tx_err => simp [l_step, c4, c5]
  | client l =>
    have hn : step exLCfg s.client l = none := by
      cases l with
      | call_begin | call_begin_raw | call_drop | pub_begin | close | drop_handles | in_recv | sub_excl | sub_repl | sub_multi |
        recv_excl | recv_multi | drop_excl | drop_multi => cases ho
      | call_kind c | call_reg_ok c | call_reg_err c | call_send c | call_closed c | call_ok c | call_err c =>
        simp only [step]
        split
        · rename_i cl hc
          obtain ⟨r, hr⟩ := hcall c cl hc
          simp [hr]
        · rfl
      | pub_send p | pub_closed p => simp [step, c1]
      | out_poll => simp [step, out_poll, a2]
      | out_yield | in_yield => rw [show s.client.stopped = true from ho] at a5; cases a5
      | out_recv => simp [step, out_recv, b1, b2]
      | out_done b => simp [step, out_done, a1]
      | in_poll => simp [step, in_poll, a4]
      | in_lookup => simp [step, in_lookup, a3]
      | in_full_send => simp [step, in_full_send, a3]
      | in_full_timeout => simp [step, in_full_timeout, a3]
      | in_wake w => simp [step, in_wake, a3]
      | in_purge => simp [step, a3]
    cases l <;> first | rfl | (simp only [l_step, hn, Option.map_none])

/-- C80: the client ends only for a reason.  Unless a failure was caused, the server's receiving end dropped, or the client closed
or its last handle dropped, the client ends only when the server has dropped its sending end, and then only after receiving
everything the server said. -/
theorem c80_ends_for_a_reason {cfg : Cfg} {bound : Nat} {ls : List LLabel} {s : Local} (h : l_run cfg bound ls Local.new = some s)
    (h1 : .fatal ∉ ls) (h2 : .drop_rx ∉ ls) (h3 : .client .close ∉ ls) (h4 : .client .drop_handles ∉ ls)
    (hs : s.client.stopped = true) :
    .drop_tx ∈ ls ∧ heard (clientRun ls) = (srvSaid cfg bound ls Local.new).filterMap opFrame := by
  have inv := l_induct (cfg := cfg) (bound := bound) (s0 := Local.new)
    (fun ls s => .fatal ∉ ls → .drop_rx ∉ ls → .client .close ∉ ls → .client .drop_handles ∉ ls →
      s.failed = false ∧ s.srv_rx = true ∧ s.client.handles = true ∧ (s.client.stopped = true → s.srv_tx = false ∧ s.down = []) ∧
        (s.srv_tx = false → .drop_tx ∈ ls))
    (fun _ _ _ _ => ⟨rfl, rfl, rfl, (fun e => by cases e), (fun e => by cases e)⟩)
    (fun ls s l t _ ih hst a1 a2 a3 a4 => by
      simp only [List.mem_append, List.mem_singleton, not_or] at a1 a2 a3 a4
      obtain ⟨i1, i2, i3, i4, i5⟩ := ih a1.1 a2.1 a3.1 a4.1
      obtain ⟨j1, j2, j3, j4, j5⟩ := ends_step hst (Ne.symm a1.2) (Ne.symm a2.2) (Ne.symm a3.2) (Ne.symm a4.2) i1 i2 i3 i4
      refine ⟨j1, j2, j3, j4, fun e => ?_⟩
      rcases j5 e with e | e
      · exact List.mem_append.mpr (.inl (i5 e))
      · subst e; simp)
  obtain ⟨_, _, _, i4, i5⟩ := inv ls s h h1 h2 h3 h4
  obtain ⟨e1, e2⟩ := i4 hs
  refine ⟨i5 e1, ?_⟩
  have := (l_downInv h).1
  rw [e2, List.filterMap_nil, List.append_nil] at this
  exact this

/-- The server of the example answers and drops its sending end; the client receives the answer and ends. -/
example : ∃ s, l_run exLCfg 2 (exLCall ++ .drop_tx :: exLAnswer ++ [.rx_check, .rx_err]) Local.new = some s ∧
    s.client.stopped = true ∧ LLabel.fatal ∉ exLCall ++ .drop_tx :: exLAnswer ++ [.rx_check, .rx_err] := by
  have hrun : (l_run exLCfg 2 (exLCall ++ .drop_tx :: exLAnswer ++ [.rx_check, .rx_err]) Local.new).map
      (fun s => s.client.stopped) = some true := by decide +kernel
  obtain ⟨s, hs, e⟩ := Option.map_eq_some_iff.mp hrun
  exact ⟨s, hs, e, by decide +kernel⟩

/-- C80: `reply` and `publish` fail only with `RxClosed`, changing nothing, and only when the client is closed; once the client is
at its end each of them does. -/
theorem c80_send_refused {cfg : Cfg} {bound : Nat} {ls : List LLabel} {s : Local} (h : l_run cfg bound ls Local.new = some s) (op : SrvOp) :
    (∀ e t, srv_send bound s op = some (some e, t) → e = .RxClosed ∧ t = s ∧ s.client.stopped = true) ∧
    (Over s.client → srv_send bound s op = some (some .RxClosed, s)) := by
  have hp : PurgeInv s.client := reachable_induct PurgeInv purgeInv_new (fun _ _ _ a b => purgeInv_step b a) (l_reachable h)
  refine ⟨fun e t he => ?_, fun ho => ?_⟩
  · rcases srv_send_some he with ⟨b, _, e1, _⟩ | ⟨e1, e2, e3⟩
    · cases e1
    · refine ⟨Option.some.inj e1, e3, hp.stop ?_⟩
      simp only [Local.rx_gone] at e2
      split at e2
      · rename_i e; simp [e, InPc.over]
      · rename_i e; simp [e, InPc.over]
      · cases e2
  · have hb : ∃ b, op.bytes = .ok b := by
      cases op with
      | reply seq key data => exact (to_bytes_frame _).imp fun _ h => h.1
      | publish seq key data => exact (to_bytes_frame _).imp fun _ h => h.1
      | raw b => exact ⟨b, rfl⟩
    obtain ⟨b, hb⟩ := hb
    simp [srv_send, hb, Local.rx_gone, ho.inp]

/-- The client of the example is closed and its receive worker ends. -/
example : (l_run exLCfg 2 [.client .close, .client .in_poll] Local.new).map (fun s => (srv_send 2 s exLReply).map Prod.fst) =
    some (some (some .RxClosed)) := by decide +kernel

end PRpc.Props
