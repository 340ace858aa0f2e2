import Verif.Lemmas.Query
import Verif.Lemmas.SysClient
/-!
C82: what `get_schema_report` collects, and when it stops collecting.
-/

namespace PRpc.Props

open Spec

/-- C82 (collecting): when the collecting task has ended it has kept, in order, the first schema messages that arrived since
the subscription; among them are the first `n`, if these came promptly. -/
theorem c82_gathers_partial {qc : QCfg} {n : Nat} {ls : List QLabel} {q : Query} (h : q_run qc ls Query.new = some q)
    (ho : Throughout qc (fun q _ => Orderly qc q) ls) (hp : Throughout qc (PromptTo qc n) ls) (hd : DeepEnough qc ls)
    (he : q.ended = true) : ∃ p, p <+: schemaArrivals qc q ∧ n ≤ p.length ∧
      (arrived q.seen).map some = p.map fun f => qc.decode f.body :=
  (qinv_run h ho hp hd).over he

/-- C82 (the report) for a device whose messages come promptly.  Missing: a pause of 100 ms before a message. -/
theorem c82_report_partial {W : Type} {qc : QCfg} {decode_err : Bytes → Option W} {hash : Bytes → Nty → Key}
    {iter : List Nty → List Nty} {prims : List Nty} {m : DeviceMap} {ls : List QLabel} {q : Query}
    (h : q_run qc ls Query.new = some q) (ho : Throughout qc (fun q _ => Orderly qc q) ls)
    (hp : Throughout qc (PromptTo qc (schemaMsgs m).length) ls) (hd : DeepEnough qc ls) (hi : Enumerates iter)
    (hs : q.refused = false) (he : q.ended = true) (ha : Answered qc hash prims m q) :
    FullReport qc decode_err hash iter prims m q := by
  obtain ⟨p, h1, h2, h3⟩ := c82_gathers_partial h ho hp hd he
  obtain ⟨c, cl, f, i, t, hc, hcl, hph, ht, htf, hte⟩ := ha.totals
  have hlen : (schemaArrivals qc q).length = (schemaMsgs m).length := by
    have := congrArg List.length ha.msgs
    simpa using this
  have hpe : p = schemaArrivals qc q := h1.eq_of_length (by have := h1.length_le; omega)
  rw [hpe, ha.msgs] at h3
  have harr : arrived q.seen = schemaMsgs m := (List.map_inj_right fun _ _ e => Option.some.inj e).mp h3
  obtain ⟨r, hr, hl⟩ := c20_lossless_report (CE := HostRes Unit W) .Closed hash iter hi prims m t htf hte q.seen harr ha.endpoints ha.topics
  refine ⟨r, ?_, hl⟩
  simp only [Query.result, hs, hc, hcl, hph, he, if_true, finish_call, ht, trigger_res]
  rw [← hr]; rfl

/-- The property in full: it does not matter how long the device takes, as long as the client is receiving. -/
def C82Full : Prop := ∀ (W : Type) (qc : QCfg) (decode_err : Bytes → Option W) (hash : Bytes → Nty → Key)
    (iter : List Nty → List Nty) (prims : List Nty) (m : DeviceMap) (ls : List QLabel) (q : Query),
    q_run qc ls Query.new = some q → Throughout qc (fun q _ => Orderly qc q) ls →
    Throughout qc (fun q _ => q.client.in_pc ≠ .purge ∧ q.client.in_pc ≠ .exited) ls → DeepEnough qc ls → Enumerates iter →
    q.refused = false → q.ended = true → Answered qc hash prims m q → FullReport qc decode_err hash iter prims m q

/-! ### Examples -/

/-- The example's keys; message `i` of the device is sent as the byte `i`, its totals as the byte 9. -/
def exQc : QCfg :=
  ⟨exCfg, cKey 5, cKey 1, cKey 2, fun | [b] => (schemaMsgs exMap)[b.toNat]? | _ => none,
    fun | [b] => if b = 9 then some exTotals else none | _ => none⟩

/-- The subscription and the request. -/
def exAsk : List QLabel :=
  [.subscribe, .trigger] ++ ([.call_kind 0, .call_reg_ok 0, .call_reg_err 0, .call_send 0, .out_poll, .out_recv, .out_done true,
    .out_yield, .in_poll] : List Label).map .client ++ [.poll]

/-- Message `i` arrives. -/
def exMsg (i : Byte) : List QLabel :=
  ([.in_recv (some [0x00, 5, i, i]), .in_lookup] : List Label).map .client

/-- The device's reply to the request arrives. -/
def exReply : List QLabel :=
  ([.in_recv (some [0x00, 2, 0, 9]), .in_lookup, .in_wake (some ⟨0, false⟩), .call_ok 0] : List Label).map .client

/-- All messages 10 ms apart, and the reply. -/
def exPrompt : List QLabel :=
  exAsk ++ ([0, 1, 2, 3, 4] : List Byte).flatMap (fun i => List.replicate 10 .tick ++ exMsg i ++ [.poll]) ++ exReply ++
    List.replicate 100 .tick ++ [.poll]

/-- The same after a pause of 100 ms. -/
def exSlow : List QLabel :=
  exAsk ++ List.replicate 100 .tick ++ [.poll] ++ exMsg 0 ++
    ([1, 2, 3, 4] : List Byte).flatMap (fun i => exMsg i ++ [.client (.in_wake none)]) ++ exReply


/-- Checking every prefix of a run. -/
theorem throughout_of {qc : QCfg} {P : Query → Nat → Prop} {ls : List QLabel} [∀ q k, Decidable (P q k)]
    (h : (List.range (ls.length + 1)).all (fun i => match q_run qc (ls.take i) Query.new with
      | none => true
      | some t => decide (P t (silence qc (ls.take i) Query.new 0))) = true) : Throughout qc P ls := by
  intro as bs t e hr
  have := List.all_eq_true.mp h as.length (by rw [List.mem_range, e, List.length_append]; omega)
  rw [e, List.take_left] at this
  rw [hr] at this
  exact of_decide_eq_true this

instance (qc : QCfg) (q : Query) : Decidable (Orderly qc q) :=
  decidable_of_iff ((q.ended = false → (schemaArrivals qc q).length ≤ (arrived q.seen).length + 64) ∧
      (∀ f ∈ schemaArrivals qc q, (qc.decode f.body).isSome) ∧
      ∀ f ∈ q.client.subs.arrived, ∀ r1 ∈ q.client.subs.brxs, ∀ r2 ∈ q.client.subs.brxs,
        OfTopic r1.key f → OfTopic r2.key f → r1.key = r2.key)
    ⟨fun ⟨a, b, c⟩ => ⟨a, b, c⟩, fun ⟨a, b, c⟩ => ⟨a, b, c⟩⟩

instance (qc : QCfg) (n : Nat) (q : Query) (k : Nat) : Decidable (PromptTo qc n q k) := by
  unfold PromptTo; infer_instance

theorem exQuery_keys : (∀ e ∈ exMap.endpoints, (∃ ty ∈ [] ++ exMap.types, exHash e.path ty = e.req) ∧
      ∃ ty ∈ [] ++ exMap.types, exHash e.path ty = e.resp) ∧
    ∀ e ∈ exMap.topics_in ++ exMap.topics_out, ∃ ty ∈ [] ++ exMap.types, exHash e.path ty = e.key := by
  refine ⟨fun e he => ?_, fun e he => ?_⟩
  · have : e.req = exHash e.path exTy ∧ e.resp = exHash e.path exTy := by
      revert e; decide
    exact ⟨⟨exTy, by simp [exMap], this.1.symm⟩, ⟨exTy, by simp [exMap], this.2.symm⟩⟩
  · have : e.key = exHash e.path exTy := by
      revert e; decide
    exact ⟨exTy, by simp [exMap], this.symm⟩

theorem deepEnough_of {qc : QCfg} {ls : List QLabel}
    (h : ls.all (fun | .client (.sub_multi _ _) => false | _ => true) = true) : DeepEnough qc ls := by
  intro n hn
  have := List.all_eq_true.mp h _ hn
  cases this

/-- What the examples have in common at the end: refused, ended, the call, and the schema messages that arrived. -/
def exEnd (q : Query) : Bool × Bool × Option Nat × List Phase × List RpcFrame :=
  (q.refused, q.ended, q.call, q.client.calls.map Call.phase, schemaArrivals exQc q)

/-- With the totals as reply number `n` of those not belonging to a subscription. -/
def exFinal (n : Nat) : Bool × Bool × Option Nat × List Phase × List RpcFrame :=
  (false, true, some 0, [.done (.Resp ⟨⟨.Key1 ⟨2⟩, .Seq1 0⟩, [9]⟩ n)],
    ([0, 1, 2, 3, 4] : List Byte).map fun i => ⟨⟨.Key1 ⟨5⟩, .Seq1 i⟩, [i]⟩)

theorem exEnd_ok {q : Query} {n : Nat} (h : exEnd q = exFinal n) : q.refused = false ∧ q.ended = true ∧ Answered exQc exHash [] exMap q := by
  simp only [exEnd, exFinal, Prod.mk.injEq] at h
  obtain ⟨a, b, c, d, e⟩ := h
  refine ⟨a, b, ?_, ?_, exQuery_keys.1, exQuery_keys.2⟩
  · rw [e]; rfl
  · cases hc : q.client.calls with
    | nil => rw [hc] at d; cases d
    | cons cl cs =>
      rw [hc] at d
      simp only [List.map_cons, List.cons.injEq] at d
      exact ⟨0, cl, _, _, exTotals, c, rfl, d.1, rfl, exTotals_for, rfl⟩

set_option maxRecDepth 100000 in
set_option synthInstance.maxSize 1000 in
theorem exPrompt_end : (q_run exQc exPrompt Query.new).map exEnd = some (exFinal 0) := by decide +kernel

set_option maxRecDepth 100000 in
theorem exPrompt_ok : Throughout exQc (fun q _ => Orderly exQc q) exPrompt ∧ Throughout exQc (PromptTo exQc 5) exPrompt ∧
    DeepEnough exQc exPrompt :=
  ⟨throughout_of (by decide +kernel), throughout_of (by decide +kernel), deepEnough_of (by decide +kernel)⟩

example : ∃ q, q_run exQc exPrompt Query.new = some q ∧ Throughout exQc (fun q _ => Orderly exQc q) exPrompt ∧
    Throughout exQc (PromptTo exQc (schemaMsgs exMap).length) exPrompt ∧ DeepEnough exQc exPrompt ∧ q.refused = false ∧
    q.ended = true ∧ Answered exQc exHash [] exMap q := by
  obtain ⟨q, e1, e2⟩ := Option.map_eq_some_iff.mp exPrompt_end
  obtain ⟨a, b, c⟩ := exEnd_ok e2
  exact ⟨q, e1, exPrompt_ok.1, exPrompt_ok.2.1, exPrompt_ok.2.2, a, b, c⟩

set_option maxRecDepth 100000 in
set_option synthInstance.maxSize 1000 in
theorem exSlow_end : (q_run exQc exSlow Query.new).map exEnd = some (exFinal 4) := by decide +kernel

/-- Is the answer a report? -/
def isReport {W : Type} : Option (Exec (Except (SchemaError (HostRes Unit W)) SchemaReport)) → Bool
  | some (.ok (.ok _)) => true
  | _ => false

set_option maxRecDepth 100000 in
/-- C82 is false in full: a device that needs 100 ms for its first message is taken to have lost its data, although all of
its messages arrive and so do its totals. -/
theorem c82_report_false : ¬ C82Full := by
  intro H
  obtain ⟨q, e1, e2⟩ := Option.map_eq_some_iff.mp exSlow_end
  obtain ⟨a, b, c⟩ := exEnd_ok e2
  obtain ⟨r, hr, _⟩ := H Unit exQc (fun _ => none) exHash id [] exMap exSlow q e1
    (throughout_of (by decide +kernel)) (throughout_of (by decide +kernel)) (deepEnough_of (by decide +kernel))
    (fun _ _ => Iff.rfl) a b c
  have hx : (q_run exQc exSlow Query.new).map (fun q => isReport (q.result (W := Unit) exQc (fun _ => none) exHash id [])) =
      some false := by decide +kernel
  rw [e1, Option.map_some, hr] at hx
  cases hx

/-! ### The end of collecting -/

theorem deadline_step {qc : QCfg} {q q' : Query} {l : QLabel} (h : q_step qc q l = some q')
    (inv : ∀ d, q.deadline = some d → d ≤ q.now + 100) : ∀ d, q'.deadline = some d → d ≤ q'.now + 100 := by
  have getD : q.deadline.getD (q.now + 100) ≤ q.now + 100 := by
    cases hd : q.deadline with
    | none => exact Nat.le_refl _
    | some d => exact inv d hd
  cases l with
  | client l =>
    simp only [q_step] at h
    split at h
    · cases h
    · obtain ⟨c, _, rfl⟩ := Option.map_eq_some_iff.mp h
      exact inv
  | tick =>
    simp only [q_step, Option.some.injEq] at h
    subst h
    intro d hd
    exact Nat.le_trans (inv d hd) (Nat.add_le_add_right (Nat.le_succ _) _)
  | subscribe =>
    simp only [q_step] at h
    split at h
    · cases h
    · obtain ⟨c, _, rfl⟩ := Option.map_eq_some_iff.mp h
      split <;> exact inv
  | trigger =>
    simp only [q_step] at h
    split at h
    · obtain ⟨c, _, rfl⟩ := Option.map_eq_some_iff.mp h
      exact inv
    · cases h
  | poll =>
    simp only [q_step] at h
    split at h
    · split at h
      · cases h
      · rw [← Option.some.inj h, collect_poll]
        split
        · split
          · intro d hd; cases hd; exact Nat.le_refl _
          · intro d hd; cases hd; exact getD
        · exact inv
        · exact inv
        · split
          · exact inv
          · intro d hd; cases hd; exact getD
    · cases h

theorem deadline_run {qc : QCfg} {ls : List QLabel} {q q' : Query} (h : q_run qc ls q = some q')
    (inv : ∀ d, q.deadline = some d → d ≤ q.now + 100) : ∀ d, q'.deadline = some d → d ≤ q'.now + 100 := by
  induction ls generalizing q with
  | nil => cases h; exact inv
  | cons l ls ih =>
    rw [q_run] at h
    cases hq : q_step qc q l with
    | none => rw [hq] at h; cases h
    | some t =>
      rw [hq] at h
      exact ih h (deadline_step hq inv)

theorem run_ticks (qc : QCfg) (k : Nat) (q : Query) :
    q_run qc (List.replicate k .tick) q = some { q with now := q.now + k } := by
  induction k generalizing q with
  | zero => rfl
  | succ k ih =>
    rw [List.replicate_succ, q_run]
    show q_run qc (List.replicate k .tick) { q with now := q.now + 1 } = _
    rw [ih]
    simp only [Option.some.injEq]
    congr 1
    show q.now + 1 + k = q.now + (k + 1)
    omega

theorem multi_recv_none {s : Subs} {id : Nat} (h : (multi_recv s id).1 = none) : (multi_recv s id).2 = s := by
  simp only [multi_recv] at h ⊢
  (repeat' split at h) <;> first
    | cases h; done
    | simp_all

/-- Messages waiting for the receiver. -/
def stillWaiting (s : Subs) (id : Nat) : Nat := (s.brxs[id]?.map fun r => r.pending.length).getD 0

theorem multi_recv_ok {s s' : Subs} {id : Nat} {f : RpcFrame} (h : multi_recv s id = (some (.Ok f), s')) :
    stillWaiting s' id + 1 = stillWaiting s id := by
  rw [multi_recv] at h
  split at h
  · cases h
  · rename_i r hr
    split at h
    · cases h
    · split at h
      · rename_i f' q hq
        simp only [Prod.mk.injEq] at h
        rw [stillWaiting, stillWaiting, ← h.2, hr]
        simp only [set_get_self hr, Option.map_some, Option.getD_some, hq, List.length_cons]
      · split at h <;> cases h

theorem onlyWaiting_poll {n : Nat} {ws : List QLabel} (h : OnlyWaiting n ws) : OnlyWaiting n (.poll :: ws) := by
  refine ⟨fun l hl => ?_, ?_⟩
  · rcases List.mem_cons.mp hl with rfl | hl
    · exact .inr rfl
    · exact h.1 l hl
  · rw [List.count_cons_of_ne (by decide)]
    exact h.2

theorem poll_ends {qc : QCfg} {id : Nat} (n : Nat) : ∀ {q : Query}, q.sub = some id → q.ended = false →
    (∀ d, q.deadline = some d → d ≤ q.now + 100) → stillWaiting q.client.subs id < n →
    ∃ ws q', OnlyWaiting 100 ws ∧ q_run qc ws q = some q' ∧ q'.ended = true := by
  induction n with
  | zero => intro q _ _ _ h; cases h
  | succ n ih =>
    intro q hsub he inv hw
    have hpoll : q_step qc q .poll = some (collect_poll qc q id) := by
      simp only [q_step, hsub, he]; rfl
    have hone : (collect_poll qc q id).ended = true → ∃ ws q', OnlyWaiting 100 ws ∧ q_run qc ws q = some q' ∧ q'.ended = true := by
      intro hend
      refine ⟨[.poll], _, onlyWaiting_poll ⟨by simp, by simp⟩, ?_, hend⟩
      rw [q_run, hpoll]; rfl
    have hinv := deadline_step hpoll inv
    have hmore : (∃ ws q', OnlyWaiting 100 ws ∧ q_run qc ws (collect_poll qc q id) = some q' ∧ q'.ended = true) →
        ∃ ws q', OnlyWaiting 100 ws ∧ q_run qc ws q = some q' ∧ q'.ended = true := by
      rintro ⟨ws, q', h1, h2, h3⟩
      refine ⟨.poll :: ws, q', onlyWaiting_poll h1, ?_, h3⟩
      rw [q_run, hpoll]; exact h2
    revert hone hinv hmore
    rw [collect_poll]
    cases hm : multi_recv q.client.subs id with
    | mk o subs =>
      cases o with
      | some m =>
        cases m with
        | Ok f =>
          have hlt := multi_recv_ok hm
          simp only
          cases hd : qc.decode f.body with
          | some d =>
            intro _ hinv hmore
            exact hmore (ih hsub he hinv (by show stillWaiting subs id < n; omega))
          | none =>
            intro _ hinv hmore
            exact hmore (ih hsub he hinv (by show stillWaiting subs id < n; omega))
        | IoClosed => intro hone _ _; exact hone rfl
        | Lagged k => intro hone _ _; exact hone rfl
      | none =>
        simp only
        by_cases hdl : q.deadline.getD (q.now + 100) ≤ q.now
        · rw [if_pos hdl]
          intro hone _ _
          exact hone rfl
        · rw [if_neg hdl]
          intro _ hinv hmore
          refine hmore ?_
          have hle : q.deadline.getD (q.now + 100) ≤ q.now + 100 := hinv _ rfl
          revert hdl hle
          generalize q.deadline.getD (q.now + 100) = d
          intro hdl hle
          refine ⟨List.replicate (d - q.now) .tick ++ [.poll],
            collect_end { q with deadline := some d, now := q.now + (d - q.now) } id subs .timeout, ⟨?_, ?_⟩, ?_, rfl⟩
          · intro l hl
            rcases List.mem_append.mp hl with hl | hl
            · exact .inl (List.eq_of_mem_replicate hl)
            · exact .inr (List.mem_singleton.mp hl)
          · rw [List.count_append, List.count_replicate_self]
            simp
            omega
          · rw [q_run_append, run_ticks]
            simp only [Option.bind_some, q_run, q_step, hsub, he, Bool.false_eq_true, if_false, collect_poll, hm, Option.getD_some]
            rw [if_pos (by omega)]

/-- A step keeps what was kept, and unless it adds to it or ends the task, the end of the present timeout. -/
theorem q_step_keeps {qc : QCfg} {q q' : Query} {l : QLabel} (h : q_step qc q l = some q') :
    q.seen.length ≤ q'.seen.length ∧ q'.now = q.now + (if l = .tick then 1 else 0) ∧
      (q'.seen.length = q.seen.length → ∀ d, q.deadline = some d → q'.deadline = some d) := by
  cases l with
  | client l =>
    simp only [q_step] at h
    split at h
    · cases h
    · cases hs : step qc.cfg q.client l with
      | none => rw [hs] at h; cases h
      | some c => rw [hs] at h; cases h; exact ⟨Nat.le_refl _, rfl, fun _ _ hd => hd⟩
  | tick => cases h; exact ⟨Nat.le_refl _, rfl, fun _ _ hd => hd⟩
  | subscribe =>
    simp only [q_step] at h
    split at h
    · cases h
    · cases hs : step qc.cfg q.client (.sub_multi qc.topic 64) with
      | none => rw [hs] at h; cases h
      | some c =>
        rw [hs] at h
        simp only [Option.map_some, Option.some.injEq] at h
        subst h
        split <;> exact ⟨Nat.le_refl _, rfl, fun _ _ hd => hd⟩
  | trigger =>
    simp only [q_step] at h
    split at h
    · cases hs : step qc.cfg q.client (.call_begin qc.req qc.resp []) with
      | none => rw [hs] at h; cases h
      | some c => rw [hs] at h; cases h; exact ⟨Nat.le_refl _, rfl, fun _ _ hd => hd⟩
    · cases h
  | poll =>
    simp only [q_step] at h
    split at h
    · split at h
      · cases h
      · cases h
        rw [collect_poll]
        split
        · split
          · refine ⟨by simp, rfl, fun hl => ?_⟩
            simp at hl
          · exact ⟨Nat.le_refl _, rfl, fun _ d hd => by show some (q.deadline.getD _) = some d; rw [hd]; rfl⟩
        · refine ⟨by simp [collect_end], rfl, fun _ d hd => hd⟩
        · refine ⟨by simp [collect_end], rfl, fun _ d hd => hd⟩
        · split
          · refine ⟨by simp [collect_end], rfl, fun _ d hd => hd⟩
          · exact ⟨Nat.le_refl _, rfl, fun _ d hd => by show some (q.deadline.getD _) = some d; rw [hd]; rfl⟩
    · cases h

theorem q_run_keeps {qc : QCfg} {ls : List QLabel} {q q' : Query} (h : q_run qc ls q = some q') :
    q.seen.length ≤ q'.seen.length ∧ q'.now = q.now + ls.count .tick ∧
      (q'.seen.length = q.seen.length → ∀ d, q.deadline = some d → q'.deadline = some d) := by
  induction ls generalizing q with
  | nil => cases h; exact ⟨Nat.le_refl _, rfl, fun _ _ hd => hd⟩
  | cons l ls ih =>
    rw [q_run] at h
    cases hq : q_step qc q l with
    | none => rw [hq] at h; cases h
    | some t =>
      rw [hq] at h
      obtain ⟨a1, a2, a3⟩ := q_step_keeps hq
      obtain ⟨b1, b2, b3⟩ := ih h
      refine ⟨Nat.le_trans a1 b1, ?_, fun he d hd => b3 (by omega) d (a3 (by omega) d hd)⟩
      rw [b2, a2, List.count_cons, Nat.add_assoc, Nat.add_comm (List.count _ _)]
      by_cases hl : l = .tick
      · rw [if_pos hl, hl]; rfl
      · rw [if_neg hl, if_neg (by simpa using hl)]

/-- C82 (the end): whatever has happened, once nothing more happens the task ends within 100 ms. -/
theorem c82_ends {qc : QCfg} {ls : List QLabel} {q : Query} (h : q_run qc ls Query.new = some q) (hs : q.sub ≠ none)
    (he : q.ended = false) : ∃ ws q', OnlyWaiting 100 ws ∧ q_run qc ws q = some q' ∧ q'.ended = true := by
  cases hsub : q.sub with
  | none => exact absurd hsub hs
  | some id => exact poll_ends _ hsub he (deadline_run h (by intro d hd; cases hd)) (Nat.lt_succ_self _)

example : (q_run exQc exAsk Query.new).map (fun q => (q.sub.isSome, q.ended)) = some (true, false) := by decide +kernel

/-- C82 (silence): whatever client and query do, if the collecting task, once polled, has kept nothing for 100 ms and nothing waits for
it, then its next poll is its last. -/
theorem c82_silence {qc : QCfg} {ls ls' : List QLabel} {q q' q'' : Query} (h : q_run qc ls Query.new = some q)
    (hd : q.deadline ≠ none) (h' : q_run qc ls' q = some q') (ht : 100 ≤ ls'.count .tick) (hk : q'.seen = q.seen)
    (hn : ∀ (id : Nat) (r : BRx), q'.sub = some id → q'.client.subs.brxs[id]? = some r → r.pending = [])
    (hp : q_step qc q' .poll = some q'') : q''.ended = true := by
  obtain ⟨_, hnow, hdl⟩ := q_run_keeps h'
  cases hq : q.deadline with
  | none => exact absurd hq hd
  | some d =>
    have hle : d ≤ q.now + 100 := deadline_run h (by intro d hd; cases hd) d hq
    have hd' : q'.deadline = some d := hdl (by rw [hk]) d hq
    simp only [q_step] at hp
    split at hp
    case h_2 => cases hp
    case h_1 id hid =>
      split at hp
      · cases hp
      · cases hp
        rw [collect_poll, hd']
        have hrecv : ∀ f subs, multi_recv q'.client.subs id ≠ (some (.Ok f), subs) := by
          intro f subs hm
          rw [multi_recv] at hm
          split at hm
          · cases hm
          · rename_i r hr
            rw [hn id r hid hr] at hm
            split at hm
            · cases hm
            · simp only at hm
              split at hm <;> cases hm
        split
        · rename_i f subs hm
          exact absurd hm (hrecv f subs)
        · rfl
        · rfl
        · rw [if_pos (by show d ≤ q'.now; omega)]
          rfl

example : (q_run exQc (exAsk ++ exReply) Query.new).map (fun q => (q.deadline, q.seen.length)) = some (some 100, 0) ∧
    (q_run exQc (exAsk ++ exReply ++ List.replicate 60 .tick ++ [.poll] ++ List.replicate 40 .tick) Query.new).map (fun q =>
      (q.sub, q.seen.length, q.client.subs.brxs.map (·.pending), q.ended)) = some (some 0, 0, [[]], false) := by decide +kernel

/-- The example's query at work: nothing waits, `got` was taken. -/
def exChatter (c : Client) (got arr : List RpcFrame) (seen : List Collected) (now : Nat) (d : Option Nat) : Query :=
  { client := { c with in_pc := .recv, in_polled := true,
                       subs := ⟨[], [(cKey 5, 0)], false, [], [64], [⟨0, [], 0, true, cKey 5, 0, got, 0⟩], arr⟩ }
    now := now, sub := some 0, call := some 0, deadline := d, seen := seen, ended := false, refused := false, begun := 0 }

theorem exChatter_cycle (c : Client) (got arr : List RpcFrame) (seen : List Collected) (now : Nat) (d : Option Nat) :
    ∃ got' arr' seen' d', q_run exQc (List.replicate 50 .tick ++ (exMsg 0 ++ [.poll])) (exChatter c got arr seen now d) =
      some (exChatter c got' arr' seen' (now + 50) d') := by
  rw [q_run_append, run_ticks]
  exact ⟨_, _, _, _, rfl⟩

theorem exChatter_cycles (n : Nat) : ∀ (c : Client) (got arr : List RpcFrame) (seen : List Collected) (now : Nat) (d : Option Nat),
    ∃ ls got' arr' seen' d', q_run exQc ls (exChatter c got arr seen now d) = some (exChatter c got' arr' seen' (now + n * 50) d') := by
  induction n with
  | zero => intro c got arr seen now d; exact ⟨[], _, _, _, _, by rw [Nat.zero_mul]; rfl⟩
  | succ n ih =>
    intro c got arr seen now d
    obtain ⟨got1, arr1, seen1, d1, h1⟩ := exChatter_cycle c got arr seen now d
    obtain ⟨ls, got2, arr2, seen2, d2, h2⟩ := ih c got1 arr1 seen1 (now + 50) d1
    refine ⟨(List.replicate 50 .tick ++ (exMsg 0 ++ [.poll])) ++ ls, got2, arr2, seen2, d2, ?_⟩
    rw [q_run_append, h1, Option.bind_some, h2]
    rw [show now + 50 + n * 50 = now + (n + 1) * 50 by omega]

/-- The example's client once the device has told its totals. -/
def exAnswered : Client := ((q_run exQc (exAsk ++ exReply) Query.new).map (·.client)).getD Client.new

/-- C82 (no limit): as long as schema messages keep coming the query does not answer, although the device has told it its
totals: for any time there is a run that long. -/
theorem c82_no_limit (n : Nat) : ∃ ls q, q_run exQc ls Query.new = some q ∧ n ≤ q.now ∧ q.ended = false ∧
    q.client.calls.map Call.phase = [.done (.Resp ⟨⟨.Key1 ⟨2⟩, .Seq1 0⟩, [9]⟩ 0)] := by
  obtain ⟨ls, got, arr, seen, d, h⟩ := exChatter_cycles n exAnswered
    [] [⟨⟨.Key1 ⟨2⟩, .Seq1 0⟩, [9]⟩] [] 0 (some 100)
  have h0 : q_run exQc (exAsk ++ exReply) Query.new = some (exChatter exAnswered [] [⟨⟨.Key1 ⟨2⟩, .Seq1 0⟩, [9]⟩] [] 0 (some 100)) := by rfl
  refine ⟨exAsk ++ exReply ++ ls, _, by rw [q_run_append, h0]; exact h, ?_, rfl, ?_⟩
  · show n ≤ 0 + n * 50
    omega
  · rfl

/-! ### The request -/

/-- The query's call asks for the schemas. -/
def Asking (qc : QCfg) (q : Query) : Prop := ∀ c, q.call = some c → q.sub ≠ none ∧
  ∃ cl, q.client.calls[c]? = some cl ∧ cl.rqst.header.key = .Key8 qc.req ∧ cl.rqst.body = [] ∧ cl.resp_key = qc.resp

theorem asking_client {qc : QCfg} {q : Query} {l : Label} {c : Client} (h : step qc.cfg q.client l = some c)
    (inv : Asking qc q) : Asking qc { q with client := c } := by
  intro i hi
  obtain ⟨h1, cl, h2, h3, h4, h5⟩ := inv i hi
  obtain ⟨cl', g1, g2⟩ := step_rqst h h2
  have e1 : cl'.rqst = cl.rqst := congrArg (fun x => x.1) g2
  have e2 : cl'.resp_key = cl.resp_key := congrArg (fun x => x.2.1) g2
  exact ⟨h1, cl', g1, by rw [e1]; exact h3, by rw [e1]; exact h4, by rw [e2]; exact h5⟩

theorem asking_end {qc : QCfg} {q : Query} {id : Nat} {subs : Subs} {e : Collected} (inv : Asking qc q) :
    Asking qc (collect_end q id subs e) := inv

theorem asking_step {qc : QCfg} {q q' : Query} {l : QLabel} (h : q_step qc q l = some q') (inv : Asking qc q) :
    Asking qc q' := by
  cases l with
  | client l =>
    simp only [q_step] at h
    split at h
    · cases h
    · obtain ⟨c, hc, rfl⟩ := Option.map_eq_some_iff.mp h
      exact asking_client hc inv
  | tick =>
    simp only [q_step, Option.some.injEq] at h
    subst h
    exact inv
  | subscribe =>
    simp only [q_step] at h
    split at h
    · cases h
    · rename_i hno
      obtain ⟨c, hc, rfl⟩ := Option.map_eq_some_iff.mp h
      have i := asking_client hc inv
      split
      · intro j hj
        exact ⟨nofun, (i j hj).2⟩
      · exact i
  | trigger =>
    simp only [q_step] at h
    split at h
    · rename_i hb
      obtain ⟨c, hc, rfl⟩ := Option.map_eq_some_iff.mp h
      intro j hj
      cases hj
      refine ⟨?_, ⟨⟨⟨.Key8 qc.req, .Seq4 q.client.seq⟩, []⟩, qc.resp, true, .begun, 0⟩, ?_, rfl, rfl, rfl⟩
      · have := hb.1
        intro e
        have e : q.sub = none := e
        rw [e] at this; cases this
      · simp only [step] at hc
        split at hc
        · rw [← Option.some.inj hc]
          show (q.client.calls ++ [_])[q.client.calls.length]? = _
          rw [List.getElem?_append_right (Nat.le_refl _), Nat.sub_self]
          rfl
        · cases hc
    · cases h
  | poll =>
    simp only [q_step] at h
    split at h
    · split at h
      · cases h
      · rw [← Option.some.inj h, collect_poll]
        split
        · split <;> exact inv
        · exact inv
        · exact inv
        · split <;> exact inv
    · cases h

/-- C82 (the request): the query subscribes first, and what it then asks for are the schemas. -/
theorem c82_asks {qc : QCfg} {ls : List QLabel} {q : Query} (h : q_run qc ls Query.new = some q) {c : Nat}
    (hc : q.call = some c) : q.sub ≠ none ∧ ∃ cl, q.client.calls[c]? = some cl ∧ cl.rqst.header.key = .Key8 qc.req ∧
      cl.rqst.body = [] ∧ cl.resp_key = qc.resp := by
  have main : ∀ (ls : List QLabel) (q0 : Query), Asking qc q0 → q_run qc ls q0 = some q → Asking qc q := by
    intro ls
    induction ls with
    | nil => intro q0 i h; cases h; exact i
    | cons l ls ih =>
      intro q0 i h
      rw [q_run] at h
      cases hq : q_step qc q0 l with
      | none => rw [hq] at h; cases h
      | some t => rw [hq] at h; exact ih t (asking_step hq i) h
  exact main ls Query.new (fun c h => by cases h) h c hc

example : (q_run exQc exAsk Query.new).map (fun q => q.call) = some (some 0) := by decide +kernel

/-- C82 (the answer): unless it could not subscribe, the query answers only when collecting has ended and so has the
call. -/
theorem c82_waits {W : Type} {qc : QCfg} {decode_err : Bytes → Option W} {hash : Bytes → Nty → Key}
    {iter : List Nty → List Nty} {prims : List Nty} {q : Query}
    (h : (q.result qc decode_err hash iter prims).isSome) : q.refused = true ∨ q.ended = true ∧ ∃ (c : Nat) (cl : Call) (r : CallRes),
      q.call = some c ∧ q.client.calls[c]? = some cl ∧ cl.phase = .done r := by
  rw [Query.result] at h
  split at h
  · exact .inl ‹_›
  · refine .inr ?_
    split at h
    · cases h
    · rename_i c hc
      split at h
      · cases h
      · rename_i cl hcl
        split at h
        · rename_i r hr
          split at h
          · exact ⟨‹_›, c, cl, r, hc, hcl, hr⟩
          · cases h
        · cases h

set_option maxRecDepth 100000 in
example : (q_run exQc exPrompt Query.new).map (fun q => isReport (q.result (W := Unit) exQc (fun _ => none) exHash id [])) =
    some true := by decide +kernel

end PRpc.Props
