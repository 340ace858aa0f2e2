import Verif.Spec.Nusb
/-! Helper lemmas for the host's USB transport. -/

namespace PRpc
open Spec

theorem recoverable_of {e : TransferError} {k : Nat} (he : Stalled e) (hk : k < 10) : recoverable e (k + 1) = true := by
  rcases he with rfl | rfl <;> simp [recoverable, MAX_STALL_RETRIES] <;> omega

theorem not_recoverable_of {e : TransferError} {k : Nat} (h : ¬ Stalled e ∨ 10 ≤ k) : recoverable e (k + 1) = false := by
  cases e <;> simp_all [recoverable, MAX_STALL_RETRIES, Stalled] <;> omega

theorem rehydrate_eq {p k : Nat} (hp : p ≤ 4) : rehydrate ⟨p, k⟩ = ⟨4, k⟩ := by
  simp [rehydrate, IN_FLIGHT_REQS]; omega

theorem recv_nil (f : Nat) (cl : List Bool) {p k : Nat} (hp : p ≤ 4) :
    recv_loop (f + 1) cl ⟨p, k⟩ [] = .ok ⟨.waiting, ⟨4, k⟩, cl, []⟩ := by
  simp [recv_loop, rehydrate_eq hp, next_complete, bind, Exec.bind]

theorem recv_good (f : Nat) (cl : List Bool) {p k : Nat} (hp : p ≤ 4) (d : Bytes) (cs : List Completion) :
    recv_loop (f + 1) cl ⟨p, k⟩ (⟨none, d⟩ :: cs) = .ok ⟨.Ok d, ⟨3, 0⟩, cl, cs⟩ := by
  simp [recv_loop, rehydrate_eq hp, next_complete, bind, Exec.bind]

theorem recv_fatal (f : Nat) (cl : List Bool) {p k : Nat} (hp : p ≤ 4) (e : TransferError) (x : Bytes)
    (cs : List Completion) (h : ¬ Stalled e ∨ 10 ≤ k) :
    recv_loop (f + 1) cl ⟨p, k⟩ (⟨some e, x⟩ :: cs) = .ok ⟨.Err e, ⟨3, k + 1⟩, cl, cs⟩ := by
  simp [recv_loop, rehydrate_eq hp, next_complete, bind, Exec.bind, not_recoverable_of h]

theorem recv_recover (f : Nat) (cl : List Bool) {p k : Nat} (hp : p ≤ 4) (e : TransferError) (x : Bytes)
    (a b c : Completion) (cs : List Completion) (he : Stalled e) (hk : k < 10) :
    recv_loop (f + 1) cl ⟨p, k⟩ (⟨some e, x⟩ :: a :: b :: c :: cs) =
      if cl.headD true then recv_loop f cl.tail ⟨0, k + 1⟩ cs else .ok ⟨.Err e, ⟨0, k + 1⟩, cl.tail, cs⟩ := by
  simp [recv_loop, rehydrate_eq hp, next_complete, bind, Exec.bind, recoverable_of he hk, join_in_flight,
    IN_FLIGHT_REQS]

theorem recv_part (f : Nat) (cl : List Bool) {p k : Nat} (hp : p ≤ 4) (e : TransferError) (x : Bytes)
    (cs : List Completion) (he : Stalled e) (hk : k < 10) (hl : cs.length < 3) :
    recv_loop (f + 1) cl ⟨p, k⟩ (⟨some e, x⟩ :: cs) = .ok ⟨.waiting, ⟨3 - cs.length, k + 1⟩, cl, []⟩ := by
  match cs, hl with
  | [], _ => simp [recv_loop, rehydrate_eq hp, next_complete, bind, Exec.bind, recoverable_of he hk, join_in_flight,
    IN_FLIGHT_REQS]
  | [a], _ => simp [recv_loop, rehydrate_eq hp, next_complete, bind, Exec.bind, recoverable_of he hk, join_in_flight,
    IN_FLIGHT_REQS]
  | [a, b], _ => simp [recv_loop, rehydrate_eq hp, next_complete, bind, Exec.bind, recoverable_of he hk, join_in_flight,
    IN_FLIGHT_REQS]

/-- How the sequence of completions goes on: the cases of one turn of the receive loop. -/
theorem turn_cases (k : Nat) (cs : List Completion) :
    cs = [] ∨ (∃ d r, cs = ⟨none, d⟩ :: r) ∨ (∃ e x r, cs = ⟨some e, x⟩ :: r ∧ (¬ Stalled e ∨ 10 ≤ k)) ∨
    (∃ e x a b c r, cs = ⟨some e, x⟩ :: a :: b :: c :: r ∧ Stalled e ∧ k < 10) ∨
    (∃ e x r, cs = ⟨some e, x⟩ :: r ∧ Stalled e ∧ k < 10 ∧ r.length < 3) := by
  match cs with
  | [] => exact .inl rfl
  | ⟨none, d⟩ :: r => exact .inr (.inl ⟨d, r, rfl⟩)
  | ⟨some e, x⟩ :: r =>
    by_cases h : Stalled e ∧ k < 10
    · match r with
      | a :: b :: c :: r => exact .inr (.inr (.inr (.inl ⟨e, x, a, b, c, r, rfl, h⟩)))
      | [] => exact .inr (.inr (.inr (.inr ⟨e, x, _, rfl, h.1, h.2, by simp⟩)))
      | [_] => exact .inr (.inr (.inr (.inr ⟨e, x, _, rfl, h.1, h.2, by simp⟩)))
      | [_, _] => exact .inr (.inr (.inr (.inr ⟨e, x, _, rfl, h.1, h.2, by simp⟩)))
    · refine .inr (.inr (.inl ⟨e, x, r, rfl, ?_⟩))
      by_cases he : Stalled e
      · exact .inr (Nat.le_of_not_lt fun hk => h ⟨he, hk⟩)
      · exact .inl he

/-- What a call that has ended or waits leaves behind. -/
def FlightOk (o : NusbOut) : Prop :=
  match o.res with
  | .Ok _ => o.rx.pending = 3 ∧ o.rx.consecutive_errs = 0
  | .Err _ => o.rx.pending = 3 ∨ o.rx.pending = 0
  | .waiting => 1 ≤ o.rx.pending ∧ o.rx.pending ≤ 4 ∧ o.rest = []

theorem recv_loop_flight (f : Nat) : ∀ (cl : List Bool) (p k : Nat) (cs : List Completion), p ≤ 4 → cs.length < f →
    ∃ o, recv_loop f cl ⟨p, k⟩ cs = .ok o ∧ FlightOk o ∧ o.rest.length ≤ cs.length := by
  induction f with
  | zero => intro _ _ _ _ _ h; omega
  | succ f ih =>
    intro cl p k cs hp hf
    rcases turn_cases k cs with rfl | ⟨d, r, rfl⟩ | ⟨e, x, r, rfl, h⟩ | ⟨e, x, a, b, c, r, rfl, he, hk⟩ |
      ⟨e, x, r, rfl, he, hk, hl⟩
    · exact ⟨_, recv_nil f cl hp, by simp [FlightOk], by simp⟩
    · exact ⟨_, recv_good f cl hp d r, by simp [FlightOk], by simp⟩
    · exact ⟨_, recv_fatal f cl hp e x r h, by simp [FlightOk], by simp⟩
    · rw [recv_recover f cl hp e x a b c r he hk]
      split
      · obtain ⟨o, h1, h2, h3⟩ := ih cl.tail 0 (k + 1) r (by omega) (by simp at hf; omega)
        exact ⟨o, h1, h2, by simp; omega⟩
      · exact ⟨_, rfl, by simp [FlightOk], by simp; omega⟩
    · exact ⟨_, recv_part f cl hp e x r he hk hl, by simp [FlightOk]; omega, by simp⟩

/-- What `nusb_receive_all` does with the outcome of a call, `n` calls being left after it. -/
def recv_cont (n : Nat) (o : NusbOut) : Exec (List Bytes × Option TransferError × NusbRx) :=
  match o.res with
  | .waiting => .ok ([], none, o.rx)
  | .Err e => .ok ([], some e, o.rx)
  | .Ok d => do
    let (ds, e, s) ← nusb_receive_all n o.clears o.rx o.rest
    .ok (d :: ds, e, s)

theorem receive_all_succ (n : Nat) (cl : List Bool) (s : NusbRx) (cs : List Completion) :
    nusb_receive_all (n + 1) cl s cs = (recv_inner cl s cs).bind (recv_cont n) := rfl

/-- The tolerated completions are passed, the data delivered. -/
theorem tolerated_run {k cs ds k'} (h : Tolerated k cs ds k') : ∀ (f n : Nat) (cl : List Bool) (p : Nat)
    (tl : List Completion), p ≤ 4 → (cs ++ tl).length < f → ds.length < n + 1 → (∀ b ∈ cl, b = true) →
    ∃ f' n' cl' p', p' ≤ 4 ∧ tl.length < f' ∧ (∀ b ∈ cl', b = true) ∧
      (recv_loop f cl ⟨p, k⟩ (cs ++ tl)).bind (recv_cont n) =
        ((recv_loop f' cl' ⟨p', k'⟩ tl).bind (recv_cont n')).bind fun r => .ok (ds ++ r.1, r.2) := by
  induction h with
  | nil =>
    intro f n cl p tl hp hf _ hcl
    refine ⟨f, n, cl, p, hp, by simpa using hf, hcl, ?_⟩
    simp only [List.nil_append]
    cases (recv_loop f cl ⟨p, _⟩ tl).bind (recv_cont n) <;> rfl
  | @good k d cs ds k' ht ih =>
    intro f n cl p tl hp hf hn hcl
    obtain ⟨f, rfl⟩ : ∃ g, f = g + 1 := ⟨f - 1, by omega⟩
    obtain ⟨n, rfl⟩ : ∃ m, n = m + 1 := ⟨n - 1, by simp at hn; omega⟩
    rw [List.cons_append, recv_good f cl hp]
    obtain ⟨f', n', cl', p', h1, h2, h3, h4⟩ := ih ((cs ++ tl).length + 1) n cl 3 tl (by omega) (by omega)
      (by simp at hn ⊢; omega) hcl
    refine ⟨f', n', cl', p', h1, h2, h3, ?_⟩
    have : (Exec.ok (NusbOut.mk (.Ok d) ⟨3, 0⟩ cl (cs ++ tl))).bind (recv_cont (n + 1)) =
      ((recv_loop ((cs ++ tl).length + 1) cl ⟨3, 0⟩ (cs ++ tl)).bind (recv_cont n)).bind
        fun r => .ok (d :: r.1, r.2) := rfl
    rw [this, h4]
    cases ((recv_loop f' cl' ⟨p', k'⟩ tl).bind (recv_cont n')) <;> rfl
  | @recovery k e x a b c cs ds k' he hk ht ih =>
    intro f n cl p tl hp hf hn hcl
    obtain ⟨f, rfl⟩ : ∃ g, f = g + 1 := ⟨f - 1, by omega⟩
    simp only [List.cons_append]
    rw [recv_recover f cl hp e x a b c _ he hk]
    have hh : cl.headD true = true := by
      cases cl with
      | nil => rfl
      | cons b _ => exact hcl b (by simp)
    rw [hh, if_pos rfl]
    exact ih f n cl.tail 0 tl (by omega) (by simp at hf ⊢; omega) hn (fun b hb => hcl b (List.mem_of_mem_tail hb))

/-! ### Packets -/

theorem framesOf_append (p : Nat) (cur : Bytes) (xs ys : List Bytes) :
    framesOf p cur (xs ++ ys) =
      ((framesOf p cur xs).1 ++ (framesOf p (framesOf p cur xs).2 ys).1, (framesOf p (framesOf p cur xs).2 ys).2) := by
  induction xs generalizing cur with
  | nil => rfl
  | cons x xs ih =>
    simp only [List.cons_append, framesOf]
    split
    · rw [ih]; simp
    · rw [ih]

theorem framesOf_bulk (p : Nat) (hp : 0 < p) (d cur : Bytes) :
    framesOf p cur (bulk p d) = if d.length % p = 0 ∧ d ≠ [] then ([], cur ++ d) else ([cur ++ d], []) := by
  induction hn : d.length using Nat.strongRecOn generalizing d cur with
  | _ n ih =>
    subst hn
    rw [bulk]
    split
    · next h =>
      have hle : d.length ≤ p := by omega
      simp only [framesOf]
      by_cases h1 : d.length < p
      · rw [if_pos h1, if_neg]
        rintro ⟨h2, h3⟩
        rw [Nat.mod_eq_of_lt h1] at h2
        exact h3 (List.length_eq_zero_iff.mp h2)
      · have : d.length = p := by omega
        rw [if_neg h1, if_pos]
        refine ⟨by rw [this]; simp, ?_⟩
        intro h; subst h; simp at this; omega
    · next h =>
      have hgt : p < d.length := by omega
      have h1 : ¬ (d.take p).length < p := by simp; omega
      rw [framesOf, if_neg h1, ih (d.drop p).length (by simp; omega) (d.drop p) (cur ++ d.take p) rfl]
      have e1 : (d.drop p).length % p = d.length % p := by
        rw [List.length_drop, ← Nat.mod_eq_sub_mod (by omega)]
      have e2 : d.drop p ≠ [] := by
        intro h; have := congrArg List.length h; simp at this; omega
      have e3 : d ≠ [] := by intro h; subst h; simp at hgt
      simp only [e1, e2, e3, ne_eq, not_false_eq_true, and_true, List.append_assoc, List.take_append_drop]

end PRpc

namespace PRpc
open Spec

/-- The transfers submitted for one frame. -/
def txOf (zlp : Nat → Bool) (d : Bytes) : List Bytes := d :: if zlp d.length then [[]] else []

/-- The zero-length-packet rule as a plain function. -/
def zlpOf (mps : Option Nat) (len : Nat) : Bool :=
  match mps with
  | some m => decide (len % m = 0)
  | none => true

theorem needs_zlp_eq {mps : Option Nat} (h : mps ≠ some 0) (len : Nat) : needs_zlp mps len = .ok (zlpOf mps len) := by
  cases mps with
  | none => rfl
  | some m =>
    have : m ≠ 0 := fun e => h (by rw [e])
    simp [needs_zlp, zlpOf, this]

theorem tx_complete_ok (t : NusbTx) (cs : List Completion) (h : 0 < t.pending) :
    ∃ r q cs', tx_complete t cs = .ok (r, { t with pending := q }, cs') ∧ t.pending ≤ q + 1 ∧
      (r = .Ok → q + 1 = t.pending) := by
  unfold tx_complete
  rw [if_neg (by omega)]
  cases cs with
  | nil => exact ⟨_, t.pending, _, rfl, by omega, by simp⟩
  | cons c cs =>
    cases hc : c.status with
    | none => exact ⟨.Ok, t.pending - 1, cs, by simp [hc], by omega, by intro _; omega⟩
    | some e => exact ⟨.Err e, t.pending - 1, cs, by simp [hc], by omega, by simp⟩

theorem send_inner_ok (t : NusbTx) (d : Bytes) (cs : List Completion) (h : t.max_packet_size ≠ some 0) :
    ∃ r q cs', send_inner t d cs =
      .ok (r, { t with submitted := t.submitted ++ txOf (zlpOf t.max_packet_size) d, pending := q }, cs') ∧
      (r = .Ok → q = t.pending) := by
  unfold send_inner
  simp only [needs_zlp_eq h, Exec.ok_bind, txOf]
  cases hz : zlpOf t.max_packet_size d.length with
  | false =>
    obtain ⟨r, q, cs', h1, _, h2⟩ := tx_complete_ok (t.submit d) cs (by simp [NusbTx.submit])
    simp only [h1, Exec.ok_bind, Bool.false_eq_true, if_false]
    by_cases hr : r = .Ok
    · refine ⟨.Ok, q, cs', ?_, fun _ => ?_⟩
      · simp [hr, NusbTx.submit]
      · have := h2 hr; simp only [NusbTx.submit] at this; omega
    · exact ⟨r, q, cs', by simp [hr, NusbTx.submit], fun e => absurd e hr⟩
  | true =>
    obtain ⟨r, q, cs', h1, hq, h2⟩ := tx_complete_ok ((t.submit d).submit []) cs (by simp [NusbTx.submit])
    simp only [h1, Exec.ok_bind, if_true]
    by_cases hr : r = .Ok
    · obtain ⟨r', q', cs'', h3, _, h4⟩ := tx_complete_ok { (t.submit d).submit [] with pending := q } cs'
        (by simp [NusbTx.submit] at hq ⊢; omega)
      refine ⟨r', q', cs'', ?_, fun e => ?_⟩
      · simp only [hr, ne_eq, not_true_eq_false, if_false, h3]
        simp [NusbTx.submit]
      · have h5 := h4 e
        have h6 := h2 hr
        simp only [NusbTx.submit] at h5 h6
        omega
    · exact ⟨r, q, cs', by simp [hr, NusbTx.submit], fun e => absurd e hr⟩

theorem nusb_send_all_ok (frames : List Bytes) : ∀ (t : NusbTx) (cs : List Completion), t.max_packet_size ≠ some 0 →
    ∃ n r t' m, nusb_send_all frames t cs = .ok (n, r, t') ∧ n ≤ m ∧ m ≤ n + 1 ∧ m ≤ frames.length ∧
      (r = .Ok → n = frames.length) ∧
      t'.submitted = t.submitted ++ (frames.take m).flatMap (txOf (zlpOf t.max_packet_size)) := by
  induction frames with
  | nil => intro t cs _; exact ⟨0, .Ok, t, 0, rfl, by omega, by omega, by simp, by simp, by simp⟩
  | cons d ds ih =>
    intro t cs hm
    obtain ⟨r, q, cs', h1, _⟩ := send_inner_ok t d cs hm
    simp only [nusb_send_all, h1, Exec.ok_bind]
    by_cases hr : r = .Ok
    · obtain ⟨n, r', t', m, h2, h3, h4, h5, h6, h7⟩ := ih
        { t with submitted := t.submitted ++ txOf (zlpOf t.max_packet_size) d, pending := q } cs' hm
      refine ⟨n + 1, r', t', m + 1, ?_, by omega, by omega, by simp; omega, ?_, ?_⟩
      · simp [hr, h2]
      · intro e; simp [h6 e]
      · rw [h7]; simp
    · refine ⟨0, r, { t with submitted := t.submitted ++ txOf (zlpOf t.max_packet_size) d, pending := q }, 1, ?_,
        by omega, by omega, by simp, fun e => absurd e hr, ?_⟩
      · simp [hr]
      · simp

/-- What the device makes of the packets of one frame. -/
theorem framesOf_txOf (p : Nat) (hp : 0 < p) (zlp : Nat → Bool) (d : Bytes) (hd : d ≠ [])
    (hz : d.length % p = 0 → zlp d.length = true) :
    framesOf p [] ((txOf zlp d).flatMap (bulk p)) =
      (d :: if zlp d.length = true ∧ d.length % p ≠ 0 then [[]] else [], []) := by
  have hb : bulk p [] = [[]] := by rw [bulk]; simp
  simp only [txOf, List.flatMap_cons, framesOf_append, framesOf_bulk p hp]
  by_cases h0 : d.length % p = 0
  · simp [h0, hd, hz h0, hb, framesOf, hp]
  · cases h1 : zlp d.length <;> simp [h0, hb, framesOf, hp]

theorem framesOf_txAll (p : Nat) (hp : 0 < p) (zlp : Nat → Bool) (frames : List Bytes) (hne : ∀ d ∈ frames, d ≠ [])
    (hz : ∀ d ∈ frames, d.length % p = 0 → zlp d.length = true) :
    framesOf p [] ((frames.flatMap (txOf zlp)).flatMap (bulk p)) =
      (frames.flatMap fun d => d :: if zlp d.length = true ∧ d.length % p ≠ 0 then [[]] else [], []) := by
  induction frames with
  | nil => rfl
  | cons d ds ih =>
    rw [List.flatMap_cons, List.flatMap_append, framesOf_append,
      framesOf_txOf p hp zlp d (hne d (by simp)) (hz d (by simp))]
    simp only
    rw [ih (fun x hx => hne x (List.mem_cons_of_mem _ hx)) (fun x hx => hz x (List.mem_cons_of_mem _ hx))]
    simp

theorem flatMap_filter_ne (zlp : Nat → Bool) (p : Nat) (frames : List Bytes) (hne : ∀ d ∈ frames, d ≠ []) :
    (frames.flatMap fun d => d :: if zlp d.length = true ∧ d.length % p ≠ 0 then [[]] else []).filter (· ≠ []) =
      frames := by
  induction frames with
  | nil => rfl
  | cons d ds ih =>
    rw [List.flatMap_cons, List.filter_append, ih (fun x hx => hne x (List.mem_cons_of_mem _ hx))]
    have := hne d (by simp)
    split <;> simp [this]

end PRpc
