import Verif.Lemmas.Nusb
import Verif.Props.Usb
/-!
Property theorems C46 and C47: the host's USB transport.
-/

namespace PRpc.Props
open PRpc PRpc.Spec

/-- C46 (queue depth): a call of `receive` made with between none and four transfers queued, as every call is (see
`c46_in_flight_history`), never finds the queue empty; it returns a frame with three queued, an error with three or
none, and while it waits there are between one and four. -/
theorem c46_in_flight (clears : List Bool) (s : NusbRx) (hs : s.pending ≤ 4) (cs : List Completion) :
    ∃ o, recv_inner clears s cs = .ok o ∧
      (∀ d, o.res = .Ok d → o.rx.pending = 3) ∧
      (∀ e, o.res = .Err e → o.rx.pending = 3 ∨ o.rx.pending = 0) ∧
      (o.res = .waiting → 1 ≤ o.rx.pending ∧ o.rx.pending ≤ 4) := by
  obtain ⟨p, k⟩ := s
  obtain ⟨o, h1, h2, _⟩ := recv_loop_flight (cs.length + 1) clears p k cs hs (by omega)
  refine ⟨o, h1, ?_, ?_, ?_⟩ <;> intros <;> simp_all [FlightOk]

example : recv_inner [] NusbRx.new [⟨some .Stall, []⟩, ⟨some .Cancelled, []⟩] =
    .ok ⟨.waiting, ⟨2, 1⟩, [], []⟩ := by decide

/-- C46 (queue depth, all histories): however the transfers complete, no sequence of calls panics, and it leaves at most
four transfers queued. -/
theorem c46_in_flight_history (n : Nat) : ∀ (clears : List Bool) (s : NusbRx) (cs : List Completion), s.pending ≤ 4 →
    ∃ ds e s', nusb_receive_all n clears s cs = .ok (ds, e, s') ∧ s'.pending ≤ 4 := by
  induction n with
  | zero => intro _ s _ hs; exact ⟨[], none, s, rfl, hs⟩
  | succ n ih =>
    intro clears s cs hs
    obtain ⟨o, h1, h2, h3, h4⟩ := c46_in_flight clears s hs cs
    rw [receive_all_succ, h1]
    simp only [Exec.bind, recv_cont]
    cases h : o.res with
    | waiting => exact ⟨_, _, _, rfl, (h4 h).2⟩
    | Err e => exact ⟨_, _, _, rfl, by rcases h3 e h with h | h <;> omega⟩
    | Ok d =>
      obtain ⟨ds, e, s', h5, h6⟩ := ih o.clears o.rx o.rest (by rw [h2 d h]; omega)
      exact ⟨d :: ds, e, s', by simp [h5], h6⟩

example : NusbRx.new.pending ≤ 4 := by decide

/-- C46 (waiting with a full queue): a call that has taken no completion, or whose recoveries are all finished, waits with
all four transfers queued. -/
theorem c46_full_while_waiting (clears : List Bool) (s : NusbRx) (hs : s.pending ≤ 4) (cs : List Completion) (k : Nat)
    (h : Tolerated s.consecutive_errs cs [] k) (hcl : ∀ b ∈ clears, b = true) :
    ∃ o, recv_inner clears s cs = .ok o ∧ o.res = .waiting ∧ o.rx = ⟨4, k⟩ := by
  obtain ⟨p, k0⟩ := s
  have : ∀ (f p : Nat) (clears : List Bool) (ds : List Bytes), ds = [] → Tolerated k0 cs ds k →
      p ≤ 4 → cs.length < f → (∀ b ∈ clears, b = true) →
      ∃ o, recv_loop f clears ⟨p, k0⟩ cs = .ok o ∧ o.res = .waiting ∧ o.rx = ⟨4, k⟩ := by
    intro f p clears ds hds ht
    clear h hs
    induction ht generalizing f p clears with
    | nil =>
      intro hp hf _
      obtain ⟨f, rfl⟩ : ∃ g, f = g + 1 := ⟨f - 1, by omega⟩
      exact ⟨_, recv_nil f clears hp, rfl, rfl⟩
    | good => cases hds
    | @recovery k0 e x a b c cs ds k' he hk ht ih =>
      intro hp hf hc
      obtain ⟨f, rfl⟩ : ∃ g, f = g + 1 := ⟨f - 1, by omega⟩
      rw [recv_recover f clears hp e x a b c _ he hk]
      have hh : clears.headD true = true := by
        cases clears with
        | nil => rfl
        | cons b _ => exact hc b (by simp)
      rw [hh, if_pos rfl]
      exact ih f 0 clears.tail hds (by omega) (by simp at hf ⊢; omega) (fun b hb => hc b (List.mem_of_mem_tail hb))
  exact this (cs.length + 1) p clears [] rfl h hs (by omega) hcl

example : Tolerated 0 [⟨some .Stall, []⟩, ⟨some .Cancelled, []⟩, ⟨some .Cancelled, []⟩, ⟨some .Cancelled, []⟩] [] 1 :=
  .recovery (.inl rfl) (by decide) .nil

/-- C46 (tolerance): with at most ten recoveries in a row and a stall that can be cleared, all frames of the transfers
outside recoveries are returned, in order, and the receiver then waits for more, with its queue full. -/
theorem c46_tolerates (cs : List Completion) (ds : List Bytes) (k : Nat) (h : Tolerated 0 cs ds k) (clears : List Bool)
    (hcl : ∀ b ∈ clears, b = true) (n : Nat) (hn : ds.length < n) :
    nusb_receive_all n clears NusbRx.new cs = .ok (ds, none, ⟨4, k⟩) := by
  obtain ⟨n, rfl⟩ : ∃ m, n = m + 1 := ⟨n - 1, by omega⟩
  obtain ⟨f', n', cl', p', h1, h2, h3, h4⟩ := tolerated_run h (cs.length + 1) n clears 0 [] (by omega) (by simp) hn hcl
  obtain ⟨f', rfl⟩ : ∃ g, f' = g + 1 := ⟨f' - 1, by simp at h2; omega⟩
  rw [recv_nil f' cl' h1] at h4
  rw [receive_all_succ]
  simpa [recv_inner, Exec.bind, recv_cont, NusbRx.new] using h4

example : Tolerated 0 [⟨none, [1#8]⟩, ⟨some .Unknown, []⟩, ⟨some .Cancelled, []⟩, ⟨some .Cancelled, []⟩,
    ⟨some .Cancelled, []⟩, ⟨none, [2#8]⟩] [[1#8], [2#8]] 0 :=
  .good (.recovery (.inr rfl) (by decide) (.good .nil))

/-- C46 (giving up): the first error that is not a stall, and the eleventh stall in a row, end reception with that error,
after all frames before it. -/
theorem c46_gives_up (cs : List Completion) (ds : List Bytes) (k : Nat) (h : Tolerated 0 cs ds k) (clears : List Bool)
    (hcl : ∀ b ∈ clears, b = true) (n : Nat) (hn : ds.length < n) (e : TransferError) (x : Bytes)
    (he : ¬ Stalled e ∨ k = 10) (rest : List Completion) :
    ∃ s, nusb_receive_all n clears NusbRx.new (cs ++ ⟨some e, x⟩ :: rest) = .ok (ds, some e, s) := by
  obtain ⟨n, rfl⟩ : ∃ m, n = m + 1 := ⟨n - 1, by omega⟩
  obtain ⟨f', n', cl', p', h1, h2, h3, h4⟩ := tolerated_run h ((cs ++ ⟨some e, x⟩ :: rest).length + 1) n clears 0
    (⟨some e, x⟩ :: rest) (by omega) (by omega) hn hcl
  obtain ⟨f', rfl⟩ : ∃ g, f' = g + 1 := ⟨f' - 1, by simp at h2; omega⟩
  rw [recv_fatal f' cl' h1 e x rest (by rcases he with he | he; exact .inl he; exact .inr (by omega))] at h4
  refine ⟨⟨3, k + 1⟩, ?_⟩
  rw [receive_all_succ]
  simpa [recv_inner, Exec.bind, recv_cont, NusbRx.new] using h4

example : ¬ Stalled .Disconnected ∧ Tolerated 0 [⟨none, [1#8]⟩] [[1#8]] 0 :=
  ⟨by simp [Stalled], .good .nil⟩

/-- C46 (giving up): a stall that cannot be cleared ends reception with the stall's error. -/
theorem c46_uncleared_stall (s : NusbRx) (hs : s.pending ≤ 4) (hk : s.consecutive_errs < 10) (e : TransferError)
    (he : Stalled e) (x : Bytes) (a b c : Completion) (rest : List Completion) (clears : List Bool) :
    ∃ o, recv_inner (false :: clears) s (⟨some e, x⟩ :: a :: b :: c :: rest) = .ok o ∧ o.res = .Err e := by
  obtain ⟨p, k⟩ := s
  exact ⟨_, recv_recover _ (false :: clears) hs e x a b c rest he hk, rfl⟩

example : NusbRx.new.pending ≤ 4 ∧ NusbRx.new.consecutive_errs < 10 ∧ Stalled .Stall := by simp [NusbRx.new, Stalled]

/-- C46: the theorems above leave no sequence out.  Every sequence of completions is tolerated up to a point at which it
ends, possibly in the middle of a recovery, or reception gives up. -/
theorem c46_every_sequence (cs : List Completion) : ∃ pre tl ds k, cs = pre ++ tl ∧ Tolerated 0 pre ds k ∧
    (tl = [] ∨ (∃ e x r, tl = ⟨some e, x⟩ :: r ∧ Stalled e ∧ k < 10 ∧ r.length < 3) ∨
      ∃ e x r, tl = ⟨some e, x⟩ :: r ∧ (¬ Stalled e ∨ k = 10)) := by
  have : ∀ (n k0 : Nat) (cs : List Completion), cs.length = n → k0 ≤ 10 →
      ∃ pre tl ds k, cs = pre ++ tl ∧ Tolerated k0 pre ds k ∧
        (tl = [] ∨ (∃ e x r, tl = ⟨some e, x⟩ :: r ∧ Stalled e ∧ k < 10 ∧ r.length < 3) ∨
          ∃ e x r, tl = ⟨some e, x⟩ :: r ∧ (¬ Stalled e ∨ k = 10)) := by
    intro n
    induction n using Nat.strongRecOn with
    | _ n ih =>
      intro k0 cs hn hk0
      rcases turn_cases k0 cs with rfl | ⟨d, r, rfl⟩ | ⟨e, x, r, rfl, h⟩ | ⟨e, x, a, b, c, r, rfl, he, hk⟩ |
        ⟨e, x, r, rfl, he, hk, hl⟩
      · exact ⟨[], [], [], k0, rfl, .nil, .inl rfl⟩
      · obtain ⟨pre, tl, ds, k, h1, h2, h3⟩ := ih r.length (by simp at hn; omega) 0 r rfl (by omega)
        exact ⟨_ :: pre, tl, d :: ds, k, by rw [h1]; rfl, .good h2, h3⟩
      · refine ⟨[], _, [], k0, rfl, .nil, .inr (.inr ⟨e, x, r, rfl, ?_⟩)⟩
        rcases h with h | h
        · exact .inl h
        · exact .inr (by omega)
      · obtain ⟨pre, tl, ds, k, h1, h2, h3⟩ := ih r.length (by simp at hn; omega) (k0 + 1) r rfl (by omega)
        exact ⟨_ :: a :: b :: c :: pre, tl, ds, k, by rw [h1]; rfl, .recovery he hk h2, h3⟩
      · exact ⟨[], _, [], k0, rfl, .nil, .inr (.inl ⟨e, x, r, rfl, he, hk, hl⟩)⟩
  exact this cs.length 0 cs rfl (by omega)

example : (⟨some .Fault, []⟩ : Completion) :: [] ≠ [] := by decide

/-- C46, order and completeness as stated: every transfer that completed well is returned, in order. -/
def C46NoLoss : Prop :=
  ∀ (cs : List Completion) (ds : List Bytes) (k : Nat), Tolerated 0 cs ds k →
    ∀ n, cs.length < n → ∃ s, nusb_receive_all n [] NusbRx.new cs = .ok (goodData cs, none, s)

/-- C46: "without loss" is false.  A transfer in flight behind a stalled one may complete well before the cancellation
reaches it; its data are discarded with the cancelled ones. -/
theorem c46_no_loss_false : ¬ C46NoLoss := by
  intro h
  obtain ⟨s, hs⟩ := h [⟨some .Stall, []⟩, ⟨none, [7#8]⟩, ⟨some .Cancelled, []⟩, ⟨some .Cancelled, []⟩] [] 1
    (.recovery (.inl rfl) (by decide) .nil) 5 (by decide)
  have := c46_tolerates _ _ _ (.recovery (e := .Stall) (x := []) (a := ⟨none, [7#8]⟩) (b := ⟨some .Cancelled, []⟩)
    (c := ⟨some .Cancelled, []⟩) (.inl rfl) (by decide) .nil) [] (by simp) 5 (by decide)
  rw [this] at hs
  simp [goodData] at hs

/-- The transfers in flight behind a stalled one were all cancelled (completed with an error). -/
inductive CleanRecoveries : List Completion → Prop where
  | nil : CleanRecoveries []
  | good {d cs} : CleanRecoveries cs → CleanRecoveries (⟨none, d⟩ :: cs)
  | recovery {e x a b c cs} : a.status ≠ none → b.status ≠ none → c.status ≠ none → CleanRecoveries cs →
      CleanRecoveries (⟨some e, x⟩ :: a :: b :: c :: cs)

/-- C46, order and completeness, what holds: when the transfers in flight behind a stalled one were all cancelled, every
transfer that completed well is returned, in order.  Missing: recoveries during which a transfer completes well. -/
theorem c46_no_loss_partial (cs : List Completion) (ds : List Bytes) (k : Nat) (h : Tolerated 0 cs ds k)
    (hc : CleanRecoveries cs) (n : Nat) (hn : cs.length < n) :
    ∃ s, nusb_receive_all n [] NusbRx.new cs = .ok (goodData cs, none, s) := by
  have : ∀ (k0 : Nat), Tolerated k0 cs ds k → ds = goodData cs ∧ ds.length ≤ cs.length := by
    intro k0 ht
    clear h hn
    induction ht with
    | nil => simp [goodData]
    | good ht ih =>
      cases hc with
      | good hc =>
        obtain ⟨h1, h2⟩ := ih hc
        refine ⟨?_, by simp; omega⟩
        rw [h1]
        simp [goodData]
    | recovery he hk ht ih =>
      cases hc with
      | recovery h1 h2 h3 hc =>
        obtain ⟨h4, h5⟩ := ih hc
        refine ⟨?_, by simp; omega⟩
        rw [h4]
        simp [goodData, h1, h2, h3]
  obtain ⟨h1, h2⟩ := this 0 h
  rw [← h1]
  exact ⟨_, c46_tolerates cs ds k h [] (by simp) n (by omega)⟩

example : CleanRecoveries [⟨some .Stall, []⟩, ⟨some .Cancelled, []⟩, ⟨some .Cancelled, []⟩, ⟨some .Cancelled, []⟩,
    ⟨none, [3#8]⟩] := .recovery (by decide) (by decide) (by decide) (.good .nil)

/-! ### C47 -/

/-- C47 (packet size known): whatever the completions, sending does not panic; the packets of the first `m` frames go out
(all frames when all sends succeed), and the device sees exactly these frames, each with exactly one end, and no frame
left open. -/
theorem c47_usb_transmit (p : Nat) (hp : 0 < p) (frames : List Bytes) (hne : ∀ d ∈ frames, d ≠ [])
    (cs : List Completion) :
    ∃ n r t m, nusb_send_all frames ⟨some p, [], 0⟩ cs = .ok (n, r, t) ∧ n ≤ m ∧ m ≤ n + 1 ∧
      (r = .Ok → n = frames.length ∧ m = frames.length) ∧
      framesOf p [] (t.submitted.flatMap (bulk p)) = (frames.take m, []) := by
  obtain ⟨n, r, t, m, h1, h2, h3, h4, h5, h6⟩ := nusb_send_all_ok frames ⟨some p, [], 0⟩ cs
    (by simp; omega)
  refine ⟨n, r, t, m, h1, h2, h3, fun e => ⟨h5 e, by have := h5 e; omega⟩, ?_⟩
  rw [h6, List.nil_append, framesOf_txAll p hp _ _ (fun d hd => hne d (List.mem_of_mem_take hd))
    (fun d _ h => by simp [zlpOf, h])]
  have : ∀ l : List Bytes, (l.flatMap fun d =>
      d :: if zlpOf (some p) d.length = true ∧ d.length % p ≠ 0 then [[]] else []) = l := by
    intro l
    induction l with
    | nil => rfl
    | cons d l ih => rw [List.flatMap_cons, ih]; simp [zlpOf]
  rw [this]

example : (nusb_send_all [List.replicate 8 1#8, [2#8]] ⟨some 8, [], 0⟩ [⟨none, []⟩, ⟨none, []⟩, ⟨none, []⟩]) =
    .ok (2, .Ok, ⟨some 8, [List.replicate 8 1#8, [], [2#8]], 0⟩) := by decide

/-- C47 (packet size known to be a divisor of the endpoint's, or not known): every frame is ended; there may be a second,
empty, end after one that needed none. -/
theorem c47_usb_transmit_unknown_size (p : Nat) (hp : 0 < p) (mps : Option Nat) (hm : ∀ q, mps = some q → 0 < q ∧ q ∣ p)
    (frames : List Bytes) (hne : ∀ d ∈ frames, d ≠ []) (cs : List Completion) :
    ∃ n r t m, nusb_send_all frames ⟨mps, [], 0⟩ cs = .ok (n, r, t) ∧ n ≤ m ∧ m ≤ n + 1 ∧
      (r = .Ok → n = frames.length ∧ m = frames.length) ∧
      (framesOf p [] (t.submitted.flatMap (bulk p))).2 = [] ∧
      (framesOf p [] (t.submitted.flatMap (bulk p))).1.filter (· ≠ []) = frames.take m := by
  obtain ⟨n, r, t, m, h1, h2, h3, h4, h5, h6⟩ := nusb_send_all_ok frames ⟨mps, [], 0⟩ cs
    (fun e => by have := (hm 0 e).1; omega)
  have hz : ∀ d ∈ frames.take m, d.length % p = 0 → zlpOf mps d.length = true := by
    intro d _ h0
    cases mps with
    | none => rfl
    | some q =>
      have := (hm q rfl).2
      simp only [zlpOf, decide_eq_true_eq]
      exact Nat.mod_eq_zero_of_dvd (Nat.dvd_trans this (Nat.dvd_of_mod_eq_zero h0))
  refine ⟨n, r, t, m, h1, h2, h3, fun e => ⟨h5 e, by have := h5 e; omega⟩, ?_, ?_⟩
  · rw [h6, List.nil_append, framesOf_txAll p hp _ _ (fun d hd => hne d (List.mem_of_mem_take hd)) hz]
  · rw [h6, List.nil_append, framesOf_txAll p hp _ _ (fun d hd => hne d (List.mem_of_mem_take hd)) hz]
    exact flatMap_filter_ne _ p _ (fun d hd => hne d (List.mem_of_mem_take hd))

example : (nusb_send_all [[2#8]] ⟨none, [], 0⟩ [⟨none, []⟩, ⟨none, []⟩]) = .ok (1, .Ok, ⟨none, [[2#8], []], 0⟩) := by
  decide

theorem foldl_mps (l : List Nat) (m : Nat) : ∃ q,
    l.foldl (fun mps ep => some (match mps with | some old => min old ep | none => ep)) (some m) = some q ∧
      (q = m ∨ q ∈ l) ∧ q ≤ m ∧ ∀ x ∈ l, q ≤ x := by
  induction l generalizing m with
  | nil => exact ⟨m, rfl, .inl rfl, by omega, by simp⟩
  | cons x l ih =>
    obtain ⟨q, h1, h2, h3, h4⟩ := ih (min m x)
    refine ⟨q, h1, ?_, by omega, ?_⟩
    · rcases h2 with h2 | h2
      · by_cases h : m ≤ x
        · exact .inl (by omega)
        · exact .inr (by simp; omega)
      · exact .inr (by simp [h2])
    · intro y hy
      rcases List.mem_cons.mp hy with rfl | hy
      · omega
      · exact h4 y hy

/-- C47: the packet size is known whenever the interface has a bulk OUT endpoint, and is the least of theirs. -/
theorem c47_packet_size_detected (eps : List Nat) (h : eps ≠ []) :
    ∃ q, detect_mps eps = some q ∧ q ∈ eps ∧ ∀ x ∈ eps, q ≤ x := by
  cases eps with
  | nil => exact absurd rfl h
  | cons m l =>
    obtain ⟨q, h1, h2, h3, h4⟩ := foldl_mps l m
    refine ⟨q, h1, ?_, ?_⟩
    · rcases h2 with rfl | h2 <;> simp_all
    · intro x hx
      rcases List.mem_cons.mp hx with rfl | hx
      · exact h3
      · exact h4 x hx

example : detect_mps [64, 512] = some 64 ∧ detect_mps [] = none := by decide

/-- The packets of one frame of at least one byte, sent with packets of 64 bytes. -/
theorem packets_txOf (d : Bytes) (hd : d ≠ []) :
    Packets d ((txOf (zlpOf (some 64)) d).flatMap (bulk 64)) := by
  induction hn : d.length using Nat.strongRecOn generalizing d with
  | _ n ih =>
    subst hn
    have hb : bulk 64 [] = [[]] := by rw [bulk]; simp
    by_cases h1 : d.length < 64
    · have : ¬ d.length % 64 = 0 := by
        have := List.length_pos_iff.mpr hd
        omega
      have e : (txOf (zlpOf (some 64)) d).flatMap (bulk 64) = [d] := by
        simp [txOf, zlpOf, this]
        rw [bulk]; simp; omega
      rw [e]
      exact .last h1
    · by_cases h2 : d.length = 64
      · have e : (txOf (zlpOf (some 64)) d).flatMap (bulk 64) = [d, []] := by
          simp [txOf, zlpOf, h2, hb]
          rw [bulk]; simp [h2]
        rw [e]
        simpa using Packets.more h2 (.last (p := []) (by simp))
      · have e : (txOf (zlpOf (some 64)) d).flatMap (bulk 64) =
            d.take 64 :: (txOf (zlpOf (some 64)) (d.drop 64)).flatMap (bulk 64) := by
          have hm : (d.length - 64) % 64 = d.length % 64 := by omega
          simp only [txOf, zlpOf, List.length_drop, hm, List.flatMap_cons]
          rw [bulk, dif_neg (by omega)]
          rfl
        rw [e]
        have := Packets.more (p := d.take 64) (by simp; omega) (ih (d.drop 64).length (by simp; omega) (d.drop 64)
          (by intro h; have := congrArg List.length h; simp at this; omega) rfl)
        simpa using this

/-- C47 with C32 (host to device): with 64-byte packets and a device buffer of a multiple of 64 bytes, larger than every
frame, what the device's receiver returns is exactly the list of frames the host sent, in order. -/
theorem c47_device_receives (lost : Bool) (B : Nat) (hB : 64 ∣ B) (hpos : 0 < B) (frames : List Bytes)
    (hne : ∀ d ∈ frames, d ≠ [] ∧ d.length < B) (cs : List Completion) (n : Nat) (t : NusbTx)
    (hs : nusb_send_all frames ⟨some 64, [], 0⟩ cs = .ok (n, .Ok, t)) (calls : Nat) (hc : frames.length ≤ calls) :
    (usb_receive_all lost B calls ((t.submitted.flatMap (bulk 64)).map .packet)).1 = frames.map .Ok := by
  obtain ⟨n', r', t', m, h1, h2, h3, h4, h5, h6⟩ := nusb_send_all_ok frames ⟨some 64, [], 0⟩ cs (by simp)
  rw [h1] at hs
  cases hs
  have hm : m = frames.length := by have := h5 rfl; omega
  rw [hm, List.take_length, List.nil_append] at h6
  have hall : ∀ fs : List Bytes, (∀ d ∈ fs, d ≠ []) →
      AllPackets fs (fs.map fun d => (txOf (zlpOf (some 64)) d).flatMap (bulk 64)) := by
    intro fs
    induction fs with
    | nil => intro _; exact .nil
    | cons d fs ih =>
      intro h
      exact .cons (packets_txOf d (h d (by simp))) (ih fun x hx => h x (List.mem_cons_of_mem _ hx))
  have hfl : (frames.map fun d => (txOf (zlpOf (some 64)) d).flatMap (bulk 64)).flatten =
      t.submitted.flatMap (bulk 64) := by
    rw [h6, List.flatMap_assoc, List.flatMap_def]
  have := c32_usb_receive_partial lost B hB hpos frames _ (hall frames fun d hd => (hne d hd).1) calls
  rw [hfl] at this
  rw [this]
  have : (frames.map fun d => if d.length < B then RxRes.Ok d else .ReceivedMessageTooLarge) = frames.map .Ok :=
    List.map_congr_left fun d hd => by rw [if_pos (hne d hd).2]
  rw [this, List.take_of_length_le (by simpa using hc)]

example : ∃ t, nusb_send_all [List.replicate 64 1#8, [2#8]] ⟨some 64, [], 0⟩ [⟨none, []⟩, ⟨none, []⟩, ⟨none, []⟩] =
    .ok (2, .Ok, t) := ⟨⟨some 64, [List.replicate 64 1#8, [], [2#8]], 0⟩, by decide +kernel⟩

end PRpc.Props
