import Verif.Lemmas.Example
/-! C81: the handlers of the example firmware. -/

namespace PRpc.Props
open PRpc PRpc.Spec

/-- A header and a start request for the examples. -/
def fwHdr (n : Byte) : VarHeader := ⟨.Key1 ⟨7#8⟩, .Seq1 n⟩
def fwStart : StartAccel := ⟨100#32, .G2⟩

/-- **C81**: every LED always shows the colour last requested for it. -/
theorem c81_leds {id : BitVec 64} {ls : List FwLabel} {s : Fw} (h : fw_run ls (Fw.new id) = some s) :
    ∀ i (hi : i < 24), s.shown[i] = ledAfter i ls ⟨0#8, 0#8, 0#8⟩ := by
  have : Lit ls s := fw_induct (P := Lit) ⟨rfl, by intro i hi; simp [Fw.new, ledAfter]⟩
    (fun _ _ _ _ hs hst => step_lit hs hst) ls s h
  exact this.2

example : ∃ s, fw_run [.set_led (fwHdr 0#8) ⟨3#32, ⟨1#8, 2#8, 3#8⟩⟩, .set_led (fwHdr 1#8) ⟨24#32, ⟨9#8, 9#8, 9#8⟩⟩]
    (Fw.new 5#64) = some s ∧ s.shown[3] = ⟨1#8, 2#8, 3#8⟩ ∧ s.shown[4] = ⟨0#8, 0#8, 0#8⟩ :=
  ⟨_, rfl, rfl, rfl⟩

/-- **C81**: a request for one LED is answered with whether there is such an LED. -/
theorem c81_led_answer {s s' : Fw} {hdr : VarHeader} {r : SingleLed} (h : fw_step s (.set_led hdr r) = some s') :
    s'.log = s.log ++ [.answered hdr (.led (decide (r.position.toNat < 24)))] := by
  unfold fw_step at h
  split at h
  · cases h
  · by_cases hr : r.position.toNat ≥ 24
    · have : ¬r.position.toNat < 24 := by omega
      simp only [set_led_handler, hr, dite_true, Option.some.injEq] at h
      rw [← h]
      simp [Fw.note, this]
    · have hr' : r.position.toNat < 24 := by omega
      simp only [set_led_handler, hr, dite_false, Option.some.injEq] at h
      rw [← h]
      simp [Fw.note, hr']

example : ((fw_step (Fw.new 5#64) (.set_led (fwHdr 0#8) ⟨24#32, ⟨1#8, 2#8, 3#8⟩⟩)).map (·.log)) =
    some [.answered (fwHdr 0#8) (.led false)] := rfl

/-- **C81**: a request for all LEDs is answered. -/
theorem c81_all_answer {s s' : Fw} {hdr : VarHeader} {r : Vector Rgb8 24} (h : fw_step s (.set_all hdr r) = some s') :
    s'.log = s.log ++ [.answered hdr .all] := by
  unfold fw_step at h
  split at h
  · cases h
  · simp only [Option.some.injEq] at h
    rw [← h]
    rfl

example : ((fw_step (Fw.new 5#64) (.set_all (fwHdr 0#8) (Vector.replicate 24 ⟨1#8, 2#8, 3#8⟩))).map (·.log)) =
    some [.answered (fwHdr 0#8) .all] := rfl

/-- **C81**: pings are answered with their number, the id query with the id; both at once, whatever else goes on. -/
theorem c81_ping_id {id : BitVec 64} {ls : List FwLabel} {s : Fw} (h : fw_run ls (Fw.new id) = some s)
    (hh : s.halted = false) (hdr : VarHeader) (v : BitVec 32) :
    (∃ s', fw_step s (.ping hdr v) = some s' ∧ s'.log = s.log ++ [.answered hdr (.pong v)]) ∧
      ∃ s', fw_step s (.get_id hdr) = some s' ∧ s'.log = s.log ++ [.answered hdr (.id id)] := by
  have hid : s.unique_id = id := by
    refine fw_induct (P := fun _ s => s.unique_id = id) rfl ?_ ls s h
    intro _ s l s' hs hst
    rw [← hs]
    refine fw_cases (C := fun _ s' => s'.unique_id = s.unique_id) hst ?_ ?_ ?_ ?_ ?_ ?_ ?_ ?_ ?_ ?_ ?_ ?_ ?_ ?_ ?_ ?_ ?_ ?_
    · intro _ _; rfl
    · intro _; rfl
    · intro _ r; unfold set_led_handler; split <;> rfl
    · intro _ _; rfl
    · intro _ _ _ _; rfl
    · intro _ _ _; rfl
    · intro _ _; rfl
    · intro _ _; rfl
    · intro _ _ _ _; rfl
    · intro _ _ _; rfl
    · intro _ _ _; rfl
    · intro _ _ _; unfold acc_check; split <;> rfl
    · intro _ _ _; rfl
    · intro _ _ _; rfl
    · intro _ _ _ _; rfl
    · intro _ _ _; rfl
    · intro _ _ _ _; unfold acc_check; split <;> rfl
    · intro _ _ _ _; rfl
  refine ⟨⟨_, by unfold fw_step; rw [if_neg (by simp [hh])], rfl⟩, _, by unfold fw_step; rw [if_neg (by simp [hh])], ?_⟩
  simp [Fw.note, hid]

example : ∃ s, fw_run [.start (fwHdr 0#8) fwStart, .acc_run] (Fw.new 5#64) = some s ∧ s.halted = false := ⟨_, rfl, rfl⟩

/-- **C81**: what the acceleration streams send is one stream after another, each a reply and then samples numbered
0, 1, 2, … modulo 256 without gaps, none after a failed one. -/
theorem c81_streams {id : BitVec 64} {ls : List FwLabel} {s : Fw} (h : fw_run ls (Fw.new id) = some s) :
    Streams (streamed s.log) :=
  streaming_streams (run_streaming h)

/-- A start, its reply and two samples. -/
def fwTwo : List FwLabel :=
  [.start (fwHdr 0#8) fwStart, .acc_run, .acc_replied true, .acc_ranged true, .acc_tick,
    .acc_sampled (some ⟨1#16, 2#16, 3#16⟩), .acc_published true, .acc_tick, .acc_sampled (some ⟨1#16, 2#16, 4#16⟩),
    .acc_published true]

example : ∃ s, fw_run fwTwo (Fw.new 5#64) = some s ∧ streamed s.log =
    [.replied (fwHdr 0#8) true, .published 0#8 ⟨1#16, 2#16, 3#16⟩ true, .published 1#8 ⟨1#16, 2#16, 4#16⟩ true] :=
  ⟨_, rfl, rfl⟩

/-- **C81**: the samples sent are what the sensor measured, each measurement once and in order; the last may still be on
its way. -/
theorem c81_sensor_values {id : BitVec 64} {ls : List FwLabel} {s : Fw} (h : fw_run ls (Fw.new id) = some s) :
    ∃ rest, readings ls = sentValues s.log ++ rest ∧ rest.length ≤ 1 := by
  have : Measured ls s := fw_induct (P := Measured) (s0 := Fw.new id) rfl (fun _ _ _ _ hs hst => step_measured hs hst) ls s h
  refine ⟨_, this, ?_⟩
  unfold accPending
  split
  · split
    · exact Nat.le_refl 1
    · exact Nat.zero_le 1
  · exact Nat.zero_le 1

example : ∃ s, fw_run fwTwo (Fw.new 5#64) = some s ∧ sentValues s.log = [⟨1#16, 2#16, 3#16⟩, ⟨1#16, 2#16, 4#16⟩] :=
  ⟨_, rfl, rfl⟩

/-- **C81**: a start is refused exactly while a stream is there; a refused one changes nothing. -/
theorem c81_one_stream {s s' : Fw} {hdr : VarHeader} {r : StartAccel} (h : fw_step s (.start hdr r) = some s') :
    (∀ t, s.task = some t → s' = { s with log := s.log ++ [.answered hdr .failed_to_spawn] }) ∧
      (s.task = none → s'.log = s.log ∧ ∃ t, s'.task = some t ∧ t.hdr = hdr) := by
  unfold fw_step at h
  split at h
  · cases h
  · cases h
    constructor
    · intro t ht
      simp [start_handler, ht, Fw.note]
    · intro ht
      unfold start_handler
      rw [ht]
      exact ⟨rfl, _, rfl, rfl⟩

example : ∃ s s', fw_run fwTwo (Fw.new 5#64) = some s ∧ fw_step s (.start (fwHdr 1#8) fwStart) = some s' ∧
    FwEv.answered (fwHdr 1#8) .failed_to_spawn ∈ s'.log := ⟨_, _, rfl, rfl, by decide⟩

/-- **C81**: an accepted start is answered under its own header, before any other start is. -/
theorem c81_reply_to_start {s s1 s2 : Fw} {hdr : VarHeader} {r : StartAccel} {ls : List FwLabel}
    (ht : s.task = none) (h1 : fw_step s (.start hdr r) = some s1) (h2 : fw_run ls s1 = some s2) :
    ∃ new, s2.log = s.log ++ new ∧ (replies new = [] ∨ ∃ ok rest, replies new = .replied hdr ok :: rest) := by
  have hs : Answering hdr s.log s1 := by
    unfold fw_step at h1
    split at h1
    · cases h1
    · cases h1
      unfold start_handler
      rw [ht]
      exact ⟨[], (List.append_nil _).symm, .inl ⟨rfl, _, rfl, rfl, .inl rfl⟩⟩
  obtain ⟨new, e, h⟩ := run_answering hs h2
  exact ⟨new, e, h.imp And.left id⟩

example : ∃ s2, fw_run fwTwo (Fw.new 5#64) = some s2 ∧ replies s2.log = [.replied (fwHdr 0#8) true] := ⟨_, rfl, rfl⟩

/-- **C81**: a stop is answered with whether a stream is under way (started and run for the first time). -/
theorem c81_stop_answer {id : BitVec 64} {ls : List FwLabel} {s s' : Fw} {hdr : VarHeader}
    (h : fw_run ls (Fw.new id) = some s) (h1 : fw_step s (.stop hdr) = some s') :
    ∃ b, s'.log = s.log ++ [.answered hdr (.stopped b)] ∧ (b = true ↔ ∃ t, s.task = some t ∧ t.pc ≠ .spawned) := by
  have hl := run_locking h
  unfold fw_step at h1
  split at h1
  · cases h1
  · rw [← Option.some.inj h1]
    refine ⟨s.locked, ?_, hl⟩
    cases hk : s.locked <;> simp [accelerometer_stop_handler, hk, Fw.note]

example : ∃ s s', fw_run fwTwo (Fw.new 5#64) = some s ∧ fw_step s (.stop (fwHdr 1#8)) = some s' ∧
    FwEv.answered (fwHdr 1#8) (.stopped true) ∈ s'.log := ⟨_, _, rfl, rfl, by decide⟩

/-- **C81**: after a stop answered `true`, unless another stream is started, at most one more sample is sent, the stream
takes at most three more steps, and as long as it is there it can take one: it comes to its end. -/
theorem c81_stop_stops {id : BitVec 64} {ls ls' : List FwLabel} {s s1 s2 : Fw} {hdr : VarHeader}
    (h : fw_run ls (Fw.new id) = some s) (h1 : fw_step s (.stop hdr) = some s1)
    (hb : s1.log = s.log ++ [.answered hdr (.stopped true)]) (h2 : fw_run ls' s1 = some s2) (hn : ∀ l ∈ ls', ¬IsStart l) :
    samples s2.log ≤ samples s.log + 1 ∧ ls'.countP isAcc ≤ 3 ∧
      (∀ t, s2.task = some t → s2.halted = false → ∃ l, isAcc l = true ∧ ¬Fails l ∧ (fw_step s2 l).isSome) := by
  have hl := run_locking h
  have hl1 := step_locking hl h1
  have he : Ending s1 ∧ s1.task = s.task := by
    unfold fw_step at h1
    split at h1
    · cases h1
    · rw [← Option.some.inj h1] at hb ⊢
      cases hk : s.locked with
      | true => exact ⟨.inr (by simp [accelerometer_stop_handler, hk, Fw.note]), by simp [accelerometer_stop_handler, hk, Fw.note]⟩
      | false => simp [accelerometer_stop_handler, hk, Fw.note] at hb
  obtain ⟨e1, e2, e3⟩ := run_ending he.1 hn h2
  have hs : samples s1.log = samples s.log := by rw [hb, samples_append]; rfl
  have hleft : accLeft s1.task ≤ 1 := by
    cases s1.task with
    | none => simp [accLeft]
    | some t => simp only [accLeft]; split <;> omega
  have hrank : accRank s1.task ≤ 3 := by
    cases s1.task with
    | none => simp [accRank]
    | some t => simp only [accRank]; split <;> omega
  refine ⟨by omega, by omega, ?_⟩
  intro t ht hh
  have hl2 : Locking s2 := by
    have : ∀ (ls : List FwLabel) (s s' : Fw), Locking s → fw_run ls s = some s' → Locking s' := by
      intro ls
      induction ls with
      | nil => intro s s' hs h; cases h; exact hs
      | cons l ls ih =>
        intro s s' hs h
        simp only [fw_run] at h
        cases hst : fw_step s l with
        | none => rw [hst] at h; cases h
        | some s1 => rw [hst] at h; exact ih s1 s' (step_locking hs hst) h
    exact this ls' s1 s2 hl1 h2
  exact acc_enabled hl2 hh ht

example : ∃ s s1 s2, fw_run fwTwo (Fw.new 5#64) = some s ∧ fw_step s (.stop (fwHdr 1#8)) = some s1 ∧
    s1.log = s.log ++ [.answered (fwHdr 1#8) (.stopped true)] ∧
    fw_run [.acc_tick, .acc_sampled (some ⟨0#16, 0#16, 0#16⟩), .acc_published true] s1 = some s2 ∧ s2.task = none ∧
    samples s2.log = 3 := ⟨_, _, _, rfl, rfl, rfl, rfl, rfl, rfl⟩

/-- A stream that was started goes on as long as it is not stopped and nothing fails. -/
def C81Full : Prop :=
  ∀ (id : BitVec 64) (ls ls' : List FwLabel) (s s' : Fw) (hdr : VarHeader) (r : StartAccel),
    fw_run ls (Fw.new id) = some s → s.task = none → s.halted = false → fw_run (.start hdr r :: ls') s = some s' →
    (∀ l ∈ ls', ¬IsStop l ∧ ¬Fails l) → ∃ t, s'.task = some t ∧ t.hdr = hdr

/-- **C81**, partial (full statement: `C81Full`, which is false, see `c81_stream_ends_by_itself`): a started stream goes on
as long as it is not stopped and nothing fails, provided no reply to a start has failed before.  Missing: earlier failed
replies. -/
theorem c81_stream_goes_on_partial {id : BitVec 64} {ls ls' : List FwLabel} {s s' : Fw} {hdr : VarHeader} {r : StartAccel}
    (h : fw_run ls (Fw.new id) = some s) (ht : s.task = none) (hh : s.halted = false)
    (h' : fw_run (.start hdr r :: ls') s = some s') (hn : ∀ l ∈ ls', ¬IsStop l ∧ ¬Fails l)
    (hr : ∀ l ∈ ls, ¬ReplyFails l) : ∃ t, s'.task = some t ∧ t.hdr = hdr := by
  have hf : Fresh s := run_fresh (s := Fw.new id) nofun hr h
  have hl := run_locking h
  have hstop : s.stop = false := by
    cases hs : s.stop with
    | false => rfl
    | true =>
      obtain ⟨t, e, _⟩ := hl.1 (hf hs)
      rw [ht] at e; cases e
  have hst : fw_step s (.start hdr r) = some { s with task := some ⟨hdr, r, 0#8, .spawned⟩ } := by
    unfold fw_step
    rw [if_neg (by simp [hh])]
    simp [start_handler, ht]
  simp only [fw_run, hst] at h'
  have hg : GoesOn hdr { s with task := some ⟨hdr, r, 0#8, .spawned⟩ } := ⟨hstop, hh, _, rfl, rfl⟩
  exact (run_goesOn hg hn h').2.2

example : ∃ s', fw_run fwTwo (Fw.new 5#64) = some s' ∧ s'.task.isSome ∧ ∀ l ∈ fwTwo, ¬IsStop l ∧ ¬Fails l ∧ ¬ReplyFails l :=
  ⟨_, rfl, rfl, by intro l hl; simp [fwTwo] at hl; rcases hl with h | h | h | h | h | h | h | h | h | h <;> subst h <;>
    simp [IsStop, Fails, ReplyFails]⟩

/-- **C81**, negation of the full statement: a stop that comes while the reply to a start is being sent is remembered if
that reply then fails.  The next stream answers its start and ends at once without having been stopped. -/
theorem c81_stream_ends_by_itself : ¬C81Full := by
  intro h
  obtain ⟨t, e, _⟩ := h 5#64
    [.start (fwHdr 0#8) fwStart, .acc_run, .stop (fwHdr 1#8), .acc_replied false]
    [.acc_run, .acc_replied true, .acc_ranged true]
    { Fw.new 5#64 with stop := true, log := [.answered (fwHdr 1#8) (.stopped true), .replied (fwHdr 0#8) false] }
    { Fw.new 5#64 with
      range := some .G8
      log := [.answered (fwHdr 1#8) (.stopped true), .replied (fwHdr 0#8) false, .replied (fwHdr 2#8) true] }
    (fwHdr 2#8) fwStart rfl rfl rfl rfl
    (by intro l hl; simp at hl; rcases hl with h | h | h <;> subst h <;> simp [IsStop, Fails])
  cases e

/-- A stream samples at the range asked for: once the range has been set, it is the one of the last accepted start. -/
def C81Range : Prop :=
  ∀ (id : BitVec 64) (ls : List FwLabel) (s : Fw) (t : AccTask),
    fw_run ls (Fw.new id) = some s → s.task = some t → t.pc = .ticking → s.range = some t.rqst.range

/-- **C81**, negation: the range of the request is not used, the sensor is always set to 8 g. -/
theorem c81_range_ignored : ¬C81Range ∧
    ∀ (id : BitVec 64) (ls : List FwLabel) (s : Fw), fw_run ls (Fw.new id) = some s → s.range = none ∨ s.range = some .G8 := by
  constructor
  · intro h
    have := h 5#64 [.start (fwHdr 0#8) fwStart, .acc_run, .acc_replied true, .acc_ranged true]
      { Fw.new 5#64 with
        locked := true
        range := some .G8
        task := some ⟨fwHdr 0#8, fwStart, 0#8, .ticking⟩
        log := [.replied (fwHdr 0#8) true] }
      ⟨fwHdr 0#8, fwStart, 0#8, .ticking⟩ rfl rfl rfl
    cases this
  · intro id ls s h
    refine fw_induct (P := fun _ s => s.range = none ∨ s.range = some .G8) (.inl rfl) ?_ ls s h
    intro _ s l s' hs hst
    refine fw_cases (C := fun _ s' => s'.range = none ∨ s'.range = some .G8) hst ?_ ?_ ?_ ?_ ?_ ?_ ?_ ?_ ?_ ?_ ?_ ?_ ?_ ?_ ?_ ?_ ?_ ?_
    · intro _ _; exact hs
    · intro _; exact hs
    · intro _ r; unfold set_led_handler; split <;> exact hs
    · intro _ _; exact hs
    · intro _ _ _ _; exact hs
    · intro _ _ _; exact hs
    · intro _ _; exact hs
    · intro _ _; exact hs
    · intro _ _ _ _; exact hs
    · intro _ _ _; exact hs
    · intro _ _ _; exact hs
    · intro _ _ _; unfold acc_check; split <;> exact .inr rfl
    · intro _ _ _; exact hs
    · intro _ _ _; exact hs
    · intro _ _ _ _; exact hs
    · intro _ _ _; exact hs
    · intro _ _ _ _; unfold acc_check; split <;> exact hs
    · intro _ _ _ _; exact hs

end PRpc.Props
