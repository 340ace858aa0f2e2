import Verif.Spec.Example
/-! Lemmas about the example firmware. -/

namespace PRpc
open Spec

theorem fw_run_append (l1 l2 : List FwLabel) (s : Fw) :
    fw_run (l1 ++ l2) s = (fw_run l1 s).bind (fw_run l2) := by
  induction l1 generalizing s with
  | nil => rfl
  | cons l ls ih =>
    simp only [List.cons_append, fw_run]
    cases fw_step s l with
    | none => rfl
    | some s1 => exact ih s1

theorem fw_induct {P : List FwLabel → Fw → Prop} {s0 : Fw} (h0 : P [] s0)
    (hs : ∀ ls s l s', P ls s → fw_step s l = some s' → P (ls ++ [l]) s') :
    ∀ ls s, fw_run ls s0 = some s → P ls s := by
  intro ls
  have : ∀ (l2 l1 : List FwLabel) (s s' : Fw), P l1 s → fw_run l2 s = some s' → P (l1 ++ l2) s' := by
    intro l2
    induction l2 with
    | nil => intro l1 s s' h hr; cases hr; rw [List.append_nil]; exact h
    | cons l ls ih =>
      intro l1 s s' h hr
      simp only [fw_run] at hr
      cases hst : fw_step s l with
      | none => rw [hst] at hr; cases hr
      | some s1 =>
        rw [hst] at hr
        have := ih (l1 ++ [l]) s1 s' (hs l1 s l s1 h hst) hr
        rwa [List.append_assoc] at this
  intro s hr
  exact this ls [] s0 s h0 hr

/-- Every step is one of these. -/
theorem fw_cases {C : FwLabel → Fw → Prop} {s : Fw} {l : FwLabel} {s' : Fw} (h : fw_step s l = some s')
    (hping : ∀ hdr r, C (.ping hdr r) (s.note (.answered hdr (.pong r))))
    (hid : ∀ hdr, C (.get_id hdr) (s.note (.answered hdr (.id s.unique_id))))
    (hled : ∀ hdr r, C (.set_led hdr r) ((set_led_handler s r).2.note (.answered hdr (.led (set_led_handler s r).1))))
    (hall : ∀ hdr r, C (.set_all hdr r) ((set_all_led_handler s r).note (.answered hdr .all)))
    (hbusy : ∀ hdr r t, s.task = some t → C (.start hdr r) (s.note (.answered hdr .failed_to_spawn)))
    (hstart : ∀ hdr r, s.task = none → C (.start hdr r) { s with task := some ⟨hdr, r, 0#8, .spawned⟩ })
    (hstop : ∀ hdr, s.locked = true → C (.stop hdr) ({ s with stop := true }.note (.answered hdr (.stopped true))))
    (hidle : ∀ hdr, s.locked = false → C (.stop hdr) (s.note (.answered hdr (.stopped false))))
    (hrun : ∀ t, s.task = some t → t.pc = .spawned → s.locked = false →
      C .acc_run { s with locked := true, task := some { t with pc := .replying } })
    (hrep : ∀ t, s.task = some t → t.pc = .replying →
      C (.acc_replied true) { s.note (.replied t.hdr true) with task := some { t with pc := .ranging } })
    (hrepf : ∀ t, s.task = some t → t.pc = .replying →
      C (.acc_replied false) { s.note (.replied t.hdr false) with locked := false, task := none })
    (hrange : ∀ t, s.task = some t → t.pc = .ranging → C (.acc_ranged true) (acc_check { s with range := some .G8 } t))
    (hrangef : ∀ t, s.task = some t → t.pc = .ranging → C (.acc_ranged false) { s.note .panicked with halted := true })
    (htick : ∀ t, s.task = some t → t.pc = .ticking → C .acc_tick { s with task := some { t with pc := .sampling } })
    (hsam : ∀ t a, s.task = some t → t.pc = .sampling →
      C (.acc_sampled (some a)) { s with task := some { t with pc := .publishing a } })
    (hsamf : ∀ t, s.task = some t → t.pc = .sampling → C (.acc_sampled none) { s.note .panicked with halted := true })
    (hpub : ∀ t a, s.task = some t → t.pc = .publishing a →
      C (.acc_published true) (acc_check (s.note (.published t.seq a true)) { t with seq := t.seq + 1#8 }))
    (hpubf : ∀ t a, s.task = some t → t.pc = .publishing a →
      C (.acc_published false) (acc_end (s.note (.published t.seq a false)))) :
    C l s' := by
  by_cases hh : s.halted = true
  · unfold fw_step at h
    rw [if_pos hh] at h
    cases h
  have acc : ∀ l : FwLabel, (fw_step s l = match s.task with | some t => acc_step s t l | none => none) →
      fw_step s l = some s' → ∃ t, s.task = some t ∧ acc_step s t l = some s' := by
    intro l e h
    rw [e] at h
    cases ht : s.task with
    | none => rw [ht] at h; cases h
    | some t => rw [ht] at h; exact ⟨t, rfl, h⟩
  cases l with
  | ping hdr r => rw [fw_step, if_neg hh] at h; cases h; exact hping _ _
  | get_id hdr => rw [fw_step, if_neg hh] at h; cases h; exact hid _
  | set_led hdr r => rw [fw_step, if_neg hh] at h; cases h; exact hled _ _
  | set_all hdr r => rw [fw_step, if_neg hh] at h; cases h; exact hall _ _
  | start hdr r =>
    rw [fw_step, if_neg hh] at h
    cases ht : s.task with
    | none => simp only [start_handler, ht] at h; cases h; exact hstart hdr r ht
    | some t => simp only [start_handler, ht] at h; cases h; exact hbusy hdr r t ht
  | stop hdr =>
    rw [fw_step, if_neg hh] at h
    cases hl : s.locked with
    | true =>
      simp only [accelerometer_stop_handler, hl, if_true] at h
      cases h
      have := hstop hdr hl
      rw [← hl] at this
      simpa [hl] using this
    | false => simp only [accelerometer_stop_handler, hl] at h; cases h; exact hidle hdr hl
  | acc_run =>
    obtain ⟨t, ht, h⟩ := acc _ (by unfold fw_step; rw [if_neg hh]; rfl) h
    simp only [acc_step] at h
    split at h
    · rename_i hp
      split at h
      · cases h
      · rename_i hl
        cases h
        exact hrun t ht hp (by simpa using hl)
    · cases h
  | acc_replied ok =>
    obtain ⟨t, ht, h⟩ := acc _ (by unfold fw_step; rw [if_neg hh]; rfl) h
    simp only [acc_step] at h
    split at h
    · rename_i hp
      cases ok with
      | true => cases h; exact hrep t ht hp
      | false => cases h; exact hrepf t ht hp
    · cases h
  | acc_ranged ok =>
    obtain ⟨t, ht, h⟩ := acc _ (by unfold fw_step; rw [if_neg hh]; rfl) h
    simp only [acc_step] at h
    split at h
    · rename_i hp
      cases ok with
      | true => cases h; exact hrange t ht hp
      | false => cases h; exact hrangef t ht hp
    · cases h
  | acc_tick =>
    obtain ⟨t, ht, h⟩ := acc _ (by unfold fw_step; rw [if_neg hh]; rfl) h
    simp only [acc_step] at h
    split at h
    · rename_i hp
      cases h; exact htick t ht hp
    · cases h
  | acc_sampled a =>
    obtain ⟨t, ht, h⟩ := acc _ (by unfold fw_step; rw [if_neg hh]; rfl) h
    simp only [acc_step] at h
    cases hp : t.pc <;> rw [hp] at h <;> try (cases h; done)
    cases a with
    | some a => cases h; exact hsam t a ht hp
    | none => cases h; exact hsamf t ht hp
  | acc_published ok =>
    obtain ⟨t, ht, h⟩ := acc _ (by unfold fw_step; rw [if_neg hh]; rfl) h
    simp only [acc_step] at h
    split at h
    · rename_i a hp
      cases ok with
      | true => cases h; exact hpub t a ht hp
      | false => cases h; exact hpubf t a ht hp
    · cases h

/-- The accelerometer is locked exactly while the task runs. -/
def Locking (s : Fw) : Prop := s.locked = true ↔ ∃ t, s.task = some t ∧ t.pc ≠ .spawned

theorem set_led_locked (s : Fw) (r : SingleLed) : (set_led_handler s r).2.locked = s.locked ∧
    (set_led_handler s r).2.task = s.task ∧ (set_led_handler s r).2.stop = s.stop ∧
    (set_led_handler s r).2.log = s.log ∧ (set_led_handler s r).2.halted = s.halted := by
  unfold set_led_handler
  split <;> exact ⟨rfl, rfl, rfl, rfl, rfl⟩

theorem step_locking {s : Fw} {l : FwLabel} {s' : Fw} (hs : Locking s) (h : fw_step s l = some s') : Locking s' := by
  refine fw_cases (C := fun _ s' => Locking s') h ?_ ?_ ?_ ?_ ?_ ?_ ?_ ?_ ?_ ?_ ?_ ?_ ?_ ?_ ?_ ?_ ?_ ?_
  · intro _ _; exact hs
  · intro _; exact hs
  · intro _ r
    have ⟨h1, h2, _⟩ := set_led_locked s r
    unfold Locking Fw.note
    rw [h1, h2]
    exact hs
  · intro _ _; exact hs
  · intro _ _ _ _; exact hs
  · intro hdr r ht
    constructor
    · intro hl
      obtain ⟨t, e, _⟩ := hs.1 hl
      rw [ht] at e; cases e
    · rintro ⟨t, e, hp⟩
      cases e
      exact absurd rfl hp
  · intro _ _; exact hs
  · intro _ _; exact hs
  · intro t ht hp hl
    exact ⟨fun _ => ⟨_, rfl, nofun⟩, fun _ => rfl⟩
  · intro t ht hp
    exact ⟨fun _ => ⟨_, rfl, nofun⟩, fun _ => hs.2 ⟨t, ht, by rw [hp]; nofun⟩⟩
  · intro t ht hp
    exact ⟨nofun, nofun⟩
  · intro t ht hp
    unfold acc_check
    split
    · exact ⟨nofun, nofun⟩
    · exact ⟨fun _ => ⟨_, rfl, nofun⟩, fun _ => hs.2 ⟨t, ht, by rw [hp]; nofun⟩⟩
  · intro t ht hp; exact hs
  · intro t ht hp
    exact ⟨fun _ => ⟨_, rfl, nofun⟩, fun _ => hs.2 ⟨t, ht, by rw [hp]; nofun⟩⟩
  · intro t a ht hp
    exact ⟨fun _ => ⟨_, rfl, nofun⟩, fun _ => hs.2 ⟨t, ht, by rw [hp]; nofun⟩⟩
  · intro t ht hp; exact hs
  · intro t a ht hp
    unfold acc_check
    split
    · exact ⟨nofun, nofun⟩
    · exact ⟨fun _ => ⟨_, rfl, nofun⟩, fun _ => hs.2 ⟨t, ht, by rw [hp]; nofun⟩⟩
  · intro t a ht hp
    exact ⟨nofun, nofun⟩

theorem new_locking (id : BitVec 64) : Locking (Fw.new id) := ⟨nofun, nofun⟩

theorem run_locking {id : BitVec 64} {ls : List FwLabel} {s : Fw} (h : fw_run ls (Fw.new id) = some s) : Locking s :=
  fw_induct (P := fun _ s => Locking s) (new_locking id) (fun _ _ _ _ hs hst => step_locking hs hst) ls s h

/-- `n` samples from number 0 on, all sent. -/
inductive AllPublished : Nat → List FwEv → Prop where
  | nil : AllPublished 0 []
  | snoc (n m a) : AllPublished n m → AllPublished (n + 1) (m ++ [.published (BitVec.ofNat 8 n) a true])

theorem AllPublished.append {n : Nat} {m : List FwEv} (h : AllPublished n m) : ∀ {l}, Samples n l → Samples 0 (m ++ l) := by
  induction h with
  | nil => intro l hl; exact hl
  | snoc n m a _ ih =>
    intro l hl
    rw [List.append_assoc]
    exact ih (.more n a l hl)

/-- The log and the task agree: while the task runs, the log ends in the stream it is sending. -/
def Streaming (s : Fw) : Prop :=
  match s.task with
  | none => Streams (streamed s.log)
  | some t =>
    if t.pc = .spawned ∨ t.pc = .replying then Streams (streamed s.log) ∧ t.seq = 0#8
    else ∃ l h m n, Streams l ∧ streamed s.log = l ++ .replied h true :: m ∧ AllPublished n m ∧ t.seq = BitVec.ofNat 8 n

theorem streaming_streams {s : Fw} (h : Streaming s) : Streams (streamed s.log) := by
  unfold Streaming at h
  split at h
  · exact h
  · split at h
    · exact h.1
    · obtain ⟨l, hd, m, n, h1, h2, h3, _⟩ := h
      rw [h2]
      have := h3.append (.none n)
      rw [List.append_nil] at this
      exact .stream l hd m h1 this

theorem streaming_congr {s s' : Fw} (ht : s'.task = s.task) (hl : streamed s'.log = streamed s.log) (h : Streaming s) :
    Streaming s' := by
  unfold Streaming at *
  rw [ht, hl]
  exact h

theorem streamed_append (l1 l2 : List FwEv) : streamed (l1 ++ l2) = streamed l1 ++ streamed l2 := by
  simp [streamed]

theorem step_streaming {s : Fw} {l : FwLabel} {s' : Fw} (hs : Streaming s) (h : fw_step s l = some s') :
    Streaming s' := by
  have mid : ∀ t, s.task = some t → t.pc ≠ .spawned → t.pc ≠ .replying →
      ∃ l h m n, Streams l ∧ streamed s.log = l ++ .replied h true :: m ∧ AllPublished n m ∧ t.seq = BitVec.ofNat 8 n := by
    intro t ht h1 h2
    unfold Streaming at hs
    rw [ht] at hs
    simp only [h1, h2, or_self, if_false] at hs
    exact hs
  have early : ∀ t, s.task = some t → t.pc = .spawned ∨ t.pc = .replying → Streams (streamed s.log) ∧ t.seq = 0#8 := by
    intro t ht h1
    unfold Streaming at hs
    rw [ht] at hs
    simp only [h1, if_true] at hs
    exact hs
  refine fw_cases (C := fun _ s' => Streaming s') h ?_ ?_ ?_ ?_ ?_ ?_ ?_ ?_ ?_ ?_ ?_ ?_ ?_ ?_ ?_ ?_ ?_ ?_
  · intro _ _; exact streaming_congr (s := s) rfl (by simp [streamed, Fw.note]) hs
  · intro _; exact streaming_congr (s := s) rfl (by simp [streamed, Fw.note]) hs
  · intro _ r
    have ⟨_, h2, _, h4, _⟩ := set_led_locked s r
    exact streaming_congr h2 (by simp [streamed, Fw.note, h4]) hs
  · intro _ _; exact streaming_congr (s := s) rfl (by simp [streamed, Fw.note, set_all_led_handler]) hs
  · intro _ _ _ _; exact streaming_congr (s := s) rfl (by simp [streamed, Fw.note]) hs
  · intro hdr r ht
    exact ⟨streaming_streams (s := s) hs, rfl⟩
  · intro _ _; exact streaming_congr (s := s) rfl (by simp [streamed, Fw.note]) hs
  · intro _ _; exact streaming_congr (s := s) rfl (by simp [streamed, Fw.note]) hs
  · intro t ht hp hl
    exact early t ht (.inl hp)
  · intro t ht hp
    have he := early t ht (.inr hp)
    refine ⟨streamed s.log, t.hdr, [], 0, he.1, ?_, .nil, he.2⟩
    simp [Fw.note, streamed]
  · intro t ht hp
    have he := early t ht (.inr hp)
    have : streamed (s.note (.replied t.hdr false)).log = streamed s.log ++ [.replied t.hdr false] := by
      simp [Fw.note, streamed]
    show Streams (streamed (s.note (.replied t.hdr false)).log)
    rw [this]
    exact .refused _ _ he.1
  · intro t ht hp
    have hm := mid t ht (by rw [hp]; nofun) (by rw [hp]; nofun)
    unfold acc_check
    split
    · exact streaming_streams (s := s) hs
    · exact hm
  · intro t ht hp; exact streaming_congr (s := s) rfl (by simp [streamed, Fw.note]) hs
  · intro t ht hp
    exact mid t ht (by rw [hp]; nofun) (by rw [hp]; nofun)
  · intro t a ht hp
    exact mid t ht (by rw [hp]; nofun) (by rw [hp]; nofun)
  · intro t ht hp; exact streaming_congr (s := s) rfl (by simp [streamed, Fw.note]) hs
  · intro t a ht hp
    obtain ⟨l, hd, m, n, h1, h2, h3, h4⟩ := mid t ht (by rw [hp]; nofun) (by rw [hp]; nofun)
    have e : streamed (s.note (.published t.seq a true)).log =
        l ++ .replied hd true :: (m ++ [.published (BitVec.ofNat 8 n) a true]) := by
      simp only [Fw.note, streamed_append, h2, h4]
      simp [streamed]
    have h5 := AllPublished.snoc n m a h3
    unfold acc_check
    split
    · show Streams (streamed (s.note (.published t.seq a true)).log)
      rw [e]
      have := h5.append (.none (n + 1))
      rw [List.append_nil] at this
      exact .stream l hd _ h1 this
    · refine ⟨l, hd, _, n + 1, h1, e, h5, ?_⟩
      show t.seq + 1#8 = _
      rw [h4, ← BitVec.ofNat_add]
  · intro t a ht hp
    obtain ⟨l, hd, m, n, h1, h2, h3, h4⟩ := mid t ht (by rw [hp]; nofun) (by rw [hp]; nofun)
    have e : streamed (s.note (.published t.seq a false)).log =
        l ++ .replied hd true :: (m ++ [.published (BitVec.ofNat 8 n) a false]) := by
      simp only [Fw.note, streamed_append, h2, h4]
      simp [streamed]
    show Streams (streamed (s.note (.published t.seq a false)).log)
    rw [e]
    exact .stream l hd _ h1 (h3.append (.failed n a))

theorem run_streaming {id : BitVec 64} {ls : List FwLabel} {s : Fw} (h : fw_run ls (Fw.new id) = some s) :
    Streaming s :=
  fw_induct (P := fun _ s => Streaming s) (show Streaming (Fw.new id) from Streams.none) (fun _ _ _ _ hs hst => step_streaming hs hst) ls s h

/-- The steps a stopped stream still takes. -/
def accRank : Option AccTask → Nat
  | none => 0
  | some t => match t.pc with
    | .spawned => 3
    | .replying => 2
    | .ranging => 1
    | .ticking => 3
    | .sampling => 2
    | .publishing _ => 1

/-- The samples a stopped stream still sends. -/
def accLeft : Option AccTask → Nat
  | none => 0
  | some t => match t.pc with
    | .ticking | .sampling | .publishing _ => 1
    | _ => 0

theorem samples_append (l1 l2 : List FwEv) : samples (l1 ++ l2) = samples l1 + samples l2 := by
  induction l1 with
  | nil => simp [samples]
  | cons e l ih => cases e <;> simp only [List.cons_append, samples, ih] <;> omega

/-- The stream is ending: it has been told to stop, or is gone. -/
def Ending (s : Fw) : Prop := s.task = none ∨ s.stop = true

theorem step_ending {s : Fw} {l : FwLabel} {s' : Fw} (hs : Ending s) (hl : ¬IsStart l) (h : fw_step s l = some s') :
    Ending s' ∧ samples s'.log + accLeft s'.task ≤ samples s.log + accLeft s.task ∧
      (s'.halted = true ∨ accRank s'.task + (if isAcc l then 1 else 0) ≤ accRank s.task) := by
  have stop : ∀ t, s.task = some t → s.stop = true := by
    intro t ht
    cases hs with
    | inl h => rw [ht] at h; cases h
    | inr h => exact h
  revert hl
  refine fw_cases (C := fun l s' => ¬IsStart l → Ending s' ∧ samples s'.log + accLeft s'.task ≤ samples s.log + accLeft s.task ∧
      (s'.halted = true ∨ accRank s'.task + (if isAcc l then 1 else 0) ≤ accRank s.task))
    h ?_ ?_ ?_ ?_ ?_ ?_ ?_ ?_ ?_ ?_ ?_ ?_ ?_ ?_ ?_ ?_ ?_ ?_
  · intro _ _ _
    exact ⟨hs, by simp [Fw.note, samples_append, samples], .inr (by simp [Fw.note, isAcc])⟩
  · intro _ _
    exact ⟨hs, by simp [Fw.note, samples_append, samples], .inr (by simp [Fw.note, isAcc])⟩
  · intro _ r _
    have ⟨_, h2, h3, h4, _⟩ := set_led_locked s r
    refine ⟨?_, by simp [Fw.note, samples_append, samples, h2, h4], .inr (by simp [Fw.note, isAcc, h2])⟩
    unfold Ending Fw.note
    rw [h2, h3]
    exact hs
  · intro _ _ _
    exact ⟨hs, by simp [Fw.note, samples_append, samples, set_all_led_handler], .inr (by simp [Fw.note, isAcc, set_all_led_handler])⟩
  · intro _ _ _ _ hl
    exact absurd trivial hl
  · intro _ _ _ hl
    exact absurd trivial hl
  · intro _ _ _
    exact ⟨.inr rfl, by simp [Fw.note, samples_append, samples], .inr (by simp [Fw.note, isAcc])⟩
  · intro _ _ _
    exact ⟨hs, by simp [Fw.note, samples_append, samples], .inr (by simp [Fw.note, isAcc])⟩
  · intro t ht hp _ _
    exact ⟨.inr (stop t ht), by simp [accLeft, ht, hp], .inr (by simp [accRank, isAcc, ht, hp])⟩
  · intro t ht hp _
    exact ⟨.inr (stop t ht), by simp [accLeft, ht, hp, Fw.note, samples_append, samples],
      .inr (by simp [accRank, isAcc, ht, hp])⟩
  · intro t ht hp _
    exact ⟨.inl rfl, by simp [accLeft, ht, hp, Fw.note, samples_append, samples], .inr (by simp [accRank, isAcc, ht, hp])⟩
  · intro t ht hp _
    unfold acc_check
    rw [if_pos (stop t ht)]
    exact ⟨.inl rfl, by simp [accLeft, ht, hp, acc_end], .inr (by simp [accRank, isAcc, ht, hp, acc_end])⟩
  · intro t ht hp _
    exact ⟨.inr (stop t ht), by simp [Fw.note, samples_append, samples], .inl rfl⟩
  · intro t ht hp _
    exact ⟨.inr (stop t ht), by simp [accLeft, ht, hp], .inr (by simp [accRank, isAcc, ht, hp])⟩
  · intro t a ht hp _
    exact ⟨.inr (stop t ht), by simp [accLeft, ht, hp], .inr (by simp [accRank, isAcc, ht, hp])⟩
  · intro t ht hp _
    exact ⟨.inr (stop t ht), by simp [Fw.note, samples_append, samples], .inl rfl⟩
  · intro t a ht hp _
    unfold acc_check
    have : (s.note (.published t.seq a true)).stop = true := stop t ht
    rw [if_pos this]
    exact ⟨.inl rfl, by simp [accLeft, ht, hp, acc_end, Fw.note, samples_append, samples],
      .inr (by simp [accRank, isAcc, ht, hp, acc_end])⟩
  · intro t a ht hp _
    exact ⟨.inl rfl, by simp [accLeft, ht, hp, acc_end, Fw.note, samples_append, samples],
      .inr (by simp [accRank, isAcc, ht, hp, acc_end])⟩

theorem run_ending {ls : List FwLabel} : ∀ {s s' : Fw}, Ending s → (∀ l ∈ ls, ¬IsStart l) → fw_run ls s = some s' →
    Ending s' ∧ samples s'.log + accLeft s'.task ≤ samples s.log + accLeft s.task ∧
      ls.countP isAcc ≤ accRank s.task := by
  induction ls with
  | nil => intro s s' hs _ h; cases h; exact ⟨hs, Nat.le_refl _, Nat.zero_le _⟩
  | cons l ls ih =>
    intro s s' hs hl h
    simp only [fw_run] at h
    cases hst : fw_step s l with
    | none => rw [hst] at h; cases h
    | some s1 =>
      rw [hst] at h
      obtain ⟨h1, h2, h3⟩ := step_ending hs (hl l (.head _)) hst
      obtain ⟨h4, h5, h6⟩ := ih h1 (fun l' hm => hl l' (.tail _ hm)) h
      refine ⟨h4, Nat.le_trans h5 h2, ?_⟩
      rw [List.countP_cons]
      cases h3 with
      | inr h3 => omega
      | inl hh =>
        have : ls = [] := by
          cases ls with
          | nil => rfl
          | cons l2 ls2 => simp only [fw_run, fw_step, hh, if_true] at h; cases h
        rw [this]
        have hp : isAcc l = true → 0 < accRank s.task := by
          intro hacc
          cases ht : s.task with
          | none =>
            exfalso
            refine fw_cases (C := fun l _ => isAcc l = true → False) hst ?_ ?_ ?_ ?_ ?_ ?_ ?_ ?_ ?_ ?_ ?_ ?_ ?_ ?_ ?_ ?_ ?_ ?_ hacc
            all_goals first
              | (intros; contradiction)
              | (intro t ht'; rw [ht] at ht'; cases ht')
              | (intro t a ht'; rw [ht] at ht'; cases ht')
          | some t =>
            show 0 < accRank (some t)
            simp only [accRank]
            split <;> omega
        cases hacc : isAcc l with
        | true => have := hp hacc; simp; omega
        | false => simp

/-- Something the running task waits for can happen. -/
theorem acc_enabled {s : Fw} (hs : Locking s) (hh : s.halted = false) {t : AccTask} (ht : s.task = some t) :
    ∃ l, isAcc l = true ∧ ¬Fails l ∧ (fw_step s l).isSome := by
  cases hp : t.pc with
  | spawned =>
    have hl : s.locked = false := by
      cases hl : s.locked with
      | false => rfl
      | true =>
        obtain ⟨t', e, hne⟩ := hs.1 hl
        rw [ht] at e; cases e
        exact absurd hp hne
    exact ⟨.acc_run, rfl, nofun, by simp [fw_step, hh, ht, acc_step, hp, hl]⟩
  | replying => exact ⟨.acc_replied true, rfl, nofun, by simp [fw_step, hh, ht, acc_step, hp]⟩
  | ranging => exact ⟨.acc_ranged true, rfl, nofun, by simp [fw_step, hh, ht, acc_step, hp]⟩
  | ticking => exact ⟨.acc_tick, rfl, nofun, by simp [fw_step, hh, ht, acc_step, hp]⟩
  | sampling =>
    exact ⟨.acc_sampled (some ⟨0#16, 0#16, 0#16⟩), rfl, nofun, by simp [fw_step, hh, ht, acc_step, hp]⟩
  | publishing a => exact ⟨.acc_published true, rfl, nofun, by simp [fw_step, hh, ht, acc_step, hp]⟩

/-- The stop flag is set only for a running task. -/
def Fresh (s : Fw) : Prop := s.stop = true → s.locked = true

theorem step_fresh {s : Fw} {l : FwLabel} {s' : Fw} (hs : Fresh s) (hl : ¬ReplyFails l) (h : fw_step s l = some s') :
    Fresh s' := by
  revert hl
  refine fw_cases (C := fun l s' => ¬ReplyFails l → Fresh s') h ?_ ?_ ?_ ?_ ?_ ?_ ?_ ?_ ?_ ?_ ?_ ?_ ?_ ?_ ?_ ?_ ?_ ?_
  · intro _ _ _; exact hs
  · intro _ _; exact hs
  · intro _ r _
    have ⟨h1, _, h3, _⟩ := set_led_locked s r
    unfold Fresh Fw.note
    rw [h1, h3]
    exact hs
  · intro _ _ _; exact hs
  · intro _ _ _ _ _; exact hs
  · intro _ _ _ _; exact hs
  · intro _ hl _ _; exact hl
  · intro _ _ _; exact hs
  · intro _ _ _ _ _ _; rfl
  · intro _ _ _ _; exact hs
  · intro _ _ _ hl; exact absurd rfl hl
  · intro t _ _ _
    unfold acc_check
    split
    · nofun
    · exact hs
  · intro _ _ _ _; exact hs
  · intro _ _ _ _; exact hs
  · intro _ _ _ _ _; exact hs
  · intro _ _ _ _; exact hs
  · intro t a _ _ _
    unfold acc_check
    split
    · nofun
    · exact hs
  · intro _ _ _ _ _; nofun

theorem run_fresh {ls : List FwLabel} : ∀ {s s' : Fw}, Fresh s → (∀ l ∈ ls, ¬ReplyFails l) → fw_run ls s = some s' →
    Fresh s' := by
  induction ls with
  | nil => intro s s' hs _ h; cases h; exact hs
  | cons l ls ih =>
    intro s s' hs hl h
    simp only [fw_run] at h
    cases hst : fw_step s l with
    | none => rw [hst] at h; cases h
    | some s1 =>
      rw [hst] at h
      exact ih (step_fresh hs (hl l (.head _)) hst) (fun l' hm => hl l' (.tail _ hm)) h

/-- A stream with this header runs, no stop is pending. -/
def GoesOn (hdr : VarHeader) (s : Fw) : Prop := s.stop = false ∧ s.halted = false ∧ ∃ t, s.task = some t ∧ t.hdr = hdr

theorem step_goesOn {hdr : VarHeader} {s : Fw} {l : FwLabel} {s' : Fw} (hs : GoesOn hdr s) (h1 : ¬IsStop l) (h2 : ¬Fails l)
    (h : fw_step s l = some s') : GoesOn hdr s' := by
  obtain ⟨a, b, t0, c, d⟩ := hs
  have hd : ∀ t, s.task = some t → t.hdr = hdr := by
    intro t ht; rw [c] at ht; cases ht; exact d
  revert h1 h2
  refine fw_cases (C := fun l s' => ¬IsStop l → ¬Fails l → GoesOn hdr s') h ?_ ?_ ?_ ?_ ?_ ?_ ?_ ?_ ?_ ?_ ?_ ?_ ?_ ?_ ?_ ?_ ?_ ?_
  · intro _ _ _ _; exact ⟨a, b, t0, c, d⟩
  · intro _ _ _; exact ⟨a, b, t0, c, d⟩
  · intro _ r _ _
    have ⟨_, e2, e3, _, e5⟩ := set_led_locked s r
    exact ⟨e3.trans a, e5.trans b, t0, e2.trans c, d⟩
  · intro _ _ _ _; exact ⟨a, b, t0, c, d⟩
  · intro _ _ _ _ _ _; exact ⟨a, b, t0, c, d⟩
  · intro _ _ ht; rw [c] at ht; cases ht
  · intro _ _ hn; exact absurd trivial hn
  · intro _ _ _ _; exact ⟨a, b, t0, c, d⟩
  · intro t ht _ _ _ _; exact ⟨a, b, _, rfl, hd t ht⟩
  · intro t ht _ _ _; exact ⟨a, b, _, rfl, hd t ht⟩
  · intro _ _ _ _ hf; exact absurd rfl hf
  · intro t ht _ _ _
    unfold acc_check
    rw [if_neg (by simp [a])]
    exact ⟨a, b, _, rfl, hd t ht⟩
  · intro _ _ _ _ hf; exact absurd rfl hf
  · intro t ht _ _ _; exact ⟨a, b, _, rfl, hd t ht⟩
  · intro t _ ht _ _ _; exact ⟨a, b, _, rfl, hd t ht⟩
  · intro _ _ _ _ hf; exact absurd rfl hf
  · intro t x ht _ _ _
    unfold acc_check
    rw [if_neg (by simp [Fw.note, a])]
    exact ⟨a, b, _, rfl, hd t ht⟩
  · intro _ _ _ _ _ hf; exact absurd rfl hf

theorem run_goesOn {hdr : VarHeader} {ls : List FwLabel} : ∀ {s s' : Fw}, GoesOn hdr s → (∀ l ∈ ls, ¬IsStop l ∧ ¬Fails l) →
    fw_run ls s = some s' → GoesOn hdr s' := by
  induction ls with
  | nil => intro s s' hs _ h; cases h; exact hs
  | cons l ls ih =>
    intro s s' hs hl h
    simp only [fw_run] at h
    cases hst : fw_step s l with
    | none => rw [hst] at h; cases h
    | some s1 =>
      rw [hst] at h
      exact ih (step_goesOn hs (hl l (.head _)).1 (hl l (.head _)).2 hst) (fun l' hm => hl l' (.tail _ hm)) h

/-- A start is still to be answered, or its reply is the first after `log`. -/
def Answering (hdr : VarHeader) (log : List FwEv) (s : Fw) : Prop :=
  ∃ new, s.log = log ++ new ∧
    ((replies new = [] ∧ ∃ t, s.task = some t ∧ t.hdr = hdr ∧ (t.pc = .spawned ∨ t.pc = .replying)) ∨
      ∃ ok rest, replies new = .replied hdr ok :: rest)

theorem step_answering {hdr : VarHeader} {log : List FwEv} {s : Fw} {l : FwLabel} {s' : Fw} (hs : Answering hdr log s)
    (h : fw_step s l = some s') : Answering hdr log s' := by
  obtain ⟨new, e, hs⟩ := hs
  have grow : ∀ s' : Fw, (∃ m, s'.log = s.log ++ m) → (∃ ok rest, replies new = .replied hdr ok :: rest) →
      Answering hdr log s' := by
    rintro s' ⟨m, hm⟩ ⟨ok, rest, hr⟩
    refine ⟨new ++ m, by rw [hm, e, List.append_assoc], .inr ⟨ok, rest ++ replies m, ?_⟩⟩
    have : replies (new ++ m) = replies new ++ replies m := by simp [replies]
    rw [this, hr, List.cons_append]
  have hlog : ∃ m, s'.log = s.log ++ m := by
    refine fw_cases (C := fun _ s' => ∃ m, s'.log = s.log ++ m) h ?_ ?_ ?_ ?_ ?_ ?_ ?_ ?_ ?_ ?_ ?_ ?_ ?_ ?_ ?_ ?_ ?_ ?_
    · intro _ _; exact ⟨_, rfl⟩
    · intro _; exact ⟨_, rfl⟩
    · intro _ r
      have ⟨_, _, _, h4, _⟩ := set_led_locked s r
      exact ⟨_, by unfold Fw.note; rw [h4]⟩
    · intro _ _; exact ⟨_, rfl⟩
    · intro _ _ _ _; exact ⟨_, rfl⟩
    · intro _ _ _; exact ⟨[], (List.append_nil _).symm⟩
    · intro _ _; exact ⟨_, rfl⟩
    · intro _ _; exact ⟨_, rfl⟩
    · intro _ _ _ _; exact ⟨[], (List.append_nil _).symm⟩
    · intro _ _ _; exact ⟨_, rfl⟩
    · intro _ _ _; exact ⟨_, rfl⟩
    · intro _ _ _; unfold acc_check; split <;> exact ⟨[], (List.append_nil _).symm⟩
    · intro _ _ _; exact ⟨_, rfl⟩
    · intro _ _ _; exact ⟨[], (List.append_nil _).symm⟩
    · intro _ _ _ _; exact ⟨[], (List.append_nil _).symm⟩
    · intro _ _ _; exact ⟨_, rfl⟩
    · intro _ _ _ _; unfold acc_check; split <;> exact ⟨_, rfl⟩
    · intro _ _ _ _; exact ⟨_, rfl⟩
  cases hs with
  | inr hs => exact grow s' hlog hs
  | inl hs =>
    obtain ⟨h0, t0, ht0, hh0, hp0⟩ := hs
    have keep : ∀ s' : Fw, (∃ x, s'.log = s.log ++ [x] ∧ replies [x] = []) → s'.task = s.task → Answering hdr log s' := by
      rintro s' ⟨x, hx, hr⟩ ht
      refine ⟨new ++ [x], by rw [hx, e, List.append_assoc], .inl ⟨?_, t0, ht.trans ht0, hh0, hp0⟩⟩
      have : replies (new ++ [x]) = replies new ++ replies [x] := by simp [replies]
      rw [this, h0, hr]
      rfl
    have only : ∀ t, s.task = some t → t = t0 := by
      intro t ht; rw [ht0] at ht; cases ht; rfl
    refine fw_cases (C := fun _ s' => Answering hdr log s') h ?_ ?_ ?_ ?_ ?_ ?_ ?_ ?_ ?_ ?_ ?_ ?_ ?_ ?_ ?_ ?_ ?_ ?_
    · intro _ _; exact keep _ ⟨_, rfl, rfl⟩ rfl
    · intro _; exact keep _ ⟨_, rfl, rfl⟩ rfl
    · intro _ r
      have ⟨_, h2, _, h4, _⟩ := set_led_locked s r
      exact keep _ ⟨_, by unfold Fw.note; rw [h4], rfl⟩ h2
    · intro _ _; exact keep _ ⟨_, rfl, rfl⟩ rfl
    · intro _ _ _ _; exact keep _ ⟨_, rfl, rfl⟩ rfl
    · intro _ _ ht; rw [ht0] at ht; cases ht
    · intro _ _; exact keep _ ⟨_, rfl, rfl⟩ rfl
    · intro _ _; exact keep _ ⟨_, rfl, rfl⟩ rfl
    · intro t ht _ _
      rw [only t ht]
      exact ⟨new, e, .inl ⟨h0, _, rfl, hh0, .inr rfl⟩⟩
    · intro t ht _
      rw [only t ht]
      refine ⟨new ++ [.replied t0.hdr true], by simp [Fw.note, e], .inr ⟨true, [], ?_⟩⟩
      rw [hh0]
      have : replies (new ++ [.replied hdr true]) = replies new ++ [.replied hdr true] := by simp [replies]
      rw [this, h0]
      rfl
    · intro t ht _
      rw [only t ht]
      refine ⟨new ++ [.replied t0.hdr false], by simp [Fw.note, e], .inr ⟨false, [], ?_⟩⟩
      rw [hh0]
      have : replies (new ++ [.replied hdr false]) = replies new ++ [.replied hdr false] := by simp [replies]
      rw [this, h0]
      rfl
    all_goals
      intros
      rename_i hpc
      first
        | (rename_i ht; rw [only _ ht] at hpc; rw [hpc] at hp0; simp at hp0)

theorem run_answering {hdr : VarHeader} {log : List FwEv} {ls : List FwLabel} : ∀ {s s' : Fw}, Answering hdr log s →
    fw_run ls s = some s' → Answering hdr log s' := by
  induction ls with
  | nil => intro s s' hs h; cases h; exact hs
  | cons l ls ih =>
    intro s s' hs h
    simp only [fw_run] at h
    cases hst : fw_step s l with
    | none => rw [hst] at h; cases h
    | some s1 =>
      rw [hst] at h
      exact ih (step_answering hs hst) h

/-- The sample about to be handed to the sender. -/
def accPending : Option AccTask → List Acceleration
  | some t =>
    match t.pc with
    | .publishing a => [a]
    | _ => []
  | none => []

/-- What was measured has been handed to the sender, or is about to be. -/
def Measured (ls : List FwLabel) (s : Fw) : Prop := readings ls = sentValues s.log ++ accPending s.task

theorem step_measured {ls : List FwLabel} {s : Fw} {l : FwLabel} {s' : Fw} (hs : Measured ls s)
    (h : fw_step s l = some s') : Measured (ls ++ [l]) s' := by
  have go : ∀ l (s' : Fw) (new : List FwEv) (v : List Acceleration), readings [l] = v → s'.log = s.log ++ new →
      accPending s.task ++ v = sentValues new ++ accPending s'.task → Measured (ls ++ [l]) s' := by
    intro l s' new v h1 h2 h3
    unfold Measured readings at *
    rw [List.filterMap_append, hs, h1, h2]
    unfold sentValues at *
    rw [List.filterMap_append, List.append_assoc, h3, List.append_assoc]
  have chk : ∀ (s : Fw) t, (acc_check s t).log = s.log ∧ accPending (acc_check s t).task = [] := by
    intro s t; unfold acc_check acc_end; split <;> exact ⟨rfl, rfl⟩
  have pend : ∀ t pc, s.task = some t → t.pc = pc → accPending s.task = accPending (some { t with pc := pc }) := by
    intro t pc h1 h2; rw [h1]; subst h2; rfl
  refine fw_cases (C := fun l s' => Measured (ls ++ [l]) s') h ?_ ?_ ?_ ?_ ?_ ?_ ?_ ?_ ?_ ?_ ?_ ?_ ?_ ?_ ?_ ?_ ?_ ?_
  · intro _ _; exact go _ _ _ _ rfl rfl (List.append_nil _)
  · intro _; exact go _ _ _ _ rfl rfl (List.append_nil _)
  · intro hdr r
    have : (set_led_handler s r).2.log = s.log ∧ (set_led_handler s r).2.task = s.task := by
      unfold set_led_handler; split <;> exact ⟨rfl, rfl⟩
    refine go _ _ [.answered hdr (.led (set_led_handler s r).1)] _ rfl (congrArg (· ++ _) this.1) ?_
    show _ = _ ++ accPending (set_led_handler s r).2.task
    rw [this.2]
    exact List.append_nil _
  · intro _ _; exact go _ _ _ _ rfl rfl (List.append_nil _)
  · intro _ _ _ _; exact go _ _ _ _ rfl rfl (List.append_nil _)
  · intro _ _ ht; exact go _ _ [] _ rfl (List.append_nil _).symm (by rw [ht]; rfl)
  · intro _ _; exact go _ _ _ _ rfl rfl (List.append_nil _)
  · intro _ _; exact go _ _ _ _ rfl rfl (List.append_nil _)
  · intro t ht hp _; exact go _ _ [] _ rfl (List.append_nil _).symm (by rw [pend t _ ht hp]; rfl)
  · intro t ht hp; exact go _ _ _ _ rfl rfl (by rw [pend t _ ht hp]; rfl)
  · intro t ht hp; exact go _ _ _ _ rfl rfl (by rw [pend t _ ht hp]; rfl)
  · intro t ht hp
    refine go _ _ [] _ rfl ((chk _ _).1.trans (List.append_nil _).symm) ?_
    rw [(chk _ _).2, pend t _ ht hp]; rfl
  · intro t ht hp; exact go _ _ _ _ rfl rfl (List.append_nil _)
  · intro t ht hp; exact go _ _ [] _ rfl (List.append_nil _).symm (by rw [pend t _ ht hp]; rfl)
  · intro t a ht hp; exact go _ _ [] _ rfl (List.append_nil _).symm (by rw [pend t _ ht hp]; rfl)
  · intro t ht hp; exact go _ _ _ _ rfl rfl (List.append_nil _)
  · intro t a ht hp
    refine go _ _ _ _ rfl (chk _ _).1 ?_
    rw [(chk _ _).2, pend t _ ht hp]; rfl
  · intro t a ht hp
    refine go _ _ [.published t.seq a false] _ rfl rfl ?_
    rw [pend t _ ht hp]; rfl

theorem ledAfter_append (i : Nat) (l1 l2 : List FwLabel) (c : Rgb8) :
    ledAfter i (l1 ++ l2) c = ledAfter i l2 (ledAfter i l1 c) := by
  induction l1 generalizing c with
  | nil => rfl
  | cons l ls ih => cases l <;> exact ih _

/-- The LEDs show what was requested. -/
def Lit (ls : List FwLabel) (s : Fw) : Prop :=
  s.shown = s.ws2812_state ∧ ∀ i (h : i < 24), s.shown[i] = ledAfter i ls ⟨0#8, 0#8, 0#8⟩

theorem step_lit {ls : List FwLabel} {s : Fw} {l : FwLabel} {s' : Fw} (hs : Lit ls s) (h : fw_step s l = some s') :
    Lit (ls ++ [l]) s' := by
  have same : ∀ l (s' : Fw), s'.shown = s.shown → s'.ws2812_state = s.ws2812_state → (∀ i c, ledAfter i [l] c = c) →
      Lit (ls ++ [l]) s' := by
    intro l s' h1 h2 h3
    refine ⟨by rw [h1, h2]; exact hs.1, ?_⟩
    intro i hi
    simp only [h1]
    rw [ledAfter_append, h3]
    exact hs.2 i hi
  refine fw_cases (C := fun l s' => Lit (ls ++ [l]) s') h ?_ ?_ ?_ ?_ ?_ ?_ ?_ ?_ ?_ ?_ ?_ ?_ ?_ ?_ ?_ ?_ ?_ ?_
  · intro _ _; exact same _ _ rfl rfl (fun _ _ => rfl)
  · intro _; exact same _ _ rfl rfl (fun _ _ => rfl)
  · intro hdr r
    unfold set_led_handler
    split
    · rename_i hr
      refine ⟨hs.1, ?_⟩
      intro i hi
      rw [ledAfter_append]
      have : r.position.toNat ≠ i := by omega
      show _ = (if r.position.toNat = i then _ else _)
      rw [if_neg this]
      exact hs.2 i hi
    · rename_i hr
      refine ⟨rfl, ?_⟩
      intro i hi
      rw [ledAfter_append]
      show (s.ws2812_state.set r.position.toNat r.rgb (Nat.lt_of_not_le hr))[i] = (if r.position.toNat = i then _ else _)
      rw [Vector.getElem_set]
      split
      · rfl
      · have := hs.2 i hi
        simp only [hs.1] at this
        exact this
  · intro hdr r
    refine ⟨rfl, ?_⟩
    intro i hi
    rw [ledAfter_append]
    show (Vector.zipWith _ s.ws2812_state r)[i] = (r[i]?.getD _)
    rw [Vector.getElem_zipWith]
    simp [hi]
  · intro _ _ _ _; exact same _ _ rfl rfl (fun _ _ => rfl)
  · intro _ _ _; exact same _ _ rfl rfl (fun _ _ => rfl)
  · intro _ _; exact same _ _ rfl rfl (fun _ _ => rfl)
  · intro _ _; exact same _ _ rfl rfl (fun _ _ => rfl)
  · intro _ _ _ _; exact same _ _ rfl rfl (fun _ _ => rfl)
  · intro _ _ _; exact same _ _ rfl rfl (fun _ _ => rfl)
  · intro _ _ _; exact same _ _ rfl rfl (fun _ _ => rfl)
  · intro _ _ _; unfold acc_check; split <;> exact same _ _ rfl rfl (fun _ _ => rfl)
  · intro _ _ _; exact same _ _ rfl rfl (fun _ _ => rfl)
  · intro _ _ _; exact same _ _ rfl rfl (fun _ _ => rfl)
  · intro _ _ _ _; exact same _ _ rfl rfl (fun _ _ => rfl)
  · intro _ _ _; exact same _ _ rfl rfl (fun _ _ => rfl)
  · intro _ _ _ _; unfold acc_check; split <;> exact same _ _ rfl rfl (fun _ _ => rfl)
  · intro _ _ _ _; exact same _ _ rfl rfl (fun _ _ => rfl)

end PRpc
