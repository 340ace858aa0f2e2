import Verif.Spec.UsbTimed
import Verif.Lemmas.UsbSend
/-! Helper lemmas for C73. -/

namespace PRpc

open Spec

theorem and_63 (n : Nat) : n &&& (64 - 1) = n % 64 := Nat.and_two_pow_sub_one_eq_mod n 6

theorem n_writes_eq (out : Bytes) (p : Bool) : n_writes out p = packets p out.length := by
  simp only [n_writes, packets, dataPackets, and_63, chunks64_length]

theorem packets_writesFor (p : Bool) {len : Nat} (h : 0 < len) : writesFor p len = packets p len := by
  simp only [writesFor, packets, dataPackets]
  rw [if_neg (by omega)]
  by_cases hm : len % 64 = 0
  · simp only [hm, if_true]; omega
  · simp only [hm, if_false]; omega

theorem fut_time_ge {ws : Nat → WriteTime} {i n e r : Nat} (h : fut_time ws i n e = some r) : e ≤ r := by
  induction n generalizing i e with
  | zero => simp only [fut_time, Option.some.injEq] at h; omega
  | succ n ih =>
    simp only [fut_time] at h
    cases hd : (ws i).us with
    | none => simp [hd] at h
    | some d =>
      simp only [hd] at h
      split at h
      · simp only [Option.some.injEq] at h; omega
      · have := ih h; omega

theorem Spec.Written.elapsed {ws : Nat → WriteTime} {i e : Nat} (h : Written ws i e) : PRpc.elapsed ws i = some e := by
  induction h with
  | zero => rfl
  | succ _ hd _ ih => simp only [PRpc.elapsed, ih, hd]

theorem Spec.Written.unique {ws : Nat → WriteTime} {i e e' : Nat} (h : Written ws i e) (h' : Written ws i e') : e = e' := by
  have := h.elapsed.symm.trans h'.elapsed
  simpa using this

theorem Spec.Written.prev {ws : Nat → WriteTime} {n e : Nat} (h : Written ws n e) :
    ∀ i, i ≤ n → ∃ e', Written ws i e' ∧ e' ≤ e := by
  induction h with
  | zero => intro i hi; exact ⟨0, by rw [show i = 0 by omega]; exact .zero, Nat.le_refl _⟩
  | @succ k e d hw hd hf ih =>
    intro i hi
    by_cases hk : i ≤ k
    · obtain ⟨e', h1, h2⟩ := ih i hk; exact ⟨e', h1, by omega⟩
    · rw [show i = k + 1 by omega]; exact ⟨_, .succ hw hd hf, Nat.le_refl _⟩

theorem Spec.Written.ok {ws : Nat → WriteTime} {n e : Nat} (h : Written ws n e) : ∀ i < n, (ws i).fails = false := by
  induction h with
  | zero => intro i hi; omega
  | @succ k e d hw hd hf ih =>
    intro i hi
    by_cases hk : i < k
    · exact ih i hk
    · rw [show i = k by omega]; exact hf

/-- The future on its own and the writes under the time limit agree. -/
theorem scan_timed {ws : Nat → WriteTime} {limit : Nat} {i n e : Nat} (hw : Written ws i e) :
    (∃ e', Written ws (i + n) e' ∧ e' ≤ limit ∧ fut_time ws i n e = some e' ∧ scan (timed_outcome limit ws) i n = none) ∨
    (∃ e', FailsAt ws (i + n) e' ∧ e' ≤ limit ∧ fut_time ws i n e = some e' ∧
      scan (timed_outcome limit ws) i n = some .ConnectionClosed) ∨
    ((∀ e', e' ≤ limit → ¬ Written ws (i + n) e' ∧ ¬ FailsAt ws (i + n) e') ∧ (∀ r, fut_time ws i n e = some r → limit < r) ∧
      scan (timed_outcome limit ws) i n = some .Timeout) ∨ (n = 0 ∧ limit < e) := by
  induction n generalizing i e with
  | zero =>
    by_cases he : e ≤ limit
    · exact .inl ⟨e, hw, he, rfl, rfl⟩
    · exact .inr (.inr (.inr ⟨rfl, by omega⟩))
  | succ n ih =>
    -- what holds if write `i` is not ready in time
    have late : (∀ d, (ws i).us = some d → limit < e + d) →
        (∀ e', e' ≤ limit → ¬ Written ws (i + (n + 1)) e' ∧ ¬ FailsAt ws (i + (n + 1)) e') ∧
        (∀ r, fut_time ws i (n + 1) e = some r → limit < r) ∧
        scan (timed_outcome limit ws) i (n + 1) = some .Timeout := by
      intro hl
      refine ⟨fun e' he' => ⟨fun hw' => ?_, ?_⟩, fun r hr => ?_, ?_⟩
      · obtain ⟨e1, h1, h1'⟩ := hw'.prev (i + 1) (by omega)
        cases h1 with
        | succ ha hd _ =>
          have := hw.unique ha
          subst this
          have := hl _ hd
          omega
      · rintro ⟨j, e1, d, hj, hwj, hd, hf, rfl⟩
        rcases Nat.lt_trichotomy j i with h | h | h
        · exact absurd (hw.ok j h) (by simp [hf])
        · subst h
          have := hw.unique hwj
          subst this
          have := hl _ hd
          omega
        · obtain ⟨e2, h2, h2'⟩ := hwj.prev (i + 1) h
          cases h2 with
          | succ ha hd' _ =>
            have := hw.unique ha
            subst this
            have := hl _ hd'
            omega
      · simp only [fut_time] at hr
        cases hd : (ws i).us with
        | none => simp [hd] at hr
        | some d =>
          have := hl d hd
          simp only [hd] at hr
          split at hr
          · simp only [Option.some.injEq] at hr; omega
          · have := fut_time_ge hr; omega
      · simp only [scan, timed_outcome, elapsed, hw.elapsed]
        cases hd : (ws i).us with
        | none => rfl
        | some d =>
          have := hl d hd
          simp only
          rw [if_neg (by omega)]
    cases hd : (ws i).us with
    | none => exact .inr (.inr (.inl (late (by simp [hd]))))
    | some d =>
      by_cases hlim : e + d ≤ limit
      · have ho : timed_outcome limit ws i = if (ws i).fails then .err (ws i).onWire else .ok := by
          simp only [timed_outcome, elapsed, hw.elapsed, hd]
          rw [if_pos hlim]
        cases hf : (ws i).fails with
        | true =>
          refine .inr (.inl ⟨e + d, ⟨i, e, d, by omega, hw, hd, hf, rfl⟩, hlim, ?_, ?_⟩)
          · simp [fut_time, hd, hf]
          · simp [scan, ho, hf]
        | false =>
          have hs : scan (timed_outcome limit ws) i (n + 1) = scan (timed_outcome limit ws) (i + 1) n := by
            simp [scan, ho, hf]
          have hft : fut_time ws i (n + 1) e = fut_time ws (i + 1) n (e + d) := by simp [fut_time, hd, hf]
          rw [hs, hft]
          have := ih (Written.succ hw hd hf)
          rw [show i + 1 + n = i + (n + 1) by omega] at this
          rcases this with h | h | h | ⟨_, h⟩
          · exact .inl h
          · exact .inr (.inl h)
          · exact .inr (.inr (.inl h))
          · omega
      · exact .inr (.inr (.inl (late fun d' hd' => by rw [hd] at hd'; cases hd'; omega)))

theorem ep_write_pending (o : WriteOut) (p : Bytes) (t : UsbTx) :
    (ep_write o p t).2.pending_frame = t.pending_frame ∧ (ep_write o p t).1 ≠ some .Ok := by
  cases o with
  | ok => simp [ep_write]
  | err w => cases w <;> simp [ep_write]
  | cut w => cases w <;> simp [ep_write]

theorem write_chunks_pending (o : Nat → WriteOut) (i : Nat) (chs : List Bytes) (t : UsbTx) :
    (write_chunks o i chs t).2.pending_frame = t.pending_frame ∧ (write_chunks o i chs t).1 ≠ some .Ok := by
  induction chs generalizing i t with
  | nil => simp [write_chunks]
  | cons ch chs ih =>
    have h := ep_write_pending (o i) ch t
    simp only [write_chunks]
    rcases e : ep_write (o i) ch t with ⟨_ | r, t'⟩
    · rw [e] at h; simp only; rw [← h.1]; exact ih _ _
    · rw [e] at h; exact h

theorem send_body_pending (o : Nat → WriteOut) (i : Nat) (out : Bytes) (t : UsbTx) :
    (send_body o i out t).2.pending_frame = ((send_body o i out t).1 != .Ok) := by
  have h := write_chunks_pending o i (chunks64 out) { t with pending_frame := true }
  simp only [send_body]
  rcases e : write_chunks o i (chunks64 out) { t with pending_frame := true } with ⟨_ | r, t'⟩
  · rw [e] at h
    simp only at h ⊢
    split
    · have h2 := ep_write_pending (o (i + (chunks64 out).length)) [] t'
      rcases e2 : ep_write (o (i + (chunks64 out).length)) [] t' with ⟨_ | r, t''⟩
      · rfl
      · rw [e2] at h2
        simp only at h2 ⊢
        rw [h2.1, h.1]
        have : r ≠ .Ok := fun hr => h2.2 (by rw [hr])
        simp [this]
    · rfl
  · rw [e] at h
    simp only at h ⊢
    rw [h.1]
    have : r ≠ .Ok := fun hr => h.2 (by rw [hr])
    simp [this]

/-- After a send of a frame the frame counts as cut exactly if the send failed. -/
theorem send_all_pending (o : Nat → WriteOut) {out : Bytes} (hne : out ≠ []) (t : UsbTx) :
    (send_all o out t).2.pending_frame = ((send_all o out t).1 != .Ok) := by
  have hne' : out.isEmpty = false := by cases out <;> simp_all
  simp only [send_all, hne', Bool.false_eq_true, if_false]
  split
  · rename_i hp
    have h2 := ep_write_pending (o 0) [] t
    rcases e2 : ep_write (o 0) [] t with ⟨_ | r, t'⟩
    · exact send_body_pending o 1 out t'
    · rw [e2] at h2
      simp only at h2 ⊢
      rw [h2.1, hp]
      have : r ≠ .Ok := fun hr => h2.2 (by rw [hr])
      simp [this]
  · exact send_body_pending o 0 out t

/-- The result and the time of a send whose limit is known. -/
theorem send_all_timed_spec {umax : Nat} {checks : Bool} {per ms : Nat} {ws : Nat → WriteTime} {out : Bytes} {t : UsbTx}
    (hne : out ≠ []) (hms : send_timeout umax checks out.length per = .ok ms) :
    ∃ r us t', send_all_timed umax checks per ws out t = .ok (r, us, t') ∧ t'.pending_frame = (r != .Ok) ∧ us ≤ ms * 1000 ∧
      ((r = .Ok ∧ Written ws (packets t.pending_frame out.length) us) ∨
       (r = .ConnectionClosed ∧ FailsAt ws (packets t.pending_frame out.length) us) ∨
       (r = .Timeout ∧ us = ms * 1000 ∧ ∀ e, e ≤ ms * 1000 →
          ¬ Written ws (packets t.pending_frame out.length) e ∧ ¬ FailsAt ws (packets t.pending_frame out.length) e)) := by
  have hp := List.length_pos_iff.mpr hne
  have hne' : out.isEmpty = false := by cases out <;> simp_all
  have hs := send_all_scan (timed_outcome (ms * 1000) ws) out t
  rw [packets_writesFor _ hp] at hs
  simp only [send_all_timed, hne', hms, Exec.ok_bind, Bool.false_eq_true, if_false, n_writes_eq]
  have key := scan_timed (limit := ms * 1000) (n := packets t.pending_frame out.length) (Written.zero (ws := ws))
  rw [Nat.zero_add] at key
  rcases key with ⟨e, h1, h2, h3, h4⟩ | ⟨e, h1, h2, h3, h4⟩ | ⟨h1, h2, h3⟩ | ⟨_, h⟩
  · rw [h4] at hs
    refine ⟨_, _, _, rfl, send_all_pending _ hne t, ?_, .inl ⟨hs, ?_⟩⟩
    · rw [h3]; exact Nat.min_le_right _ _
    · rw [h3]; simp only; rw [Nat.min_eq_left h2]; exact h1
  · rw [h4] at hs
    refine ⟨_, _, _, rfl, send_all_pending _ hne t, ?_, .inr (.inl ⟨hs, ?_⟩)⟩
    · rw [h3]; exact Nat.min_le_right _ _
    · rw [h3]; simp only; rw [Nat.min_eq_left h2]; exact h1
  · rw [h3] at hs
    have : (match fut_time ws 0 (packets t.pending_frame out.length) 0 with
        | some e => min e (ms * 1000) | none => ms * 1000) = ms * 1000 := by
      cases hf : fut_time ws 0 (packets t.pending_frame out.length) 0 with
      | none => rfl
      | some r => have := h2 r hf; simp only; omega
    exact ⟨_, _, _, rfl, send_all_pending _ hne t, Nat.le_of_eq this, .inr (.inr ⟨hs, this, h1⟩)⟩
  · omega

end PRpc
