import Verif.Spec.UsbSend
import Verif.Lemmas.Usb
/-! Helper lemmas for C68. -/

namespace PRpc

open Spec

/-- The result of writes `i`, …, `i + n - 1`: `none` if all are completed. -/
def scan (o : Nat → WriteOut) : Nat → Nat → Option TxRes
  | _, 0 => none
  | i, n + 1 =>
    match o i with
    | .ok => scan o (i + 1) n
    | .err _ => some .ConnectionClosed
    | .cut _ => some .Timeout

theorem scan_append (o : Nat → WriteOut) (i n m : Nat) :
    scan o i (n + m) = match scan o i n with | some r => some r | none => scan o (i + n) m := by
  induction n generalizing i with
  | zero => simp [scan]
  | succ n ih =>
    rw [show n + 1 + m = (n + m) + 1 by omega]
    simp only [scan]
    split
    · rw [ih, show i + 1 + n = i + (n + 1) by omega]
    · rfl
    · rfl

theorem scan_spec (o : Nat → WriteOut) (i n : Nat) :
    (scan o i n = none → ∀ j < n, o (i + j) = .ok) ∧
    (∀ r, scan o i n = some r → ∃ k < n, (∀ j < k, o (i + j) = .ok) ∧
      ((r = .ConnectionClosed ∧ ∃ w, o (i + k) = .err w) ∨ (r = .Timeout ∧ ∃ w, o (i + k) = .cut w))) := by
  induction n generalizing i with
  | zero => simp [scan]
  | succ n ih =>
    simp only [scan]
    cases e : o i with
    | ok =>
      simp only
      obtain ⟨a, b⟩ := ih (i + 1)
      refine ⟨fun h j hj => ?_, fun r h => ?_⟩
      · cases j with
        | zero => exact e
        | succ j => have := a h j (by omega); rwa [show i + 1 + j = i + (j + 1) by omega] at this
      · obtain ⟨k, hk, h1, h2⟩ := b r h
        refine ⟨k + 1, by omega, fun j hj => ?_, ?_⟩
        · cases j with
          | zero => exact e
          | succ j => have := h1 j (by omega); rwa [show i + 1 + j = i + (j + 1) by omega] at this
        · rwa [show i + 1 + k = i + (k + 1) by omega] at h2
    | err w =>
      refine ⟨fun h => (by cases h), fun r h => ?_⟩
      cases h
      exact ⟨0, by omega, fun j hj => absurd hj (by omega), .inl ⟨rfl, w, e⟩⟩
    | cut w =>
      refine ⟨fun h => (by cases h), fun r h => ?_⟩
      cases h
      exact ⟨0, by omega, fun j hj => absurd hj (by omega), .inr ⟨rfl, w, e⟩⟩

theorem ep_write_scan (o : Nat → WriteOut) (i : Nat) (p : Bytes) (t : UsbTx) : (ep_write (o i) p t).1 = scan o i 1 := by
  cases e : o i <;> simp [ep_write, scan, e]

theorem write_chunks_scan (o : Nat → WriteOut) (i : Nat) (chs : List Bytes) (t : UsbTx) :
    (write_chunks o i chs t).1 = scan o i chs.length := by
  induction chs generalizing i t with
  | nil => rfl
  | cons ch chs ih =>
    simp only [write_chunks, List.length_cons, scan]
    cases e : o i <;> simp only [ep_write]
    exact ih _ _

theorem chunks64_length (l : Bytes) : (chunks64 l).length = l.length / 64 + if l.length % 64 = 0 then 0 else 1 := by
  induction hk : l.length using Nat.strongRecOn generalizing l with
  | ind k ih =>
    subst hk
    by_cases h : l = []
    · subst h; rw [chunks64_nil]; rfl
    · have hp := List.length_pos_iff.mpr h
      rw [chunks64_cons h, List.length_cons, ih (l.drop 64).length (by simp; omega) _ rfl, List.length_drop]
      split <;> split <;> omega

theorem send_body_scan (o : Nat → WriteOut) (i : Nat) (out : Bytes) (t : UsbTx) :
    (send_body o i out t).1 = (scan o i (out.length / 64 + 1)).getD .Ok := by
  have hl := chunks64_length out
  have hw := write_chunks_scan o i (chunks64 out) { t with pending_frame := true }
  simp only [send_body]
  rw [and63]
  by_cases hm : out.length % 64 = 0
  · rw [if_pos hm] at hl
    simp only [hm, if_true]
    rw [show out.length / 64 + 1 = (chunks64 out).length + 1 by omega, scan_append]
    rw [← hw]
    rcases write_chunks o i (chunks64 out) { t with pending_frame := true } with ⟨_ | r, t'⟩
    · simp only
      rw [← ep_write_scan o (i + (chunks64 out).length) [] t']
      rcases ep_write (o (i + (chunks64 out).length)) [] t' with ⟨_ | r, t''⟩ <;> rfl
    · rfl
  · rw [if_neg hm] at hl
    simp only [hm, if_false]
    rw [show out.length / 64 + 1 = (chunks64 out).length by omega, ← hw]
    rcases write_chunks o i (chunks64 out) { t with pending_frame := true } with ⟨_ | r, t'⟩ <;> rfl

theorem send_all_scan (o : Nat → WriteOut) (out : Bytes) (t : UsbTx) :
    (send_all o out t).1 = (scan o 0 (writesFor t.pending_frame out.length)).getD .Ok := by
  by_cases hne : out = []
  · subst hne; rfl
  · have hp := List.length_pos_iff.mpr hne
    have hne' : out.isEmpty = false := by cases out <;> simp_all
    simp only [send_all, hne', writesFor]
    rw [if_neg (by omega : ¬ out.length = 0)]
    cases hpf : t.pending_frame with
    | false => simp only [Bool.false_eq_true, if_false, Nat.zero_add]; exact send_body_scan o 0 out t
    | true =>
      simp only [if_true, Bool.false_eq_true, if_false]
      rw [Nat.add_assoc, scan_append, ← ep_write_scan o 0 [] t]
      rcases ep_write (o 0) [] t with ⟨_ | r, t'⟩
      · exact send_body_scan o 1 out t'
      · rfl

end PRpc
