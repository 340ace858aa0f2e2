import Verif.Model.Serial
import Verif.Spec.Cobs
/-! Helper lemmas for the COBS accumulator. -/

namespace PRpc

open Spec (NoZero Cobs)

theorem cobs_noZero {d e : Bytes} (h : Cobs d e) : NoZero e := by
  induction h with
  | @last run code hr hc =>
    intro hm
    rcases List.mem_cons.mp hm with h | h
    · rw [← h] at hc; simp at hc
    · exact hr h
  | @zero run data enc code hr hc _ _ ih =>
    intro hm
    simp only [List.cons_append, List.mem_cons, List.mem_append] at hm
    rcases hm with h | h | h
    · rw [← h] at hc; simp at hc
    · exact hr h
    · exact ih h
  | @full run data enc hr hl _ ih =>
    intro hm
    simp only [List.cons_append, List.mem_cons, List.mem_append] at hm
    rcases hm with h | h | h
    · exact absurd h (by decide)
    · exact hr h
    · exact ih h

theorem cobs_length {d e : Bytes} (h : Cobs d e) : d.length < e.length := by
  induction h with
  | last => simp
  | zero _ _ _ _ ih => simp; omega
  | full _ _ _ ih => simp; omega

theorem byte_at_ok {buf : Bytes} {i : Nat} (h : i < buf.length) : byte_at buf i = .ok buf[i] := by
  simp [byte_at, h]

theorem byte_put_ok {buf : Bytes} {i : Nat} (h : i < buf.length) (b : Byte) :
    byte_put buf i b = .ok (buf.set i b) := by simp [byte_put, h]

/-- The copy loop moves `n` bytes down without disturbing what lies above. -/
theorem dec_copy_ok (n : Nat) (buf : Bytes) (si di : Nat) (h1 : di < si) (h2 : si + n ≤ buf.length) :
    ∃ buf', dec_copy buf si di n = .ok buf' ∧ buf'.length = buf.length ∧
      buf'.take (di + n) = buf.take di ++ (buf.drop si).take n ∧ buf'.drop (si + n) = buf.drop (si + n) := by
  induction n generalizing buf si di with
  | zero => exact ⟨buf, rfl, rfl, by simp, rfl⟩
  | succ n ih =>
    have hs : si < buf.length := by omega
    have hd : di < buf.length := by omega
    obtain ⟨buf', e, hl, ht, hdr⟩ := ih (buf.set di buf[si]) (si + 1) (di + 1) (by omega) (by simp; omega)
    refine ⟨buf', ?_, ?_, ?_, ?_⟩
    · rw [dec_copy, byte_at_ok hs]
      simp only [Exec.ok_bind]
      rw [byte_put_ok hd]
      simp only [Exec.ok_bind]
      exact e
    · simpa using hl
    · rw [show di + (n + 1) = di + 1 + n by omega, ht]
      rw [List.drop_set_of_lt (by omega : di < si + 1)]
      have : (buf.set di buf[si]).take (di + 1) = buf.take di ++ [buf[si]] := by
        rw [List.take_set, List.take_succ_eq_append_getElem hd]
        rw [List.set_append_right _ _ (by simp; omega)]
        simp [List.length_take, Nat.min_eq_left (Nat.le_of_lt hd)]
      rw [this, List.append_assoc]
      congr 1
      rw [List.drop_eq_getElem_cons hs, List.take_succ_cons]
      rfl
    · rw [show si + (n + 1) = si + 1 + n by omega, hdr]
      rw [List.drop_set_of_lt (by omega)]

theorem zero_pos_append {a b : Bytes} (h : NoZero a) : zero_pos (a ++ 0#8 :: b) = some a.length := by
  induction a with
  | nil => simp [zero_pos]
  | cons x a ih =>
    have hx : x ≠ 0#8 := fun e => h (by simp [e])
    simp [zero_pos, hx, ih fun hm => h (by simp [hm])]

theorem zero_pos_none {a : Bytes} (h : NoZero a) : zero_pos a = none := by
  induction a with
  | nil => rfl
  | cons x a ih =>
    have hx : x ≠ 0#8 := fun e => h (by simp [e])
    simp [zero_pos, hx, ih fun hm => h (by simp [hm])]

theorem zero_pos_eq_none {a : Bytes} (h : zero_pos a = none) : NoZero a := by
  induction a with
  | nil => simp [NoZero]
  | cons x a ih =>
    simp only [zero_pos] at h
    split at h
    · cases h
    · rename_i hx
      intro hm
      rcases List.mem_cons.mp hm with e | e
      · exact hx e.symm
      · exact ih (by simpa using h) e

theorem zero_pos_some {a : Bytes} {n : Nat} (h : zero_pos a = some n) :
    a = a.take n ++ 0#8 :: a.drop (n + 1) ∧ NoZero (a.take n) ∧ n < a.length := by
  induction a generalizing n with
  | nil => cases h
  | cons x a ih =>
    simp only [zero_pos] at h
    split at h
    · rename_i hx
      cases h
      simp [hx, NoZero]
    · rename_i hx
      cases hz : zero_pos a with
      | none => rw [hz] at h; cases h
      | some m =>
        rw [hz] at h
        cases h
        obtain ⟨h1, h2, h3⟩ := ih hz
        refine ⟨by simpa using h1, ?_, by simpa using h3⟩
        intro hm
        simp only [List.take_succ_cons, List.mem_cons] at hm
        rcases hm with e | e
        · exact hx e.symm
        · exact h2 e

/-- Decoding an encoding gives the data back. -/
theorem dec_loop_cobs {d e : Bytes} (h : Cobs d e) (buf : Bytes) (si di : Nat) (tail : Bytes) (hd : di ≤ si)
    (hb : buf.drop si = e ++ tail) (hsi : si ≤ buf.length) :
    ∃ buf', dec_loop buf (si + e.length) si di = .ok (some (di + d.length), buf') ∧ buf'.length = buf.length ∧
      buf'.take (di + d.length) = buf.take di ++ d := by
  have hlen := congrArg List.length hb
  simp only [List.length_drop, List.length_append] at hlen
  induction h generalizing buf si di tail with
  | @last run code hr hc =>
    simp only [List.length_cons] at hlen ⊢
    have hs : si < buf.length := by omega
    have hcode : buf[si] = code := by
      have := congrArg (·[0]?) hb
      simp only [List.getElem?_drop, List.cons_append, List.getElem?_cons_zero, Nat.add_zero,
        List.getElem?_eq_getElem hs, Option.some.injEq] at this
      exact this
    have hdrop : buf.drop (si + 1) = run ++ tail := by
      rw [← List.drop_drop, hb]; simp
    obtain ⟨buf', ec, el, et, ed⟩ := dec_copy_ok run.length buf (si + 1) di (by omega) (by omega)
    refine ⟨buf', ?_, el, ?_⟩
    · rw [dec_loop, if_pos (by omega), byte_at_ok hs, hcode]
      simp only [Exec.ok_bind]
      rw [if_neg (by omega)]
      simp only [hc, Nat.add_sub_cancel, ec, Exec.ok_bind]
      rw [if_neg (by omega), dec_loop, if_neg (by omega)]
    · rw [et, hdrop]; simp
  | @zero run data enc code hr hc hlt henc ih =>
    simp only [List.length_cons, List.cons_append, List.length_append] at hlen ⊢
    have hs : si < buf.length := by omega
    have hcode : buf[si] = code := by
      have := congrArg (·[0]?) hb
      simp only [List.getElem?_drop, List.cons_append, List.getElem?_cons_zero, Nat.add_zero,
        List.getElem?_eq_getElem hs, Option.some.injEq] at this
      exact this
    have hdrop : buf.drop (si + 1) = run ++ (enc ++ tail) := by
      rw [← List.drop_drop, hb]; simp
    obtain ⟨buf', ec, el, et, ed⟩ := dec_copy_ok run.length buf (si + 1) di (by omega) (by omega)
    have hepos : 0 < enc.length := by have := cobs_length henc; omega
    have hput : di + run.length < buf'.length := by omega
    have hne : code ≠ 0xFF#8 := by
      intro e
      rw [e] at hc
      simp at hc
      omega
    have hdrop' : (buf'.set (di + run.length) 0#8).drop (si + 1 + run.length) = enc ++ tail := by
      rw [List.drop_set_of_lt (by omega), ed, ← List.drop_drop, hdrop]
      simp
    obtain ⟨b2, e2, l2, t2⟩ := ih (buf'.set (di + run.length) 0#8) (si + 1 + run.length) (di + run.length + 1) tail
      (by omega) hdrop' (by simp; omega) (by simp; omega)
    refine ⟨b2, ?_, by simpa [el] using l2, ?_⟩
    · rw [dec_loop, if_pos (by omega), byte_at_ok hs, hcode]
      simp only [Exec.ok_bind]
      rw [if_neg (by omega)]
      simp only [hc, Nat.add_sub_cancel, ec, Exec.ok_bind]
      rw [if_pos ⟨hne, by omega⟩, byte_put_ok hput]
      simp only [Exec.ok_bind]
      rw [show si + (run.length + enc.length + 1) = si + 1 + run.length + enc.length by omega, e2]
      congr 3
      omega
    · rw [show di + (run.length + (data.length + 1)) = di + run.length + 1 + data.length by omega, t2]
      have : (buf'.set (di + run.length) 0#8).take (di + run.length + 1) = buf.take di ++ run ++ [0#8] := by
        rw [List.take_set, List.take_succ_eq_append_getElem hput, List.set_append_right _ _ (by simp; omega), et, hdrop]
        simp [List.length_take]
        rw [show di + run.length - (min di buf.length + run.length) = 0 by omega]
        simp
      rw [this]
      simp
  | @full run data enc hr hl henc ih =>
    simp only [List.length_cons, List.cons_append, List.length_append] at hlen ⊢
    have hs : si < buf.length := by omega
    have hcode : buf[si] = 255#8 := by
      have := congrArg (·[0]?) hb
      simp only [List.getElem?_drop, List.cons_append, List.getElem?_cons_zero, Nat.add_zero,
        List.getElem?_eq_getElem hs, Option.some.injEq] at this
      exact this
    have hdrop : buf.drop (si + 1) = run ++ (enc ++ tail) := by
      rw [← List.drop_drop, hb]; simp
    obtain ⟨buf', ec, el, et, ed⟩ := dec_copy_ok run.length buf (si + 1) di (by omega) (by omega)
    have hdrop' : buf'.drop (si + 1 + run.length) = enc ++ tail := by
      rw [ed, ← List.drop_drop, hdrop]; simp
    obtain ⟨b2, e2, l2, t2⟩ := ih buf' (si + 1 + run.length) (di + run.length) tail (by omega) hdrop' (by omega)
      (by omega)
    refine ⟨b2, ?_, by omega, ?_⟩
    · rw [dec_loop, if_pos (by omega), byte_at_ok hs, hcode]
      simp only [Exec.ok_bind]
      rw [if_neg (by simp; omega)]
      have hn : (255#8 : Byte).toNat - 1 = run.length := by simp [hl]
      simp only [hn, ec, Exec.ok_bind]
      rw [if_neg (by simp)]
      rw [show si + (run.length + enc.length + 1) = si + 1 + run.length + enc.length by omega, e2]
      congr 3
      omega
    · rw [show di + (run.length + data.length) = di + run.length + data.length by omega, t2, et, hdrop]
      simp

/-- Decoding never panics, keeps the buffer's length, and reports a length within it. -/
theorem dec_loop_total (buf : Bytes) (src_end si di : Nat) (hd : di ≤ si) (he : src_end ≤ buf.length) (hs : si ≤ src_end) :
    ∃ r buf', dec_loop buf src_end si di = .ok (r, buf') ∧ buf'.length = buf.length ∧
      ∀ u, r = some u → u ≤ src_end := by
  induction hk : src_end - si using Nat.strongRecOn generalizing buf si di with
  | ind k ih =>
    by_cases hlt : si < src_end
    · have hsl : si < buf.length := by omega
      rw [dec_loop, if_pos hlt, byte_at_ok hsl]
      simp only [Exec.ok_bind]
      split
      · exact ⟨none, buf, rfl, rfl, by simp⟩
      · rename_i hc
        have hn : si + 1 + (buf[si].toNat - 1) ≤ src_end := by
          by_cases h1 : buf[si] = 1#8
          · rw [h1]; simp; omega
          · have : ¬ si + buf[si].toNat > src_end := fun h => hc ⟨h, h1⟩
            omega
        obtain ⟨b1, e1, l1, _, _⟩ := dec_copy_ok (buf[si].toNat - 1) buf (si + 1) di (by omega) (by omega)
        rw [e1]
        simp only [Exec.ok_bind]
        split
        · rw [byte_put_ok (by omega)]
          simp only [Exec.ok_bind]
          obtain ⟨r, b2, e2, l2, h2⟩ := ih (src_end - (si + 1 + (buf[si].toNat - 1))) (by omega)
            (b1.set (di + (buf[si].toNat - 1)) 0#8) (si + 1 + (buf[si].toNat - 1)) (di + (buf[si].toNat - 1) + 1)
            (by omega) (by simp; omega) hn rfl
          exact ⟨r, b2, e2, by simpa [l1] using l2, h2⟩
        · obtain ⟨r, b2, e2, l2, h2⟩ := ih (src_end - (si + 1 + (buf[si].toNat - 1))) (by omega)
            b1 (si + 1 + (buf[si].toNat - 1)) (di + (buf[si].toNat - 1)) (by omega) (by omega) hn rfl
          exact ⟨r, b2, e2, by omega, h2⟩
    · rw [dec_loop, if_neg hlt]
      exact ⟨some di, buf, rfl, rfl, by intro u hu; cases hu; omega⟩

theorem zero_pos_getD_le (b : Bytes) : (zero_pos b).getD b.length ≤ b.length := by
  cases h : zero_pos b with
  | none => simp
  | some n => have := zero_pos_lt h; simp; omega

theorem decode_total (buf : Bytes) :
    ∃ r buf', decode_in_place buf = .ok (r, buf') ∧ buf'.length = buf.length ∧ ∀ u, r = some u → u ≤ buf.length := by
  obtain ⟨r, b, h1, h2, h3⟩ := dec_loop_total buf _ 0 0 (by omega) (zero_pos_getD_le buf) (by omega)
  exact ⟨r, b, h1, h2, fun u hu => Nat.le_trans (h3 u hu) (zero_pos_getD_le buf)⟩

theorem decode_cobs {d e : Bytes} (h : Cobs d e) :
    ∃ buf', decode_in_place (e ++ [0#8]) = .ok (some d.length, buf') ∧ buf'.length = e.length + 1 ∧
      buf'.take d.length = d := by
  obtain ⟨b, h1, h2, h3⟩ := dec_loop_cobs h (e ++ [0#8]) 0 0 [0#8] (by omega) (by simp) (by simp)
  refine ⟨b, ?_, by simpa using h2, by simpa using h3⟩
  rw [decode_in_place, zero_pos_append (cobs_noZero h)]
  simpa using h1

/-- Invariant of the accumulator: the buffer has its capacity, the index is within it, no zero is held. -/
structure Acc.Good (N : Nat) (s : Acc) : Prop where
  len : s.buf.length = N
  idx : s.idx ≤ N
  nz : NoZero (s.buf.take s.idx)

theorem Acc.good_new (N : Nat) : (Acc.new N).Good N :=
  ⟨by simp [Acc.new], by simp [Acc.new], by simp [Acc.new, NoZero]⟩

theorem Acc.good_reset {N : Nat} {buf : Bytes} (h : buf.length = N) : (⟨buf, 0⟩ : Acc).Good N :=
  ⟨h, by simp, by simp [NoZero]⟩

theorem noZero_append {a b : Bytes} : NoZero (a ++ b) ↔ NoZero a ∧ NoZero b := by
  simp [NoZero]

theorem held_length {N : Nat} {s : Acc} (h : s.Good N) : (s.buf.take s.idx).length = s.idx := by
  have := h.len; have := h.idx
  simp; omega

theorem extend_ok {N : Nat} {s : Acc} (h : s.Good N) {w : Bytes} (hw : s.idx + w.length ≤ N) :
    ∃ s', s.extend_unchecked w = .ok s' ∧ s'.buf.length = N ∧ s'.idx = s.idx + w.length ∧
      s'.buf.take s'.idx = s.buf.take s.idx ++ w := by
  have h1 := h.len
  have h2 := held_length h
  refine ⟨_, by rw [Acc.extend_unchecked]; exact if_pos (by omega), ?_, rfl, ?_⟩
  · simp; omega
  · apply List.take_left'
    simp only [List.length_append, h2]

/-- Feeding bytes with a zero in them. -/
theorem feed_zero {N : Nat} {s : Acc} (h : s.Good N) {a b : Bytes} (ha : NoZero a) :
    ∃ r s', s.feed N (a ++ 0#8 :: b) = .ok (r, s') ∧ r.rest = some b ∧ s'.Good N ∧ s'.idx = 0 ∧
      (∀ d, Cobs d (s.buf.take s.idx ++ a) → s.idx + a.length + 1 ≤ N → r = .Success d b) := by
  have hz := zero_pos_append (b := b) ha
  have hlen := h.len
  have htake : (a ++ 0#8 :: b).take (a.length + 1) = a ++ [0#8] := by
    rw [show a ++ 0#8 :: b = (a ++ [0#8]) ++ b by simp]
    exact List.take_left' (by simp)
  have hdrop : (a ++ 0#8 :: b).drop (a.length + 1) = b := by
    rw [show a ++ 0#8 :: b = (a ++ [0#8]) ++ b by simp]
    exact List.drop_left' (by simp)
  have hne : (a ++ 0#8 :: b).isEmpty = false := by cases a <;> rfl
  unfold Acc.feed
  simp only [hne, hz, htake, hdrop]
  by_cases hfit : s.idx + (a ++ [0#8]).length ≤ N
  · obtain ⟨s1, e1, l1, i1, t1⟩ := extend_ok h hfit
    obtain ⟨r, front, e2, l2, u2⟩ := decode_total (s1.buf.take s1.idx)
    have hfl : (front ++ s1.buf.drop s1.idx).length = N := by
      simp only [List.length_append, l2, List.length_take, List.length_drop]; omega
    simp only [hfit, if_true, e1, Exec.ok_bind, e2]
    cases r with
    | none =>
      refine ⟨_, _, rfl, rfl, Acc.good_reset hfl, rfl, ?_⟩
      intro d hd _
      obtain ⟨b', e3, _, _⟩ := decode_cobs hd
      rw [t1, ← List.append_assoc, e3] at e2
      simp at e2
    | some u =>
      refine ⟨_, _, rfl, rfl, Acc.good_reset hfl, rfl, ?_⟩
      intro d hd _
      obtain ⟨b', e3, l3, t3⟩ := decode_cobs hd
      rw [t1, ← List.append_assoc, e3] at e2
      simp only [Exec.ok.injEq, Prod.mk.injEq, Option.some.injEq] at e2
      obtain ⟨rfl, rfl⟩ := e2
      congr 1
      rw [List.take_append_of_le_length, t3]
      have := cobs_length hd
      omega
  · simp only [hfit, if_false]
    refine ⟨_, _, rfl, rfl, Acc.good_reset hlen, rfl, ?_⟩
    intro d _ hf
    simp at hfit
    omega

/-- Feeding bytes without a zero that fit. -/
theorem feed_nozero_fit {N : Nat} {s : Acc} (h : s.Good N) {w : Bytes} (hw : NoZero w) (hfit : s.idx + w.length ≤ N) :
    ∃ s', s.feed N w = .ok (.Consumed, s') ∧ s'.Good N ∧ s'.buf.take s'.idx = s.buf.take s.idx ++ w := by
  unfold Acc.feed
  cases w with
  | nil => exact ⟨s, rfl, h, by simp⟩
  | cons x w =>
    obtain ⟨s1, e1, l1, i1, t1⟩ := extend_ok h hfit
    refine ⟨s1, ?_, ⟨l1, by omega, ?_⟩, t1⟩
    · simp only [List.isEmpty_cons, zero_pos_none hw, e1, Exec.ok_bind]
      simp only [if_neg (show ¬ s.idx + (x :: w).length > N by omega)]
      rfl
    · rw [t1]; exact noZero_append.mpr ⟨h.nz, hw⟩

/-- Feeding bytes without a zero that do not fit. -/
theorem feed_nozero_over {N : Nat} {s : Acc} (h : s.Good N) {w : Bytes} (hw : NoZero w) (hover : N < s.idx + w.length) :
    ∃ s', s.feed N w = .ok (.OverFull (w.drop (N - s.idx)), s') ∧ s'.Good N ∧ s'.idx = 0 := by
  have hi := h.idx
  have hne : w.isEmpty = false := by
    cases w with
    | nil => simp at hover; omega
    | cons => rfl
  refine ⟨{ s with idx := 0 }, ?_, Acc.good_reset h.len, rfl⟩
  unfold Acc.feed
  simp only [hne, zero_pos_none hw]
  rw [if_neg (by simp), if_pos hover, if_pos ⟨hi, by omega⟩]

theorem cobs_loop_nil {N : Nat} (hN : 0 < N) (s : Acc) : cobs_loop N hN s [] = .ok ([], s) := by
  rw [cobs_loop]; simp

theorem cobs_loop_done {N : Nat} (hN : 0 < N) {s s' : Acc} {w : Bytes} {r : FeedResult} (hw : w ≠ [])
    (h : s.feed N w = .ok (r, s')) (hr : r.rest = none) : cobs_loop N hN s w = .ok ([], s') := by
  rw [cobs_loop, dif_neg hw]
  split
  · rename_i h2; rw [h] at h2; cases h2
  · rename_i r2 s2 h2
    rw [h] at h2
    cases h2
    split
    · rfl
    · rename_i w2 hr2; rw [hr] at hr2; cases hr2

theorem cobs_loop_step {N : Nat} (hN : 0 < N) {s s' : Acc} {w w' : Bytes} {r : FeedResult} (hw : w ≠ [])
    (h : s.feed N w = .ok (r, s')) (hr : r.rest = some w') :
    cobs_loop N hN s w = (do let (rs, s'') ← cobs_loop N hN s' w'; .ok (r :: rs, s'')) := by
  rw [cobs_loop, dif_neg hw]
  split
  · rename_i h2; rw [h] at h2; cases h2
  · rename_i r2 s2 h2
    rw [h] at h2
    cases h2
    split
    · rename_i hr2; rw [hr] at hr2; cases hr2
    · rename_i w2 hr2
      rw [hr] at hr2
      cases hr2
      rfl

/-- The payload of a successful feed. -/
def FeedResult.payload : FeedResult → Option Bytes
  | .Success d _ => some d
  | _ => none

/-- Zero-free input: nothing is delivered. -/
theorem cobs_loop_nozero {N : Nat} (hN : 0 < N) {s : Acc} (h : s.Good N) {w : Bytes} (hw : NoZero w) :
    ∃ outs s', cobs_loop N hN s w = .ok (outs, s') ∧ s'.Good N ∧ outs.filterMap FeedResult.payload = [] ∧
      outs.length ≤ w.length + (if s.idx = N then 1 else 0) := by
  induction hk : feed_measure N s w using Nat.strongRecOn generalizing s w with
  | ind k ih =>
    by_cases hwn : w = []
    · subst hwn; exact ⟨[], s, cobs_loop_nil hN s, h, rfl, by simp⟩
    by_cases hfit : s.idx + w.length ≤ N
    · obtain ⟨s', e, g, _⟩ := feed_nozero_fit h hw hfit
      exact ⟨[], s', cobs_loop_done hN hwn e rfl, g, rfl, by simp⟩
    · obtain ⟨s', e, g, hi⟩ := feed_nozero_over h hw (by omega)
      have hd := feed_decreases hN hwn e rfl
      obtain ⟨outs, s'', e2, g2, p2, l2⟩ := ih _ (hk ▸ hd) g
        (fun hm => hw (List.mem_of_mem_drop hm)) rfl
      refine ⟨.OverFull (w.drop (N - s.idx)) :: outs, s'', ?_, g2, ?_, ?_⟩
      · rw [cobs_loop_step hN hwn e rfl, e2]; rfl
      · simpa [FeedResult.payload] using p2
      · have := h.idx
        rw [if_neg (by omega)] at l2
        simp only [List.length_drop, List.length_cons] at l2 ⊢
        split <;> omega

theorem cobs_loop_nozero_fit {N : Nat} (hN : 0 < N) {s : Acc} (h : s.Good N) {w : Bytes} (hw : NoZero w)
    (hfit : s.idx + w.length ≤ N) :
    ∃ s', cobs_loop N hN s w = .ok ([], s') ∧ s'.Good N ∧ s'.buf.take s'.idx = s.buf.take s.idx ++ w := by
  by_cases hwn : w = []
  · subst hwn; exact ⟨s, cobs_loop_nil hN s, h, by simp⟩
  · obtain ⟨s', e, g, t⟩ := feed_nozero_fit h hw hfit
    exact ⟨s', cobs_loop_done hN hwn e rfl, g, t⟩

/-- Number of zero bytes. -/
def zeros (w : Bytes) : Nat := w.count 0#8

theorem noZero_zeros {w : Bytes} (h : NoZero w) : zeros w = 0 := List.count_eq_zero.mpr h

theorem split_zero (w : Bytes) : NoZero w ∨ ∃ a b, w = a ++ 0#8 :: b ∧ NoZero a := by
  cases hz : zero_pos w with
  | none => exact .inl (zero_pos_eq_none hz)
  | some n =>
    obtain ⟨h1, h2, _⟩ := zero_pos_some hz
    exact .inr ⟨_, _, h1, h2⟩

theorem noZero_cut {a b a' b' : Bytes} (ha : NoZero a) (ha' : NoZero a') (h : a ++ 0#8 :: b = a' ++ 0#8 :: b') :
    a = a' ∧ b = b' := by
  have h1 := zero_pos_append (b := b) ha
  have h2 := zero_pos_append (b := b') ha'
  rw [h, h2] at h1
  simp only [Option.some.injEq] at h1
  have := List.append_inj h h1.symm
  exact ⟨this.1, by simpa using this.2⟩

/-- Feeding up to and including a zero empties the accumulator; what follows is treated as from a fresh start. -/
theorem cobs_loop_cut {N : Nat} (hN : 0 < N) (x : Bytes) {s : Acc} (h : s.Good N) (y : Bytes) :
    ∃ outs s', s'.Good N ∧ s'.idx = 0 ∧ (outs.filterMap FeedResult.payload).length ≤ zeros x + 1 ∧
      outs.length ≤ x.length + 1 ∧
      cobs_loop N hN s (x ++ 0#8 :: y) = (do let (o, s'') ← cobs_loop N hN s' y; .ok (outs ++ o, s'')) := by
  induction hk : x.length using Nat.strongRecOn generalizing x s with
  | ind k ih =>
    have hne : x ++ 0#8 :: y ≠ [] := by simp
    rcases split_zero x with hx | ⟨a, b, rfl, ha⟩
    · obtain ⟨r, s', e, hr, g, hi, _⟩ := feed_zero h (b := y) hx
      refine ⟨[r], s', g, hi, ?_, by simp, ?_⟩
      · exact Nat.le_trans (List.length_filterMap_le _ _) (by simp)
      · rw [cobs_loop_step hN hne e hr]; rfl
    · rw [List.append_assoc, List.cons_append] at hne ⊢
      obtain ⟨r, s', e, hr, g, hi, _⟩ := feed_zero h (b := b ++ 0#8 :: y) ha
      obtain ⟨outs, s2, g2, i2, p2, l2, e2⟩ := ih b.length (by rw [← hk]; simp; omega) b g rfl
      refine ⟨r :: outs, s2, g2, i2, ?_, ?_, ?_⟩
      · have hzz : zeros (a ++ 0#8 :: b) = zeros b + 1 := by
          have := noZero_zeros ha
          simp only [zeros] at this ⊢
          simp [List.count_append, this]
        rw [hzz]
        simp only [List.filterMap_cons]
        split
        · omega
        · simp only [List.length_cons]; omega
      · simp at hk ⊢; omega
      · rw [cobs_loop_step hN hne e hr, e2]
        cases cobs_loop N hN s2 y <;> rfl

/-- The loop never panics and preserves the invariant. -/
theorem cobs_loop_total {N : Nat} (hN : 0 < N) {s : Acc} (h : s.Good N) (w : Bytes) :
    ∃ outs s', cobs_loop N hN s w = .ok (outs, s') ∧ s'.Good N ∧
      (outs.filterMap FeedResult.payload).length ≤ zeros w ∧
      outs.length ≤ w.length + (if s.idx = N then 1 else 0) := by
  induction hk : w.length using Nat.strongRecOn generalizing w s with
  | ind k ih =>
    rcases split_zero w with hw | ⟨a, b, rfl, ha⟩
    · obtain ⟨o, s', e, g, p, l⟩ := cobs_loop_nozero hN h hw
      exact ⟨o, s', e, g, by simp [p], hk ▸ l⟩
    · obtain ⟨r, s', e, hr, g, hi, _⟩ := feed_zero h (b := b) ha
      obtain ⟨o, s2, e2, g2, p2, l2⟩ := ih b.length (by rw [← hk]; simp; omega) g b rfl
      refine ⟨r :: o, s2, ?_, g2, ?_, ?_⟩
      · rw [cobs_loop_step hN (by simp) e hr, e2]; rfl
      · have hzz : zeros (a ++ 0#8 :: b) = zeros b + 1 := by
          have := noZero_zeros ha
          simp only [zeros] at this ⊢
          simp [List.count_append, this]
        rw [hzz]
        simp only [List.filterMap_cons]
        split
        · omega
        · simp only [List.length_cons]; omega
      · rw [if_neg (by omega)] at l2
        rw [← hk]
        simp; omega

open Spec (stream Encodings)

/-- One window of a stream of good frames. -/
theorem cobs_loop_stream {N : Nat} (hN : 0 < N) (w : Bytes) {s : Acc} (h : s.Good N) {ds es : List Bytes}
    (he : Encodings N ds es) (rest : Bytes) (hs : s.buf.take s.idx ++ w ++ rest = stream es) :
    ∃ outs s' ds1 ds2 es2, cobs_loop N hN s w = .ok (outs, s') ∧ s'.Good N ∧ ds = ds1 ++ ds2 ∧
      Encodings N ds2 es2 ∧ s'.buf.take s'.idx ++ rest = stream es2 ∧
      outs.map FeedResult.payload = ds1.map some := by
  induction hk : w.length using Nat.strongRecOn generalizing w s ds es with
  | ind k ih =>
    rcases split_zero w with hw | ⟨a, b, rfl, ha⟩
    · have hfit : s.idx + w.length ≤ N := by
        have hh := held_length h
        cases he with
        | nil =>
          have := congrArg List.length hs
          simp only [stream, List.length_append, List.length_nil, hh] at this
          have := h.idx
          omega
        | @cons d e ds es hc hf _ =>
          have hnz : NoZero (s.buf.take s.idx ++ w) := noZero_append.mpr ⟨h.nz, hw⟩
          simp only [stream] at hs
          rcases Nat.lt_or_ge e.length (s.buf.take s.idx ++ w).length with hlt | hge
          · exfalso
            have h1 := congrArg (·[e.length]?) hs
            simp only [List.getElem?_append_left hlt, List.getElem?_append_right (Nat.le_refl e.length), Nat.sub_self,
              List.getElem?_cons_zero] at h1
            exact hnz (List.mem_of_getElem? h1)
          · simp only [List.length_append, hh] at hge
            omega
      obtain ⟨s', e, g, t⟩ := cobs_loop_nozero_fit hN h hw hfit
      exact ⟨[], s', [], ds, es, e, g, rfl, he, by rw [t]; exact hs, rfl⟩
    · have hh := held_length h
      cases he with
      | nil =>
        have := congrArg List.length hs
        simp [stream] at this
      | @cons d e ds es hc hf he =>
        simp only [stream] at hs
        have hcut := noZero_cut (a := s.buf.take s.idx ++ a) (b := b ++ rest)
          (noZero_append.mpr ⟨h.nz, ha⟩) (cobs_noZero hc) (by simpa using hs)
        obtain ⟨r, s', e1, hr, g, hi, hsucc⟩ := feed_zero h (b := b) ha
        have hl := congrArg List.length hcut.1
        simp only [List.length_append, hh] at hl
        have := hsucc d (by rw [hcut.1]; exact hc) (by omega)
        subst this
        obtain ⟨o, s2, ds1, ds2, es2, e2, g2, q, en, t2, p2⟩ := ih b.length (by rw [← hk]; simp; omega) b g he
          (by rw [hi]; simpa using hcut.2) rfl
        refine ⟨.Success d b :: o, s2, d :: ds1, ds2, es2, ?_, g2, by simp [q], en, t2, ?_⟩
        · rw [cobs_loop_step hN (by simp) e1 hr, e2]; rfl
        · simp [FeedResult.payload, p2]

/-- Any number of windows of a stream of good frames. -/
theorem cobs_reads_stream {N : Nat} (hN : 0 < N) (ws : List Bytes) {s : Acc} (h : s.Good N) {ds es : List Bytes}
    (he : Encodings N ds es) (hs : s.buf.take s.idx ++ ws.flatten = stream es) :
    ∃ outs s', cobs_reads N hN s ws = .ok (outs, s') ∧ s'.Good N ∧ s'.idx = 0 ∧
      outs.map FeedResult.payload = ds.map some := by
  induction ws generalizing s ds es with
  | nil =>
    have hh := held_length h
    simp only [List.flatten_nil, List.append_nil] at hs
    cases he with
    | nil =>
      refine ⟨[], s, rfl, h, ?_, rfl⟩
      rw [hs] at hh
      simpa [stream] using hh.symm
    | cons hc hf he =>
      exfalso
      apply h.nz
      rw [hs]
      simp [stream]
  | cons w ws ih =>
    obtain ⟨o, s1, ds1, ds2, es2, e1, g1, rfl, en, t1, p1⟩ := cobs_loop_stream hN w h he ws.flatten
      (by simpa using hs)
    obtain ⟨o2, s2, e2, g2, i2, p2⟩ := ih g1 en t1
    refine ⟨o ++ o2, s2, ?_, g2, i2, by simp [p1, p2]⟩
    rw [cobs_reads, e1]
    simp only [Exec.ok_bind, e2]

theorem cobs_reads_total {N : Nat} (hN : 0 < N) (ws : List Bytes) {s : Acc} (h : s.Good N) :
    ∃ outs s', cobs_reads N hN s ws = .ok (outs, s') ∧ s'.Good N ∧
      (outs.filterMap FeedResult.payload).length ≤ zeros ws.flatten := by
  induction ws generalizing s with
  | nil => exact ⟨[], s, rfl, h, by simp⟩
  | cons w ws ih =>
    obtain ⟨o, s1, e1, g1, l1, _⟩ := cobs_loop_total hN h w
    obtain ⟨o2, s2, e2, g2, l2⟩ := ih g1
    refine ⟨o ++ o2, s2, ?_, g2, ?_⟩
    · rw [cobs_reads, e1]
      simp only [Exec.ok_bind, e2]
    · simp only [zeros, List.filterMap_append, List.length_append, List.flatten_cons, List.count_append] at *
      omega

theorem cobs_reads_append {N : Nat} (hN : 0 < N) (ws vs : List Bytes) (s : Acc) :
    cobs_reads N hN s (ws ++ vs) =
      (do let (o, s') ← cobs_reads N hN s ws
          let (o2, s'') ← cobs_reads N hN s' vs
          .ok (o ++ o2, s'')) := by
  induction ws generalizing s with
  | nil =>
    simp only [List.nil_append, cobs_reads, Exec.ok_bind]
    cases cobs_reads N hN s vs <;> rfl
  | cons w ws ih =>
    simp only [List.cons_append, cobs_reads]
    cases cobs_loop N hN s w with
    | panic => rfl
    | ok q =>
      obtain ⟨o, s'⟩ := q
      simp only [Exec.ok_bind, ih]
      cases cobs_reads N hN s' ws with
      | panic => rfl
      | ok q2 =>
        obtain ⟨o2, s2⟩ := q2
        simp only [Exec.ok_bind]
        cases cobs_reads N hN s2 vs with
        | panic => rfl
        | ok q3 => simp

/-- A list of windows cut at a given byte of their concatenation. -/
theorem flatten_cut {ws : List Bytes} {a b : Bytes} {z : Byte} (h : ws.flatten = a ++ z :: b) :
    ∃ (ws1 : List Bytes) (x y : Bytes) (ws2 : List Bytes), ws = ws1 ++ (x ++ z :: y) :: ws2 ∧
      ws1.flatten ++ x = a ∧ y ++ ws2.flatten = b := by
  induction ws generalizing a with
  | nil => simp at h
  | cons w ws ih =>
    rw [List.flatten_cons] at h
    rcases List.append_eq_append_iff.mp h with ⟨c, h1, h2⟩ | ⟨c, h1, h2⟩
    · obtain ⟨ws1, x, y, ws2, e1, e2, e3⟩ := ih h2
      exact ⟨w :: ws1, x, y, ws2, by simp [e1], by simp [h1, e2], e3⟩
    · cases c with
      | nil =>
        simp only [List.nil_append] at h2
        obtain ⟨ws1, x, y, ws2, e1, e2, e3⟩ := ih (a := []) (by simpa using h2.symm)
        exact ⟨w :: ws1, x, y, ws2, by simp [e1], by simp at h1; simp [e2, h1], e3⟩
      | cons c0 c =>
        simp only [List.cons_append, List.cons.injEq] at h2
        exact ⟨[], a, c, ws, by simp [h1, h2.1], by simp, h2.2.symm⟩

/-- Resynchronisation at any zero. -/
theorem cobs_reads_resync {N : Nat} (hN : 0 < N) (ws : List Bytes) {s : Acc} (h : s.Good N) {ds es : List Bytes}
    (he : Encodings N ds es) (noise : Bytes) (hs : ws.flatten = noise ++ 0#8 :: stream es) :
    ∃ junk outs s', cobs_reads N hN s ws = .ok (junk ++ outs, s') ∧ s'.Good N ∧ s'.idx = 0 ∧
      (junk.filterMap FeedResult.payload).length ≤ zeros noise + 1 ∧ outs.map FeedResult.payload = ds.map some := by
  obtain ⟨ws1, x, y, ws2, rfl, hx, hy⟩ := flatten_cut hs
  obtain ⟨j1, s1, e1, g1, p1⟩ := cobs_reads_total hN ws1 h
  obtain ⟨j2, s2, g2, i2, p2, _, e2⟩ := cobs_loop_cut hN x g1 y
  obtain ⟨o, s3, e3, g3, i3, p3⟩ := cobs_reads_stream hN (y :: ws2) g2 he (by rw [i2]; simpa using hy)
  refine ⟨j1 ++ j2, o, s3, ?_, g3, i3, ?_, p3⟩
  · rw [cobs_reads_append, e1]
    simp only [Exec.ok_bind, cobs_reads, e2]
    rw [cobs_reads] at e3
    cases hl : cobs_loop N hN s2 y with
    | panic => rw [hl] at e3; simp at e3
    | ok q =>
      obtain ⟨oy, sy⟩ := q
      rw [hl] at e3
      simp only [Exec.ok_bind] at e3 ⊢
      cases hr : cobs_reads N hN sy ws2 with
      | panic => rw [hr] at e3; simp at e3
      | ok q2 =>
        obtain ⟨oz, sz⟩ := q2
        rw [hr] at e3
        simp only [Exec.ok_bind, Exec.ok.injEq, Prod.mk.injEq] at e3 ⊢
        refine ⟨?_, e3.2⟩
        rw [← e3.1]
        simp
  · subst hx
    simp only [zeros, List.filterMap_append, List.length_append, List.count_append] at *
    omega

/-- Held bytes and a zero-free window within a stream of fitting frames fit the buffer. -/
theorem stream_fit {N : Nat} {s : Acc} (h : s.Good N) {w rest e tl : Bytes} (hw : NoZero w) (hf : e.length + 1 ≤ N)
    (hs : s.buf.take s.idx ++ w ++ rest = e ++ 0#8 :: tl) : s.idx + w.length ≤ N := by
  have hh := held_length h
  have hnz : NoZero (s.buf.take s.idx ++ w) := noZero_append.mpr ⟨h.nz, hw⟩
  rcases Nat.lt_or_ge e.length (s.buf.take s.idx ++ w).length with hlt | hge
  · exfalso
    have h1 := congrArg (·[e.length]?) hs
    simp only [List.getElem?_append_left hlt, List.getElem?_append_right (Nat.le_refl e.length), Nat.sub_self,
      List.getElem?_cons_zero] at h1
    exact hnz (List.mem_of_getElem? h1)
  · simp only [List.length_append, hh] at hge
    omega

/-- Good frames followed by anything: the frames are delivered, then the accumulator starts afresh on the rest. -/
theorem cobs_reads_prefix {N : Nat} (hN : 0 < N) (ws : List Bytes) {s : Acc} (h : s.Good N) {ds es : List Bytes}
    (he : Encodings N ds es) (hi0 : es = [] → s.idx = 0) (R : Bytes)
    (hs : s.buf.take s.idx ++ ws.flatten = stream es ++ R) :
    ∃ outs s' ws', s'.Good N ∧ s'.idx = 0 ∧ ws'.flatten = R ∧ outs.map FeedResult.payload = ds.map some ∧
      cobs_reads N hN s ws = (do let (o, s'') ← cobs_reads N hN s' ws'; .ok (outs ++ o, s'')) := by
  induction hk : ws.flatten.length + ws.length using Nat.strongRecOn generalizing ws s ds es with
  | ind k ih =>
    have hh := held_length h
    cases he with
    | nil =>
      have hi := hi0 rfl
      refine ⟨[], s, ws, h, hi, ?_, rfl, ?_⟩
      · simpa [hi, stream] using hs
      · cases cobs_reads N hN s ws <;> rfl
    | @cons d e ds es hc hf he =>
      cases ws with
      | nil =>
        exfalso
        apply h.nz
        simp only [List.flatten_nil, List.append_nil] at hs
        rw [hs]
        simp [stream]
      | cons w ws =>
        simp only [stream, List.flatten_cons, List.append_assoc, List.cons_append] at hs
        rcases split_zero w with hw | ⟨a, b, rfl, ha⟩
        · have hfit := stream_fit (rest := ws.flatten) h hw hf (by rw [List.append_assoc]; exact hs)
          obtain ⟨s', e1, g, t⟩ := cobs_loop_nozero_fit hN h hw hfit
          obtain ⟨o, s2, ws', g2, i2, f2, p2, e2⟩ := ih (ws.flatten.length + ws.length)
            (by rw [← hk]; simp; omega) ws g (.cons hc hf he) (by simp)
            (by rw [t]; simpa [stream] using hs) rfl
          refine ⟨o, s2, ws', g2, i2, f2, p2, ?_⟩
          rw [cobs_reads, e1]
          simp only [Exec.ok_bind, e2]
          cases cobs_reads N hN s2 ws' <;> rfl
        · have hcut := noZero_cut (a := s.buf.take s.idx ++ a) (b := b ++ ws.flatten)
            (noZero_append.mpr ⟨h.nz, ha⟩) (cobs_noZero hc) (by simpa using hs)
          obtain ⟨r, s', e1, hr, g, hi, hsucc⟩ := feed_zero h (b := b) ha
          have hl := congrArg List.length hcut.1
          simp only [List.length_append, hh] at hl
          have := hsucc d (by rw [hcut.1]; exact hc) (by omega)
          subst this
          obtain ⟨o, s2, ws', g2, i2, f2, p2, e2⟩ := ih ((b :: ws).flatten.length + (b :: ws).length)
            (by rw [← hk]; simp; omega) (b :: ws) g he (fun _ => hi)
            (by rw [hi]; simpa using hcut.2) rfl
          refine ⟨.Success d b :: o, s2, ws', g2, i2, f2, by simp [FeedResult.payload, p2], ?_⟩
          rw [cobs_reads, cobs_loop_step hN (by simp) e1 hr]
          rw [cobs_reads] at e2
          obtain ⟨ob, sb, eb, _⟩ := cobs_loop_total hN g b
          rw [eb] at e2 ⊢
          simp only [Exec.ok_bind] at e2 ⊢
          cases h5 : cobs_reads N hN s2 ws' with
          | panic =>
            rw [h5] at e2
            cases h6 : cobs_reads N hN sb ws with
            | panic => rfl
            | ok q => rw [h6] at e2; cases e2
          | ok q =>
            rw [h5] at e2
            cases h6 : cobs_reads N hN sb ws with
            | panic => rw [h6] at e2; cases e2
            | ok q2 =>
              rw [h6] at e2
              simp only [Exec.ok_bind, Exec.ok.injEq, Prod.mk.injEq] at e2 ⊢
              exact ⟨by simp [e2.1], e2.2⟩

theorem stream_append (a b : List Bytes) : stream (a ++ b) = stream a ++ stream b := by
  induction a with
  | nil => rfl
  | cons e a ih => simp [stream, ih]

end PRpc
