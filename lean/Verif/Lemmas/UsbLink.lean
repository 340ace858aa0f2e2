import Verif.Lemmas.Nusb
import Verif.Lemmas.Usb
/-! From device packets to host transfers. -/

namespace PRpc
open Spec

theorem blocks_lt {N : Nat} {d : Bytes} (h : d.length < N) : blocks N d = [] := by
  rw [blocks, dif_pos (.inl h)]

theorem leftover_lt {N : Nat} {d : Bytes} (h : d.length < N) : leftover N d = d := by
  simp [leftover, Nat.mod_eq_of_lt h]

theorem blocks_ge {N : Nat} (hN : 0 < N) {d : Bytes} (h : N ≤ d.length) :
    blocks N d = d.take N :: blocks N (d.drop N) := by
  rw [blocks, dif_neg (by omega)]

theorem leftover_ge {N : Nat} {d : Bytes} (h : N ≤ d.length) : leftover N d = leftover N (d.drop N) := by
  have e : (d.length - N) % N = d.length % N := by rw [← Nat.mod_eq_sub_mod h]
  have h1 : d.length % N ≤ d.length - N := by
    rw [← e]; exact Nat.mod_le _ _
  simp only [leftover, List.length_drop, e, List.drop_drop]
  congr 1
  omega

theorem leftover_length {N : Nat} (d : Bytes) : (leftover N d).length = d.length % N := by
  have := Nat.mod_le d.length N
  simp [leftover]; omega

theorem blocks_append {N : Nat} (hN : 0 < N) (d p : Bytes) :
    blocks N (d ++ p) = blocks N d ++ blocks N (leftover N d ++ p) ∧
      leftover N (d ++ p) = leftover N (leftover N d ++ p) := by
  induction hn : d.length using Nat.strongRecOn generalizing d with
  | _ n ih =>
    subst hn
    by_cases h : d.length < N
    · simp [blocks_lt h, leftover_lt h]
    · have h' : N ≤ d.length := by omega
      have e1 : (d ++ p).take N = d.take N := by rw [List.take_append_of_le_length h']
      have e2 : (d ++ p).drop N = d.drop N ++ p := by rw [List.drop_append_of_le_length h']
      obtain ⟨i1, i2⟩ := ih (d.drop N).length (by simp; omega) (d.drop N) rfl
      have hl : N ≤ (d ++ p).length := by simp; omega
      refine ⟨?_, ?_⟩
      · rw [blocks_ge hN hl, e1, e2, i1, blocks_ge hN h', leftover_ge h']; simp
      · rw [leftover_ge hl, e2, i2, leftover_ge h']

/-- Host transfers of `N` bytes cut the device's transfers into blocks. -/
theorem inTransfers_eq (N : Nat) (hN : 0 < N) (h64 : 64 ∣ N) (pkts : List Bytes) (hp : ∀ p ∈ pkts, p.length ≤ 64) :
    ∀ cur : Bytes, 64 ∣ cur.length →
      blocks N cur ++ (inTransfers N (leftover N cur) pkts).1 =
        ((transfers cur pkts).1.flatMap fun d => blocks N d ++ [leftover N d]) ++ blocks N (transfers cur pkts).2 ∧
      (inTransfers N (leftover N cur) pkts).2 = leftover N (transfers cur pkts).2 := by
  induction pkts with
  | nil => intro cur _; simp [inTransfers, transfers]
  | cons p ps ih =>
    intro cur hc
    have hps := fun q hq => hp q (List.mem_cons_of_mem _ hq)
    have hpl := hp p (by simp)
    obtain ⟨b1, b2⟩ := blocks_append hN cur p
    have hmod := Nat.mod_lt cur.length hN
    have hm64 : 64 ∣ cur.length % N := (Nat.dvd_mod_iff h64).mpr hc
    have z1 : blocks N ([] : Bytes) = [] := blocks_lt (by simpa using hN)
    have z2 : leftover N ([] : Bytes) = [] := leftover_lt (by simpa using hN)
    by_cases hs : p.length < 64
    · obtain ⟨i1, i2⟩ := ih hps [] (by simp)
      rw [z1, z2, List.nil_append] at i1
      rw [z2] at i2
      have hl : (leftover N cur ++ p).length < N := by
        rw [List.length_append, leftover_length]
        omega
      simp only [inTransfers, transfers, hs, true_or, if_true]
      rw [i1, i2, List.flatMap_cons, b1, b2, blocks_lt hl, leftover_lt hl]
      simp
    · have hp64 : p.length = 64 := by omega
      obtain ⟨i1, i2⟩ := ih hps (cur ++ p) (by rw [List.length_append, hp64]; omega)
      have ht : transfers cur (p :: ps) = transfers (cur ++ p) ps := by simp [transfers, hs]
      rw [ht]
      by_cases hf : (leftover N cur ++ p).length = N
      · have e1 : blocks N (leftover N cur ++ p) = [leftover N cur ++ p] := by
          rw [blocks_ge hN (by omega), List.take_of_length_le (by omega), List.drop_of_length_le (by omega), z1]
        have e2 : leftover N (leftover N cur ++ p) = [] := by
          rw [leftover_ge (by omega), List.drop_of_length_le (by omega), z2]
        rw [b1, b2, e1, e2] at i1
        rw [b2, e2] at i2
        simp only [inTransfers, hf, or_true, if_true]
        rw [← i1, i2]
        simp
      · have hl : (leftover N cur ++ p).length < N := by
          rw [List.length_append, leftover_length] at hf ⊢
          omega
        rw [b1, b2, blocks_lt hl, leftover_lt hl, List.append_nil] at i1
        rw [b2, leftover_lt hl] at i2
        simp only [inTransfers, hs, hf, or_self, if_false]
        exact ⟨i1, i2⟩

theorem ep_write_small {o : WriteOut} {p : Bytes} {t : UsbTx} (hp : p.length ≤ 64) (h : ∀ q ∈ t.pkts, q.length ≤ 64) :
    ∀ q ∈ (ep_write o p t).2.pkts, q.length ≤ 64 := by
  cases o with
  | ok => simp [ep_write]; intro q hq; rcases hq with hq | rfl; exact h q hq; exact hp
  | err w => cases w <;> simp [ep_write] <;> intro q hq
             · exact h q hq
             · rcases hq with hq | rfl; exact h q hq; exact hp
  | cut w => cases w <;> simp [ep_write] <;> intro q hq
             · exact h q hq
             · rcases hq with hq | rfl; exact h q hq; exact hp

theorem chunks64_small (l : Bytes) : ∀ c ∈ chunks64 l, c.length ≤ 64 := by
  induction hn : l.length using Nat.strongRecOn generalizing l with
  | _ n ih =>
    subst hn
    by_cases h : l = []
    · simp [h, chunks64_nil]
    · rw [chunks64_cons h]
      have := List.length_pos_iff.mpr h
      intro c hc
      rcases List.mem_cons.mp hc with rfl | hc
      · simp; omega
      · exact ih (l.drop 64).length (by simp; omega) _ rfl c hc

theorem write_chunks_small (o : Nat → WriteOut) (chs : List Bytes) (hc : ∀ c ∈ chs, c.length ≤ 64) :
    ∀ (i : Nat) (t : UsbTx), (∀ q ∈ t.pkts, q.length ≤ 64) → ∀ q ∈ (write_chunks o i chs t).2.pkts, q.length ≤ 64 := by
  induction chs with
  | nil => intro i t h; exact h
  | cons c chs ih =>
    intro i t h
    have h1 := ep_write_small (o := o i) (hc c (by simp)) h
    simp only [write_chunks]
    cases he : ep_write (o i) c t with
    | mk r t' =>
      rw [he] at h1
      cases r with
      | none => exact ih (fun x hx => hc x (List.mem_cons_of_mem _ hx)) (i + 1) t' h1
      | some r => exact h1

theorem send_body_small (o : Nat → WriteOut) (i : Nat) (out : Bytes) (t : UsbTx) (h : ∀ q ∈ t.pkts, q.length ≤ 64) :
    ∀ q ∈ (send_body o i out t).2.pkts, q.length ≤ 64 := by
  have h1 := write_chunks_small o (chunks64 out) (chunks64_small out) i { t with pending_frame := true } h
  simp only [send_body]
  cases he : write_chunks o i (chunks64 out) { t with pending_frame := true } with
  | mk r t' =>
    rw [he] at h1
    cases r with
    | some r => exact h1
    | none =>
      simp only
      split
      · have h2 := ep_write_small (o := o (i + (chunks64 out).length)) (p := []) (by simp) h1
        cases he2 : ep_write (o (i + (chunks64 out).length)) [] t' with
        | mk r t'' =>
          rw [he2] at h2
          cases r <;> exact h2
      · exact h1

theorem send_all_small (o : Nat → WriteOut) (out : Bytes) (t : UsbTx) (h : ∀ q ∈ t.pkts, q.length ≤ 64) :
    ∀ q ∈ (send_all o out t).2.pkts, q.length ≤ 64 := by
  simp only [send_all]
  split
  · exact h
  · split
    · have h2 := ep_write_small (o := o 0) (p := []) (by simp) h
      cases he2 : ep_write (o 0) [] t with
      | mk r t'' =>
        rw [he2] at h2
        cases r with
        | some r => exact h2
        | none => exact send_body_small o 1 out t'' h2
    · exact send_body_small o 0 out t h

theorem send_history_small (h : List (Bytes × (Nat → WriteOut))) : ∀ (t : UsbTx), (∀ q ∈ t.pkts, q.length ≤ 64) →
    ∀ q ∈ (send_history h t).2.pkts, q.length ≤ 64 := by
  induction h with
  | nil => intro t h; exact h
  | cons x h ih => intro t ht; exact ih _ (send_all_small x.2 x.1 t ht)

end PRpc
