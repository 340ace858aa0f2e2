import Verif.Lemmas.UsbLink
import Verif.Lemmas.Serial
import Verif.Model.HostWires
import Verif.Spec.HostWires
/-! Lemmas about the host's wires. -/

namespace PRpc
open Spec

/-- The first transfer to complete starts with what is in progress. -/
theorem transfers_prefix (pkts : List Bytes) : ∀ cur : Bytes, cur ≠ [] → (transfers cur pkts).2 = [] →
    ∃ d ds, (transfers cur pkts).1 = d :: ds ∧ cur <+: d := by
  induction pkts with
  | nil => intro cur h h2; exact absurd h2 h
  | cons p ps ih =>
    intro cur h h2
    rw [transfers] at h2 ⊢
    split at h2
    · rename_i hs
      rw [if_pos hs]
      exact ⟨_, _, rfl, List.prefix_append _ _⟩
    · rename_i hs
      rw [if_neg hs]
      obtain ⟨d, ds, h3, h4⟩ := ih (cur ++ p) (by simp [h]) h2
      exact ⟨d, ds, h3, (List.prefix_append _ _).trans h4⟩

theorem inResults_misaligned (size : Nat) (hs : ¬ 64 ∣ size) (pkts : List Bytes) (hp : ∀ p ∈ pkts, p.length ≤ 64) :
    ∀ cur : Bytes, 64 ∣ cur.length → (transfers cur pkts).2 = [] →
      inResults size cur pkts = cutAt size (transfers cur pkts).1 := by
  induction pkts with
  | nil => intro cur _ _; simp [inResults, transfers, cutAt]
  | cons p ps ih =>
    intro cur hc ho
    have hps := fun q hq => hp q (List.mem_cons_of_mem _ hq)
    have hpl := hp p (by simp)
    by_cases h1 : p.length < 64
    · rw [transfers, if_pos h1] at ho ⊢
      rw [inResults, cutAt]
      simp only at ho ⊢
      split
      · rw [if_neg (by omega)]
      · rw [if_pos (.inl h1), if_pos (by omega), ih hps [] (by simp) ho]
    · have h64 : p.length = 64 := by omega
      have hc' : 64 ∣ (cur ++ p).length := by rw [List.length_append, h64]; omega
      rw [transfers, if_neg h1] at ho ⊢
      rw [inResults]
      split
      · rename_i hgt
        obtain ⟨d, ds, h3, h4⟩ := transfers_prefix ps (cur ++ p) (by
          intro e
          rw [e] at hgt
          simp at hgt) ho
        have := h4.length_le
        rw [h3, cutAt, if_neg (by omega)]
      · rw [if_neg, ih hps _ hc' ho]
        rintro (h | h)
        · exact h1 h
        · rw [h] at hc'; exact hs hc'

theorem inResults_aligned (size : Nat) (hs : 64 ∣ size) (pkts : List Bytes) (hp : ∀ p ∈ pkts, p.length ≤ 64) :
    ∀ cur : Bytes, 64 ∣ cur.length → cur.length < size →
      inResults size cur pkts = (inTransfers size cur pkts).1.map .data := by
  induction pkts with
  | nil => intro cur _ _; simp [inResults, inTransfers]
  | cons p ps ih =>
    intro cur hc hl
    have hps := fun q hq => hp q (List.mem_cons_of_mem _ hq)
    have hpl := hp p (by simp)
    have hfit : (cur ++ p).length ≤ size := by rw [List.length_append]; omega
    rw [inResults, if_neg (by omega), inTransfers]
    split
    · rw [ih hps [] (by simp) (by simp; omega)]
      simp
    · rename_i h
      have h64 : p.length = 64 := by omega
      exact ih hps (cur ++ p) (by rw [List.length_append, h64]; omega) (by omega)

theorem cutAt_all {size : Nat} {ds : List Bytes} (h : ∀ d ∈ ds, d.length ≤ size) : cutAt size ds = ds.map .data := by
  induction ds with
  | nil => rfl
  | cons d ds ih =>
    rw [cutAt, if_pos (h d (by simp)), ih fun x hx => h x (List.mem_cons_of_mem _ hx)]
    rfl

theorem cutAt_over {size : Nat} {ds : List Bytes} (h : ∀ d ∈ ds, d.length ≤ size) {x : Bytes} (hx : size < x.length)
    (es : List Bytes) : cutAt size (ds ++ x :: es) = ds.map .data ++ [.overflow] := by
  induction ds with
  | nil => rw [List.nil_append, cutAt, if_neg (by omega)]; rfl
  | cons d ds ih =>
    rw [List.cons_append, cutAt, if_pos (h d (by simp)), ih fun x hx => h x (List.mem_cons_of_mem _ hx)]
    rfl

/-- Receiving serially until the port waits or fails. -/
theorem receive_loop_spec (fails : Bool) (calls : Nat) (reads : List Bytes) (acc : Acc) (pend : List Bytes)
    (h : acc.Good SERIAL_ACC) {outs : List FeedResult} {a' : Acc}
    (he : cobs_reads SERIAL_ACC (by decide) acc reads = .ok (outs, a')) :
    SerialRx.receive_loop ⟨acc, pend⟩ reads fails calls = .ok ((pend ++ to_pending outs).take calls,
      if (pend ++ to_pending outs).length < calls then some (if fails then .Err else .waiting) else none) := by
  induction calls generalizing reads acc pend outs with
  | zero => simp [SerialRx.receive_loop]
  | succ n ih =>
    obtain ⟨h1, h2⟩ := recv_inner_spec reads acc pend h he
    cases hp : pend ++ to_pending outs with
    | nil =>
      rw [SerialRx.receive_loop, SerialRx.receive, h1 hp]
      cases fails <;> simp
    | cons x xs =>
      obtain ⟨acc2, pend2, reads2, outs2, e1, g1, e2, q⟩ := h2 x xs hp
      rw [SerialRx.receive_loop, SerialRx.receive, e1]
      simp only [Exec.ok_bind, ih reads2 acc2 pend2 g1 e2, q, List.take_succ_cons, List.length_cons]
      congr 2
      simp only [Nat.add_lt_add_iff_right]

end PRpc
