import Verif.Model.EUsb
import Verif.Spec.Usb
/-! Helper lemmas for the embassy-usb transport. -/

namespace PRpc

open Spec (transfers Packets)

theorem chunks64_nil : chunks64 [] = [] := by rw [chunks64]; simp

theorem chunks64_cons {l : Bytes} (h : l ≠ []) : chunks64 l = l.take 64 :: chunks64 (l.drop 64) := by
  rw [chunks64, dif_neg h]

theorem transfers_append (cur : Bytes) (a b : List Bytes) :
    transfers cur (a ++ b) =
      ((transfers cur a).1 ++ (transfers (transfers cur a).2 b).1, (transfers (transfers cur a).2 b).2) := by
  induction a generalizing cur with
  | nil => simp [transfers]
  | cons p a ih =>
    simp only [List.cons_append, transfers]
    split
    · simp [ih]
    · exact ih _

theorem and63 (n : Nat) : n &&& (64 - 1) = n % 64 := Nat.and_two_pow_sub_one_eq_mod n 6

/-- What the bus shows, empty transfers aside: the completed transfers and the one in progress. -/
def view (pkts : List Bytes) : List Bytes :=
  ((transfers [] pkts).1 ++ [(transfers [] pkts).2]).filter (fun t => !t.isEmpty)

/-- The transfer in progress. -/
def openT (pkts : List Bytes) : Bytes := (transfers [] pkts).2

theorem openT_short {pkts : List Bytes} {p : Bytes} (h : p.length < 64) : openT (pkts ++ [p]) = [] := by
  simp [openT, transfers_append, transfers, h]

theorem openT_full {pkts : List Bytes} {p : Bytes} (h : ¬ p.length < 64) : openT (pkts ++ [p]) = openT pkts ++ p := by
  simp [openT, transfers_append, transfers, h]

/-- Completed transfers. -/
def done (pkts : List Bytes) : List Bytes := (transfers [] pkts).1

theorem done_short {pkts : List Bytes} {p : Bytes} (h : p.length < 64) :
    done (pkts ++ [p]) = done pkts ++ [openT pkts ++ p] := by
  simp [done, openT, transfers_append, transfers, h]

theorem done_full {pkts : List Bytes} {p : Bytes} (h : ¬ p.length < 64) : done (pkts ++ [p]) = done pkts := by
  simp [done, transfers_append, transfers, h]

theorem view_eq (pkts : List Bytes) : view pkts = (done pkts ++ [openT pkts]).filter (fun t => !t.isEmpty) := rfl

/-- The non-empty completed transfers. -/
def doneNE (pkts : List Bytes) : List Bytes := (done pkts).filter (fun t => !t.isEmpty)

/-- Writing the chunks of a frame: however it ends, the transfer in progress or the last completed one is a prefix of the
frame. `pre` is what was already sent of it. -/
theorem write_chunks_spec (o : Nat → WriteOut) (out : Bytes) (i : Nat) (t : UsbTx) (pre : Bytes)
    (hopen : openT t.pkts = pre) :
    let q := write_chunks o i (chunks64 out) t
    q.2.pending_frame = t.pending_frame ∧
    (∃ p, p <+: out ∧ ((done q.2.pkts = done t.pkts ∧ openT q.2.pkts = pre ++ p) ∨
        (done q.2.pkts = done t.pkts ++ [pre ++ p] ∧ openT q.2.pkts = []))) ∧
    (q.1 = none → if out.length % 64 = 0 then done q.2.pkts = done t.pkts ∧ openT q.2.pkts = pre ++ out
      else done q.2.pkts = done t.pkts ++ [pre ++ out] ∧ openT q.2.pkts = []) := by
  induction hk : out.length using Nat.strongRecOn generalizing out i t pre with
  | ind k ih =>
    subst hk
    by_cases hne : out = []
    · subst hne
      rw [chunks64_nil]
      simp only [write_chunks]
      refine ⟨trivial, ⟨[], List.nil_prefix, .inl ⟨trivial, by simpa using hopen⟩⟩, ?_⟩
      intro _
      simpa using hopen
    · rw [chunks64_cons hne]
      have hl : 0 < out.length := List.length_pos_iff.mpr hne
      -- the packet on the wire
      have hpkt : (∃ p, p <+: out ∧
          ((done (t.pkts ++ [out.take 64]) = done t.pkts ∧ openT (t.pkts ++ [out.take 64]) = pre ++ p) ∨
          (done (t.pkts ++ [out.take 64]) = done t.pkts ++ [pre ++ p] ∧ openT (t.pkts ++ [out.take 64]) = []))) := by
        refine ⟨out.take 64, List.take_prefix _ _, ?_⟩
        by_cases hs : (out.take 64).length < 64
        · exact .inr ⟨by rw [done_short hs, hopen], openT_short hs⟩
        · exact .inl ⟨done_full hs, by rw [openT_full hs, hopen]⟩
      have hno : ∃ p, p <+: out ∧ ((done t.pkts = done t.pkts ∧ openT t.pkts = pre ++ p) ∨
          (done t.pkts = done t.pkts ++ [pre ++ p] ∧ openT t.pkts = [])) :=
        ⟨[], List.nil_prefix, .inl ⟨rfl, by simpa using hopen⟩⟩
      rw [write_chunks]
      cases ho : o i with
      | err w =>
        cases w
        · exact ⟨rfl, hno, by simp [ep_write]⟩
        · exact ⟨rfl, hpkt, by simp [ep_write]⟩
      | cut w =>
        cases w
        · exact ⟨rfl, hno, by simp [ep_write]⟩
        · exact ⟨rfl, hpkt, by simp [ep_write]⟩
      | ok =>
        simp only [ep_write]
        by_cases hs : out.length < 64
        · -- last, short packet
          have hd : out.drop 64 = [] := List.drop_eq_nil_of_le (by omega)
          have ht : out.take 64 = out := List.take_of_length_le (by omega)
          rw [hd, chunks64_nil, ht]
          simp only [write_chunks]
          have h1 : done (t.pkts ++ [out]) = done t.pkts ++ [pre ++ out] := by rw [done_short hs, hopen]
          have h2 : openT (t.pkts ++ [out]) = [] := openT_short hs
          refine ⟨trivial, ⟨out, List.prefix_rfl, .inr ⟨h1, h2⟩⟩, ?_⟩
          intro _
          rw [if_neg (by omega)]
          exact ⟨h1, h2⟩
        · have hfull : ¬ (out.take 64).length < 64 := by simp; omega
          have hd0 : done (t.pkts ++ [out.take 64]) = done t.pkts := done_full hfull
          obtain ⟨a1, ⟨p, hp, a2⟩, a3⟩ := ih (out.drop 64).length (by simp; omega) (out.drop 64) (i + 1)
            { t with pkts := t.pkts ++ [out.take 64] } (pre ++ out.take 64)
            (by show openT (t.pkts ++ [out.take 64]) = _; rw [openT_full hfull, hopen]) rfl
          have hdrop : ((out.drop 64).length % 64 = 0) = (out.length % 64 = 0) := by
            simp only [List.length_drop, eq_iff_iff]; omega
          simp only [hd0, hdrop, List.append_assoc, List.take_append_drop] at a1 a2 a3
          refine ⟨a1, ⟨out.take 64 ++ p, ?_, a2⟩, a3⟩
          obtain ⟨s, hs'⟩ := hp
          exact ⟨s, by rw [List.append_assoc, hs', List.take_append_drop]⟩

/-- Without an earlier interruption nothing is in progress. -/
def TxInv (t : UsbTx) : Prop := t.pending_frame = false → openT t.pkts = []

/-- `c` is what a send of `out` with result `r` contributes: nothing, a non-empty prefix, or all of it. -/
def Contrib (out : Bytes) (r : TxRes) (c : Option Bytes) : Prop :=
  (∀ p, c = some p → p <+: out ∧ p ≠ []) ∧ (r = .Ok → c = if out = [] then none else some out)

theorem view_closed {pkts : List Bytes} (h : openT pkts = []) : view pkts = doneNE pkts := by
  rw [view_eq, h]; simp [doneNE]

theorem view_zlp (pkts : List Bytes) : view (pkts ++ [[]]) = view pkts := by
  rw [view_eq, view_eq, done_short (by simp), openT_short (by simp)]
  simp [List.filter_cons]

theorem write_chunks_res (o : Nat → WriteOut) (chs : List Bytes) (i : Nat) (t : UsbTx) :
    (write_chunks o i chs t).1 ≠ some .Ok := by
  induction chs generalizing i t with
  | nil => simp [write_chunks]
  | cons c chs ih =>
    rw [write_chunks]
    cases o i with
    | ok => simpa [ep_write] using ih _ _
    | err w => simp [ep_write]
    | cut w => simp [ep_write]

theorem send_body_spec (o : Nat → WriteOut) (i : Nat) (out : Bytes) (t : UsbTx) (hne : out ≠ [])
    (hopen : openT t.pkts = []) :
    let q := send_body o i out t
    TxInv q.2 ∧ (∃ c, Contrib out q.1 c ∧ view q.2.pkts = view t.pkts ++ c.toList) ∧
      (q.1 = .Ok → q.2.pending_frame = false ∧ done q.2.pkts = done t.pkts ++ [out]) := by
  obtain ⟨h1, ⟨p, hp, h2⟩, h3⟩ := write_chunks_spec o out i { t with pending_frame := true } [] hopen
  have h0 := write_chunks_res o (chunks64 out) i { t with pending_frame := true }
  revert h0 h1 h2 h3
  rw [send_body]
  generalize write_chunks o i (chunks64 out) { t with pending_frame := true } = q
  obtain ⟨r, t'⟩ := q
  intro h1 h3 h2 h0
  simp only at h0 h1 h2 h3
  have hview : ∃ c : Option Bytes, (∀ p, c = some p → p <+: out ∧ p ≠ []) ∧ view t'.pkts = view t.pkts ++ c.toList := by
    refine ⟨if p = [] then none else some p, ?_, ?_⟩
    · intro p' hp'
      split at hp'
      · cases hp'
      · cases hp'; exact ⟨hp, by assumption⟩
    · rw [view_closed hopen]
      rcases h2 with ⟨a, b⟩ | ⟨a, b⟩
      · rw [view_eq, a, b, doneNE]
        cases p <;> simp
      · rw [view_closed b, doneNE, a, doneNE]
        cases p <;> simp
  cases r with
  | some r =>
    refine ⟨?_, ?_⟩
    · intro hpf; simp only at hpf; rw [h1] at hpf; cases hpf
    · have hr : r ≠ .Ok := ?_
      · obtain ⟨c, hc1, hc2⟩ := hview
        exact ⟨⟨c, ⟨hc1, fun h => absurd h hr⟩, hc2⟩, fun h => absurd h hr⟩
      · intro e; exact h0 (by rw [e])
  | none =>
    have h3 := h3 rfl
    by_cases hz : out.length % 64 = 0
    · rw [if_pos hz] at h3
      simp only [and63, hz, if_true]
      have hd : done (t'.pkts ++ [[]]) = done t.pkts ++ [out] := by
        rw [done_short (by simp), h3.1, h3.2]; simp
      have ho : openT (t'.pkts ++ [[]]) = [] := openT_short (by simp)
      have hv : view t'.pkts = view t.pkts ++ [out] := by
        rw [view_closed hopen, view_eq, h3.1, h3.2, doneNE]
        simp [hne]
      cases o (i + (chunks64 out).length) with
      | ok =>
        simp only [ep_write]
        refine ⟨fun _ => ho, ⟨some out, ⟨?_, by simp [hne]⟩, ?_⟩, fun _ => ⟨trivial, hd⟩⟩
        · intro p hp; cases hp; exact ⟨List.prefix_rfl, hne⟩
        · rw [view_zlp, hv]; rfl
      | err w =>
        simp only [ep_write]
        refine ⟨?_, ⟨some out, ⟨?_, by simp⟩, ?_⟩, by simp⟩
        · cases w <;> · intro h; simp [h1] at h
        · intro p hp; cases hp; exact ⟨List.prefix_rfl, hne⟩
        · cases w
          · simpa using hv
          · simpa [view_zlp] using hv
      | cut w =>
        simp only [ep_write]
        refine ⟨?_, ⟨some out, ⟨?_, by simp⟩, ?_⟩, by simp⟩
        · cases w <;> · intro h; simp [h1] at h
        · intro p hp; cases hp; exact ⟨List.prefix_rfl, hne⟩
        · cases w
          · simpa using hv
          · simpa [view_zlp] using hv
    · rw [if_neg hz] at h3
      simp only [and63, hz, if_false]
      simp only [List.nil_append] at h3
      refine ⟨fun _ => h3.2, ⟨some out, ⟨?_, by simp [hne]⟩, ?_⟩, fun _ => ⟨trivial, h3.1⟩⟩
      · intro p hp; cases hp; exact ⟨List.prefix_rfl, hne⟩
      · rw [view_closed hopen, view_closed h3.2, doneNE, h3.1, doneNE]
        simp [hne]

theorem send_all_spec (o : Nat → WriteOut) (out : Bytes) (t : UsbTx) (hinv : TxInv t) :
    let q := send_all o out t
    TxInv q.2 ∧ (∃ c, Contrib out q.1 c ∧ view q.2.pkts = view t.pkts ++ c.toList) ∧
      (q.1 = .Ok → out ≠ [] → q.2.pending_frame = false ∧
        done q.2.pkts = done t.pkts ++ (if t.pending_frame then [openT t.pkts] else []) ++ [out]) := by
  rw [send_all]
  by_cases hne : out = []
  · subst hne
    refine ⟨hinv, ⟨none, ⟨by simp, by simp⟩, by simp⟩, fun _ h => absurd rfl h⟩
  have hne' : out.isEmpty = false := by cases out <;> simp_all
  simp only [hne']
  cases hp : t.pending_frame with
  | false =>
    obtain ⟨a, b, c⟩ := send_body_spec o 0 out t hne (hinv hp)
    exact ⟨a, b, fun h _ => by simpa using c h⟩
  | true =>
    simp only [if_true, Bool.false_eq_true, if_false]
    have hz1 : openT (t.pkts ++ [[]]) = [] := openT_short (by simp)
    have hz2 : done (t.pkts ++ [[]]) = done t.pkts ++ [openT t.pkts] := by rw [done_short (by simp)]; simp
    cases o 0 with
    | ok =>
      simp only [ep_write]
      obtain ⟨a, ⟨c, hc1, hc2⟩, b⟩ := send_body_spec o 1 out { t with pkts := t.pkts ++ [[]] } hne hz1
      refine ⟨a, ⟨c, hc1, ?_⟩, fun h _ => ?_⟩
      · rw [hc2]; simp [view_zlp]
      · have := b h
        rw [this.2]
        simp [this.1, hz2]
    | err w =>
      simp only [ep_write]
      refine ⟨?_, ⟨none, ⟨by simp, by simp⟩, ?_⟩, by simp⟩
      · cases w <;> · intro h; simp [hp] at h
      · cases w <;> simp [view_zlp]
    | cut w =>
      simp only [ep_write]
      refine ⟨?_, ⟨none, ⟨by simp, by simp⟩, ?_⟩, by simp⟩
      · cases w <;> · intro h; simp [hp] at h
      · cases w <;> simp [view_zlp]

theorem txInv_new : TxInv UsbTx.new := fun _ => rfl

/-- A whole history of sends: every send contributes at most a prefix of its frame, in order, a successful one all. -/
theorem send_history_spec (h : List (Bytes × (Nat → WriteOut))) (t : UsbTx) (hinv : TxInv t) :
    let q := send_history h t
    TxInv q.2 ∧ ∃ cs : List (Option Bytes), cs.length = h.length ∧ q.1.length = h.length ∧
      (∀ (i : Nat) (x : Bytes × (Nat → WriteOut)) (r : TxRes) (c : Option Bytes), h[i]? = some x → q.1[i]? = some r →
        cs[i]? = some c → Contrib x.1 r c) ∧
      view q.2.pkts = view t.pkts ++ cs.flatMap Option.toList := by
  induction h generalizing t with
  | nil => exact ⟨hinv, [], rfl, rfl, by simp, by simp [send_history]⟩
  | cons x h ih =>
    obtain ⟨out, o⟩ := x
    obtain ⟨a, ⟨c, hc1, hc2⟩, _⟩ := send_all_spec o out t hinv
    simp only [send_history]
    obtain ⟨b, cs, hl, hl2, hcs, hv⟩ := ih _ a
    refine ⟨b, c :: cs, by simp [hl], by simp [hl2], ?_, ?_⟩
    · intro i x r c' hx hr hc
      cases i with
      | zero =>
        simp only [List.getElem?_cons_zero, Option.some.injEq] at hx hr hc
        subst hx hr hc
        exact hc1
      | succ i =>
        simp only [List.getElem?_cons_succ] at hx hr hc
        exact hcs i x r c' hx hr hc
    · rw [hv, hc2]; simp

end PRpc
