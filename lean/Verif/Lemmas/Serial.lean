import Verif.Lemmas.Cobs
/-! Helper lemmas for the serial receive loop, and a concrete COBS encoder. -/

namespace PRpc

open Spec (NoZero Cobs stream Encodings)

/-- A reference encoder: `run` is the current block so far. -/
def cobsEncodeGo (run : Bytes) : Bytes → Bytes
  | [] => BitVec.ofNat 8 (run.length + 1) :: run
  | b :: bs =>
    if b = 0#8 then BitVec.ofNat 8 (run.length + 1) :: run ++ cobsEncodeGo [] bs
    else if run.length = 253 then 255#8 :: (run ++ [b]) ++ cobsEncodeGo [] bs
    else cobsEncodeGo (run ++ [b]) bs

/-- The reference encoder. -/
def cobsEncode (d : Bytes) : Bytes := cobsEncodeGo [] d

theorem cobsEncodeGo_ok (d run : Bytes) (hr : NoZero run) (hl : run.length ≤ 253) :
    Cobs (run ++ d) (cobsEncodeGo run d) := by
  have hc : (BitVec.ofNat 8 (run.length + 1)).toNat = run.length + 1 := by
    rw [BitVec.toNat_ofNat]; omega
  induction d generalizing run with
  | nil => simpa [cobsEncodeGo] using Cobs.last hr hc
  | cons b bs ih =>
    have h0 := ih [] (by simp [NoZero]) (by simp) (by simp)
    rw [List.nil_append] at h0
    rw [cobsEncodeGo]
    split
    · rename_i hb
      subst hb
      exact Cobs.zero hr hc (by omega) h0
    · rename_i hb
      have hnz : NoZero (run ++ [b]) := by
        intro hm
        rcases List.mem_append.mp hm with h | h
        · exact hr h
        · exact hb (List.mem_singleton.mp h).symm
      split
      · have := Cobs.full hnz (by simp; omega) h0
        simpa using this
      · have := ih (run ++ [b]) hnz (by simp; omega) (by rw [BitVec.toNat_ofNat]; simp; omega)
        simpa using this

theorem cobsEncode_ok (d : Bytes) : Cobs d (cobsEncode d) := by
  simpa [cobsEncode] using cobsEncodeGo_ok d [] (by simp [NoZero]) (by simp)

theorem to_pending_append (a b : List FeedResult) : to_pending (a ++ b) = to_pending a ++ to_pending b := by
  induction a with
  | nil => rfl
  | cons r a ih =>
    cases r with
    | Success d w => simp only [List.cons_append, to_pending]; split <;> simp [ih]
    | _ => simpa [to_pending] using ih

theorem to_pending_eq (a : List FeedResult) :
    to_pending a = (a.filterMap FeedResult.payload).filter (fun d => 9 ≤ d.length) := by
  induction a with
  | nil => rfl
  | cons r a ih =>
    cases r with
    | Success d w =>
      simp only [to_pending, List.filterMap_cons, FeedResult.payload, List.filter_cons]
      split <;> simp_all
    | _ => simpa [to_pending, FeedResult.payload, List.filterMap_cons] using ih

/-- One call of `receive`. -/
theorem recv_inner_spec (reads : List Bytes) (acc : Acc) (pend : List Bytes) (h : acc.Good SERIAL_ACC)
    {outs : List FeedResult} {a' : Acc} (he : cobs_reads SERIAL_ACC (by decide) acc reads = .ok (outs, a')) :
    (pend ++ to_pending outs = [] → SerialRx.recv_inner ⟨acc, pend⟩ reads = .ok (none, ⟨a', []⟩, [])) ∧
    ∀ x xs, pend ++ to_pending outs = x :: xs → ∃ (acc2 : Acc) (pend2 reads2 : List Bytes) (outs2 : List FeedResult),
      SerialRx.recv_inner ⟨acc, pend⟩ reads = .ok (some x, ⟨acc2, pend2⟩, reads2) ∧ acc2.Good SERIAL_ACC ∧
      cobs_reads SERIAL_ACC (by decide) acc2 reads2 = .ok (outs2, a') ∧ pend2 ++ to_pending outs2 = xs := by
  induction reads generalizing acc pend outs with
  | nil =>
    rw [cobs_reads] at he
    cases he
    cases pend with
    | nil =>
      refine ⟨fun _ => by rw [SerialRx.recv_inner], ?_⟩
      intro x xs hx; simp [to_pending] at hx
    | cons p ps =>
      refine ⟨fun hx => by simp at hx, ?_⟩
      intro x xs hx
      simp only [to_pending, List.append_nil, List.cons.injEq] at hx
      obtain ⟨rfl, rfl⟩ := hx
      exact ⟨_, ps, [], [], by rw [SerialRx.recv_inner], h, rfl, by simp [to_pending]⟩
  | cons r rs ih =>
    cases pend with
    | cons p ps =>
      refine ⟨fun hx => by simp at hx, ?_⟩
      intro x xs hx
      simp only [List.cons_append, List.cons.injEq] at hx
      obtain ⟨rfl, rfl⟩ := hx
      exact ⟨acc, ps, r :: rs, outs, by rw [SerialRx.recv_inner], h, he, rfl⟩
    | nil =>
      obtain ⟨o1, a1, e1, g1, _⟩ := cobs_loop_total (by decide : 0 < SERIAL_ACC) h r
      rw [cobs_reads, e1] at he
      simp only [Exec.ok_bind] at he
      obtain ⟨o2, a2, e2, _, _⟩ := cobs_reads_total (by decide : 0 < SERIAL_ACC) rs g1
      rw [e2] at he
      simp only [Exec.ok_bind, Exec.ok.injEq, Prod.mk.injEq] at he
      obtain ⟨rfl, rfl⟩ := he
      have := ih a1 (to_pending o1) g1 e2
      rw [SerialRx.recv_inner]
      simp only [e1, Exec.ok_bind, List.nil_append, to_pending_append]
      exact this

/-- Calling `receive` repeatedly delivers what the accumulator produced, in order. -/
theorem recv_all_spec (calls : Nat) (reads : List Bytes) (acc : Acc) (pend : List Bytes) (h : acc.Good SERIAL_ACC)
    {outs : List FeedResult} {a' : Acc} (he : cobs_reads SERIAL_ACC (by decide) acc reads = .ok (outs, a')) :
    ∃ s', SerialRx.recv_all ⟨acc, pend⟩ reads calls = .ok ((pend ++ to_pending outs).take calls, s') := by
  induction calls generalizing reads acc pend outs with
  | zero => exact ⟨⟨acc, pend⟩, by rw [SerialRx.recv_all]; simp⟩
  | succ n ih =>
    obtain ⟨h1, h2⟩ := recv_inner_spec reads acc pend h he
    cases hp : pend ++ to_pending outs with
    | nil =>
      refine ⟨⟨a', []⟩, ?_⟩
      rw [SerialRx.recv_all, h1 hp]
      rfl
    | cons x xs =>
      obtain ⟨acc2, pend2, reads2, outs2, e1, g1, e2, q⟩ := h2 x xs hp
      obtain ⟨s', e3⟩ := ih reads2 acc2 pend2 g1 e2
      refine ⟨s', ?_⟩
      rw [SerialRx.recv_all, e1]
      simp only [Exec.ok_bind, e3, q]
      rfl

theorem map_some_filterMap {ds : List Bytes} {outs : List FeedResult}
    (h : outs.map FeedResult.payload = ds.map some) : outs.filterMap FeedResult.payload = ds := by
  induction outs generalizing ds with
  | nil => cases ds with
    | nil => rfl
    | cons => simp at h
  | cons o outs ih =>
    cases ds with
    | nil => simp at h
    | cons d ds =>
      simp only [List.map_cons, List.cons.injEq] at h
      simp [h.1, ih h.2]

theorem sends_stream (encode : Bytes → Bytes) (ds : List Bytes) :
    (ds.map (serial_send encode)).flatten = stream (ds.map encode) := by
  induction ds with
  | nil => rfl
  | cons d ds ih => simp [serial_send, stream, ← ih]

theorem encodings_map {N : Nat} {encode : Bytes → Bytes} (henc : ∀ d, Cobs d (encode d)) {ds : List Bytes}
    (h : ∀ d ∈ ds, (encode d).length + 1 ≤ N) : Encodings N ds (ds.map encode) := by
  induction ds with
  | nil => exact .nil
  | cons d ds ih =>
    exact .cons (henc d) (h d (by simp)) (ih fun x hx => h x (by simp [hx]))

end PRpc
