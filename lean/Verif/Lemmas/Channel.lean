import Verif.Spec.Channel
import Verif.Lemmas.EUsbTx

namespace PRpc
open Spec

/-- The frame of call `i`. -/
def frameAt (w : Nat) (logging : Key) (ops : List TxOp) (i : Nat) : Exec Bytes :=
  match ops[i]? with
  | none => .panic
  | some op => (ch_begin w logging op (BitVec.ofNat 32 ((ops.take i).countP isLog))).1

theorem ch_begin_ctr (w : Nat) (logging : Key) (op : TxOp) (c : Nat) :
    (ch_begin w logging op (BitVec.ofNat 32 c)).2 = BitVec.ofNat 32 (c + [op].countP isLog) := by
  cases op <;> simp [ch_begin, isLog, BitVec.ofNat_add]

theorem ch_begin_spec (w : Nat) (hw : 0 < w) (logging : Key) (op : TxOp) (n : Nat) (ht : TextFits w op) :
    (Crashes op ∧ (ch_begin w logging op (BitVec.ofNat 32 n)).1 = .panic) ∨
    (¬ Crashes op ∧ ∃ f, (ch_begin w logging op (BitVec.ofNat 32 n)).1 = .ok f ∧ ChFrame w logging n op f) := by
  have text : ∀ s : Bytes, s.length < 2 ^ (8 * w) → IsText w (varint_usize w s.length ++ s) s := by
    intro s hs
    exact is_text hw hs
  cases op with
  | send hdr m =>
    cases h : m.fails
    · exact .inr ⟨by simp [Crashes, h], encOf hdr ++ m.bytes,
        by simp [ch_begin, ch_frame, write_to_vec_eq, to_stdvec, h], _, layout_encOf _, rfl⟩
    · exact .inl ⟨h, by simp [ch_begin, ch_frame, write_to_vec_eq, to_stdvec, h]⟩
  | send_raw b => exact .inr ⟨fun h => h, b, rfl, rfl⟩
  | send_log_str kk s k =>
    refine .inr ⟨fun h => h, _, ?_, _, _, log_key logging kk, log_key_bytes _ _, layout_encOf _, rfl, text s ht⟩
    simp [ch_begin, ch_frame, write_to_vec_eq, to_stdvec, ser_str]
  | send_log_fmt kk ps fl =>
    cases fl
    · refine .inr ⟨by simp [Crashes], _, ?_, _, _, log_key logging kk, log_key_bytes _ _, layout_encOf _, rfl, text _ ht⟩
      simp [ch_begin, write_to_vec_eq, to_stdvec, ser_str, format_args]
    · exact .inl ⟨rfl, by simp [ch_begin, write_to_vec_eq, format_args]⟩

theorem frameAt_append {w : Nat} {logging : Key} {ops : List TxOp} {i : Nat} (more : List TxOp) (h : i < ops.length) :
    frameAt w logging (ops ++ more) i = frameAt w logging ops i := by
  unfold frameAt
  rw [List.getElem?_append_left h, List.take_append_of_le_length (Nat.le_of_lt h)]

/-- What holds after the events `evs`. -/
structure ChInv (w : Nat) (logging : Key) (cap buf : Nat) (evs : List ChEv) (s : ChSt) : Prop where
  cap_eq : s.cap = cap
  next_eq : s.next = (started evs).length
  ctr_eq : s.log_ctr = BitVec.ofNat 32 ((started evs).countP isLog)
  calls_lt : ∀ c ∈ s.calls, c.1 < (started evs).length
  calls_frame : ∀ c ∈ s.calls, frameAt w logging (started evs) c.1 = .ok c.2
  calls_open : ∀ c ∈ s.calls, c.1 ∉ accepted evs ∧ c.1 ∉ unsent evs
  calls_all : ∀ i f, frameAt w logging (started evs) i = .ok f → i ∈ accepted evs ∨ i ∈ unsent evs ∨ (i, f) ∈ s.calls
  calls_nodup : (s.calls.map Prod.fst).Nodup
  acc_lt : ∀ i ∈ accepted evs, i < (started evs).length
  acc_nodup : (accepted evs).Nodup
  acc_unsent : ∀ i ∈ unsent evs, i ∉ accepted evs ∧ i < (started evs).length
  fifo : (accepted evs).map (frameAt w logging (started evs)) = (taken evs ++ s.queue).map .ok
  room : s.queue.length ≤ cap
  got_fits : ∀ b, ChEv.got b ∈ evs → b.length ≤ buf
  large : ∀ b, ChEv.too_large b ∈ evs → buf < b.length
  stopped_iff : s.stopped = true ↔ ChEv.stop ∈ evs
  rx_iff : s.rx_open = false ↔ ChEv.close_rx ∈ evs
  tx_iff : s.tx_open = false ↔ ChEv.close_tx ∈ evs

theorem chInv_new (w : Nat) (logging : Key) (cap buf : Nat) : ChInv w logging cap buf [] (ChSt.new cap) := by
  constructor <;> simp [ChSt.new, started, accepted, unsent, taken, frameAt]

section
variable (evs : List ChEv)
theorem started_snoc (e : ChEv) : started (evs ++ [e]) = started evs ++ started [e] := by simp [started]
theorem accepted_snoc (e : ChEv) : accepted (evs ++ [e]) = accepted evs ++ accepted [e] := by simp [accepted]
theorem unsent_snoc (e : ChEv) : unsent (evs ++ [e]) = unsent evs ++ unsent [e] := by simp [unsent]
theorem taken_snoc (e : ChEv) : taken (evs ++ [e]) = taken evs ++ taken [e] := by simp [taken]
end

theorem find_call {l : List (Nat × Bytes)} {i : Nat} {c : Nat × Bytes} (h : l.find? (·.1 = i) = some c) :
    c ∈ l ∧ c.1 = i := ⟨List.mem_of_find?_eq_some h, by simpa using List.find?_some h⟩

theorem chInv_step {w : Nat} {logging : Key} {cap buf : Nat} {evs : List ChEv} {s s' : ChSt} {e : ChEv}
    (h : ChInv w logging cap buf evs s) (hs : ch_step w logging buf s e = some s') :
    ChInv w logging cap buf (evs ++ [e]) s' := by
  obtain ⟨h1, h2, h3, h4, h5, h6, h7, h8, h9, h10, h11, h12, h13, h14, h15, h16, h17, h18⟩ := h
  cases e with
  | start op =>
    have es : started [ChEv.start op] = [op] := rfl
    have ea : accepted [ChEv.start op] = [] := rfl
    have eu : unsent [ChEv.start op] = [] := rfl
    have et : taken [ChEv.start op] = [] := rfl
    simp only [ch_step] at hs
    by_cases hto : s.tx_open = true
    · rw [if_pos hto] at hs
      have hlast : frameAt w logging (started evs ++ [op]) (started evs).length =
          (ch_begin w logging op s.log_ctr).1 := by
        simp [frameAt, h3]
      have hctr : (ch_begin w logging op s.log_ctr).2 = BitVec.ofNat 32 ((started evs ++ [op]).countP isLog) := by
        rw [h3, ch_begin_ctr, List.countP_append]
      have hold : ∀ i, i < (started evs).length →
          frameAt w logging (started evs ++ [op]) i = frameAt w logging (started evs) i :=
        fun i hi => frameAt_append _ hi
      have hfifo : (accepted evs).map (frameAt w logging (started evs ++ [op])) = (taken evs ++ s.queue).map .ok := by
        rw [← h12]
        exact List.map_congr_left fun i hi => hold i (h9 i hi)
      have hcase : ∀ i f, frameAt w logging (started evs ++ [op]) i = .ok f →
          i < (started evs).length ∨ i = (started evs).length := by
        intro i f hi
        refine Classical.byContradiction fun hc => ?_
        have : (started evs ++ [op])[i]? = none := by
          rw [List.getElem?_eq_none_iff]; simp; omega
        simp [frameAt, this] at hi
      cases hr : (ch_begin w logging op s.log_ctr).1 with
      | panic =>
        simp only [hr, Option.some.injEq] at hs
        subst hs
        constructor <;> simp only [started_snoc, accepted_snoc, unsent_snoc, taken_snoc, es, ea, eu, et, List.append_nil,
          List.length_append, List.length_singleton, List.mem_append, List.mem_singleton, reduceCtorEq, or_false]
        all_goals first | assumption | skip
        · rw [h2]
        · intro c hc; have := h4 c hc; omega
        · intro c hc; rw [hold _ (h4 c hc)]; exact h5 c hc
        · intro i f hi
          rcases hcase i f hi with hlt | rfl
          · exact h7 i f (by rw [← hold i hlt]; exact hi)
          · rw [hlast, hr] at hi; cases hi
        · intro i hi; have := h9 i hi; omega
        · intro i hi; exact ⟨(h11 i hi).1, by have := (h11 i hi).2; omega⟩
      | ok f =>
        simp only [hr, Option.some.injEq] at hs
        subst hs
        constructor <;> simp only [started_snoc, accepted_snoc, unsent_snoc, taken_snoc, es, ea, eu, et, List.append_nil,
          List.length_append, List.length_singleton, List.mem_append, List.mem_singleton, reduceCtorEq, or_false]
        all_goals first | assumption | skip
        · rw [h2]
        · rintro c (hc | rfl)
          · have := h4 c hc; omega
          · simp [h2]
        · rintro c (hc | rfl)
          · rw [hold _ (h4 c hc)]; exact h5 c hc
          · rw [h2, hlast, hr]
        · rintro c (hc | rfl)
          · exact h6 c hc
          · rw [h2]
            exact ⟨fun hm => Nat.lt_irrefl _ (h9 _ hm), fun hm => Nat.lt_irrefl _ (h11 _ hm).2⟩
        · intro i g hi
          rcases hcase i g hi with hlt | rfl
          · rcases h7 i g (by rw [← hold i hlt]; exact hi) with h | h | h
            · exact .inl h
            · exact .inr (.inl h)
            · exact .inr (.inr (.inl h))
          · rw [hlast, hr] at hi
            cases hi
            exact .inr (.inr (.inr (by rw [h2])))
        · rw [List.map_append, List.nodup_append]
          refine ⟨h8, by simp, ?_⟩
          intro a ha b hb
          obtain ⟨c, hc, rfl⟩ := List.mem_map.mp ha
          simp only [List.map_cons, List.map_nil, List.mem_singleton] at hb
          have := h4 c hc
          omega
        · intro i hi; have := h9 i hi; omega
        · intro i hi; exact ⟨(h11 i hi).1, by have := (h11 i hi).2; omega⟩
    · rw [if_neg hto] at hs; cases hs
  | sent i =>
    have es : started [ChEv.sent i] = [] := rfl
    have ea : accepted [ChEv.sent i] = [i] := rfl
    have eu : unsent [ChEv.sent i] = [] := rfl
    have et : taken [ChEv.sent i] = [] := rfl
    simp only [ch_step] at hs
    cases hf : s.calls.find? (·.1 = i) with
    | none => rw [hf] at hs; cases hs
    | some c =>
      rw [hf] at hs
      obtain ⟨hc, hci⟩ := find_call hf
      simp only at hs
      split at hs
      · rename_i hroom
        simp only [Option.some.injEq] at hs
        subst hs
        constructor <;> simp only [started_snoc, accepted_snoc, unsent_snoc, taken_snoc, es, ea, eu, et, List.append_nil,
          List.mem_append, List.mem_singleton, reduceCtorEq, or_false]
        all_goals first | assumption | skip
        · intro d hd; exact h4 d (List.mem_filter.mp hd).1
        · intro d hd; exact h5 d (List.mem_filter.mp hd).1
        · intro d hd
          obtain ⟨hd, hne⟩ := List.mem_filter.mp hd
          refine ⟨?_, (h6 d hd).2⟩
          rintro (hm | hm)
          · exact (h6 d hd).1 hm
          · simp [hm] at hne
        · intro j f hj
          rcases h7 j f hj with h | h | h
          · exact .inl (.inl h)
          · exact .inr (.inl h)
          · by_cases hji : j = i
            · exact .inl (.inr hji)
            · exact .inr (.inr (List.mem_filter.mpr ⟨h, by simpa using hji⟩))
        · exact h8.sublist (List.filter_sublist.map _)
        · rintro j (hj | rfl)
          · exact h9 j hj
          · rw [← hci]; exact h4 c hc
        · rw [List.nodup_append]
          refine ⟨h10, by simp, ?_⟩
          intro a ha b hb
          simp only [List.mem_singleton] at hb
          rintro rfl
          exact (h6 c hc).1 (by rw [hci, ← hb]; exact ha)
        · intro j hj
          refine ⟨?_, (h11 j hj).2⟩
          rintro (hm | rfl)
          · exact (h11 j hj).1 hm
          · exact (h6 c hc).2 (by rw [hci]; exact hj)
        · rw [List.map_append, h12, List.map_cons, List.map_nil, ← hci, h5 c hc]
          simp
        · simp only [List.length_append, List.length_singleton]
          have := hroom.2
          omega
      · cases hs
  | failed i =>
    have es : started [ChEv.failed i] = [] := rfl
    have ea : accepted [ChEv.failed i] = [] := rfl
    have eu : unsent [ChEv.failed i] = [i] := rfl
    have et : taken [ChEv.failed i] = [] := rfl
    simp only [ch_step] at hs
    split at hs
    · rename_i hcond
      obtain ⟨c, hf⟩ := Option.isSome_iff_exists.mp hcond.1
      obtain ⟨hc, hci⟩ := find_call hf
      simp only [Option.some.injEq] at hs
      subst hs
      constructor <;> simp only [started_snoc, accepted_snoc, unsent_snoc, taken_snoc, es, ea, eu, et, List.append_nil,
        List.mem_append, List.mem_singleton, reduceCtorEq, or_false]
      all_goals first | assumption | skip
      · intro d hd; exact h4 d (List.mem_filter.mp hd).1
      · intro d hd; exact h5 d (List.mem_filter.mp hd).1
      · intro d hd
        obtain ⟨hd, hne⟩ := List.mem_filter.mp hd
        refine ⟨(h6 d hd).1, ?_⟩
        rintro (hm | hm)
        · exact (h6 d hd).2 hm
        · simp [hm] at hne
      · intro j f hj
        rcases h7 j f hj with h | h | h
        · exact .inl h
        · exact .inr (.inl (.inl h))
        · by_cases hji : j = i
          · exact .inr (.inl (.inr hji))
          · exact .inr (.inr (List.mem_filter.mpr ⟨h, by simpa using hji⟩))
      · exact h8.sublist (List.filter_sublist.map _)
      · rintro j (hj | rfl)
        · exact h11 j hj
        · rw [← hci]; exact ⟨(h6 c hc).1, h4 c hc⟩
    · cases hs
  | dropped i =>
    have es : started [ChEv.dropped i] = [] := rfl
    have ea : accepted [ChEv.dropped i] = [] := rfl
    have eu : unsent [ChEv.dropped i] = [i] := rfl
    have et : taken [ChEv.dropped i] = [] := rfl
    simp only [ch_step] at hs
    split at hs
    · rename_i hcond
      obtain ⟨c, hf⟩ := Option.isSome_iff_exists.mp hcond
      obtain ⟨hc, hci⟩ := find_call hf
      simp only [Option.some.injEq] at hs
      subst hs
      constructor <;> simp only [started_snoc, accepted_snoc, unsent_snoc, taken_snoc, es, ea, eu, et, List.append_nil,
        List.mem_append, List.mem_singleton, reduceCtorEq, or_false]
      all_goals first | assumption | skip
      · intro d hd; exact h4 d (List.mem_filter.mp hd).1
      · intro d hd; exact h5 d (List.mem_filter.mp hd).1
      · intro d hd
        obtain ⟨hd, hne⟩ := List.mem_filter.mp hd
        refine ⟨(h6 d hd).1, ?_⟩
        rintro (hm | hm)
        · exact (h6 d hd).2 hm
        · simp [hm] at hne
      · intro j f hj
        rcases h7 j f hj with h | h | h
        · exact .inl h
        · exact .inr (.inl (.inl h))
        · by_cases hji : j = i
          · exact .inr (.inl (.inr hji))
          · exact .inr (.inr (List.mem_filter.mpr ⟨h, by simpa using hji⟩))
      · exact h8.sublist (List.filter_sublist.map _)
      · rintro j (hj | rfl)
        · exact h11 j hj
        · rw [← hci]; exact ⟨(h6 c hc).1, h4 c hc⟩
    · cases hs
  | got b =>
    have es : started [ChEv.got b] = [] := rfl
    have ea : accepted [ChEv.got b] = [] := rfl
    have eu : unsent [ChEv.got b] = [] := rfl
    have et : taken [ChEv.got b] = [b] := rfl
    simp only [ch_step] at hs
    split at hs
    · rename_i hcond
      obtain ⟨q, hq⟩ := List.head?_eq_some_iff.mp hcond.2.1
      simp only [Option.some.injEq] at hs
      subst hs
      constructor <;> simp only [started_snoc, accepted_snoc, unsent_snoc, taken_snoc, es, ea, eu, et, List.append_nil, List.mem_append, List.mem_singleton, reduceCtorEq,
        or_false, ChEv.got.injEq]
      all_goals first | assumption | skip
      · rw [hq] at h12 ⊢
        simpa using h12
      · rw [List.length_tail]; omega
      · rintro x (hx | rfl)
        · exact h14 x hx
        · exact hcond.2.2
    · cases hs
  | too_large b =>
    have es : started [ChEv.too_large b] = [] := rfl
    have ea : accepted [ChEv.too_large b] = [] := rfl
    have eu : unsent [ChEv.too_large b] = [] := rfl
    have et : taken [ChEv.too_large b] = [b] := rfl
    simp only [ch_step] at hs
    split at hs
    · rename_i hcond
      obtain ⟨q, hq⟩ := List.head?_eq_some_iff.mp hcond.2.1
      simp only [Option.some.injEq] at hs
      subst hs
      constructor <;> simp only [started_snoc, accepted_snoc, unsent_snoc, taken_snoc, es, ea, eu, et, List.append_nil, List.mem_append, List.mem_singleton, reduceCtorEq,
        or_false, ChEv.too_large.injEq]
      all_goals first | assumption | skip
      · rw [hq] at h12 ⊢
        simpa using h12
      · rw [List.length_tail]; omega
      · rintro x (hx | rfl)
        · exact h15 x hx
        · exact hcond.2.2
    · cases hs
  | rx_closed =>
    have es : started [ChEv.rx_closed] = [] := rfl
    have ea : accepted [ChEv.rx_closed] = [] := rfl
    have eu : unsent [ChEv.rx_closed] = [] := rfl
    have et : taken [ChEv.rx_closed] = [] := rfl
    simp only [ch_step] at hs
    split at hs
    · simp only [Option.some.injEq] at hs
      subst hs
      constructor
      all_goals try simp only [started_snoc, accepted_snoc, unsent_snoc, taken_snoc, es, ea, eu, et, List.append_nil,
        List.mem_append, List.mem_singleton, reduceCtorEq, or_false]
      all_goals assumption
    · cases hs
  | stop =>
    have es : started [ChEv.stop] = [] := rfl
    have ea : accepted [ChEv.stop] = [] := rfl
    have eu : unsent [ChEv.stop] = [] := rfl
    have et : taken [ChEv.stop] = [] := rfl
    simp only [ch_step, Option.some.injEq] at hs
    subst hs
    constructor
    all_goals try simp only [started_snoc, accepted_snoc, unsent_snoc, taken_snoc, es, ea, eu, et, List.append_nil,
      List.mem_append, List.mem_singleton, reduceCtorEq, or_false, or_true]
    all_goals assumption
  | close_rx =>
    have es : started [ChEv.close_rx] = [] := rfl
    have ea : accepted [ChEv.close_rx] = [] := rfl
    have eu : unsent [ChEv.close_rx] = [] := rfl
    have et : taken [ChEv.close_rx] = [] := rfl
    simp only [ch_step, Option.some.injEq] at hs
    subst hs
    constructor
    all_goals try simp only [started_snoc, accepted_snoc, unsent_snoc, taken_snoc, es, ea, eu, et, List.append_nil,
      List.mem_append, List.mem_singleton, reduceCtorEq, or_false, or_true]
    all_goals assumption
  | close_tx =>
    have es : started [ChEv.close_tx] = [] := rfl
    have ea : accepted [ChEv.close_tx] = [] := rfl
    have eu : unsent [ChEv.close_tx] = [] := rfl
    have et : taken [ChEv.close_tx] = [] := rfl
    simp only [ch_step] at hs
    split at hs
    · simp only [Option.some.injEq] at hs
      subst hs
      constructor
      all_goals try simp only [started_snoc, accepted_snoc, unsent_snoc, taken_snoc, es, ea, eu, et, List.append_nil,
        List.mem_append, List.mem_singleton, reduceCtorEq, or_false, or_true]
      all_goals assumption
    · cases hs

theorem chInv_run {w : Nat} {logging : Key} {cap buf : Nat} (es : List ChEv) : ∀ {evs : List ChEv} {s s' : ChSt},
    ChInv w logging cap buf evs s → ch_run w logging buf es s = some s' → ChInv w logging cap buf (evs ++ es) s' := by
  induction es with
  | nil => intro evs s s' h hr; cases hr; simpa using h
  | cons e es ih =>
    intro evs s s' h hr
    simp only [ch_run] at hr
    cases hs : ch_step w logging buf s e with
    | none => rw [hs] at hr; cases hr
    | some t =>
      rw [hs] at hr
      have := ih (chInv_step h hs) hr
      simpa using this

theorem ch_run_append {w : Nat} {logging : Key} {buf : Nat} (a b : List ChEv) : ∀ {s s' : ChSt},
    ch_run w logging buf (a ++ b) s = some s' ↔ ∃ m, ch_run w logging buf a s = some m ∧
      ch_run w logging buf b m = some s' := by
  induction a with
  | nil => intro s s'; simp [ch_run]
  | cons e a ih =>
    intro s s'
    simp only [List.cons_append, ch_run]
    cases ch_step w logging buf s e with
    | none => simp
    | some t => exact ih

end PRpc
