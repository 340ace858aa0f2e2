import Verif.Lemmas.Serial
import Verif.Model.Header
/-!
Property theorems C26-C29: COBS framing and the serial link.

`Spec.Cobs d e` says `e` is a COBS encoding of `d`; `Spec.stream es` is the byte stream of the encodings `es`, each
followed by a zero; `Spec.Encodings N ds es` says that `es` encode `ds` and each fits a buffer of `N` bytes.
-/

namespace PRpc.Props

open PRpc PRpc.Spec

/-- An accumulator state that feeding can reach from a new accumulator of capacity `N`. -/
inductive AccReachable (N : Nat) : Acc → Prop where
  | new : AccReachable N (Acc.new N)
  | feed {s s' input r} : AccReachable N s → s.feed N input = .ok (r, s') → AccReachable N s'

theorem accReachable_good {N : Nat} {s : Acc} (h : AccReachable N s) : s.Good N := by
  induction h with
  | new => exact Acc.good_new N
  | @feed s s' input r _ e ih =>
    rcases split_zero input with hi | ⟨a, b, rfl, ha⟩
    · by_cases hf : s.idx + input.length ≤ N
      · obtain ⟨s2, e2, g, _⟩ := feed_nozero_fit ih hi hf
        rw [e2] at e; cases e; exact g
      · obtain ⟨s2, e2, g, _⟩ := feed_nozero_over ih hi (by omega)
        rw [e2] at e; cases e; exact g
    · obtain ⟨r2, s2, e2, _, g, _⟩ := feed_zero ih (b := b) ha
      rw [e2] at e; cases e; exact g

/-- C26: whatever the chunks, the feed results are one success per frame, in order, with the frame's payload, nothing
else, and the accumulator is empty at the end. -/
theorem c26_cobs_chunking {N : Nat} (hN : 0 < N) (ds es : List Bytes) (he : Encodings N ds es) (chunks : List Bytes)
    (hc : chunks.flatten = stream es) :
    ∃ outs s', cobs_reads N hN (Acc.new N) chunks = .ok (outs, s') ∧ s'.idx = 0 ∧
      outs.map FeedResult.payload = ds.map some := by
  obtain ⟨o, s, e, _, i, p⟩ := cobs_reads_stream hN chunks (Acc.good_new N) he (by simpa [Acc.new] using hc)
  exact ⟨o, s, e, i, p⟩

example : Encodings 8 [[5#8, 0#8, 6#8], []] [[2#8, 5#8, 2#8, 6#8], [1#8]] ∧
    [[2#8, 5#8], [], [2#8, 6#8, 0#8, 1#8], [0#8]].flatten = stream [[2#8, 5#8, 2#8, 6#8], [1#8]] :=
  ⟨.cons (.zero (run := [5#8]) (by decide) (by decide) (by decide) (.last (by decide) (by decide))) (by decide)
    (.cons (.last (by decide) (by decide)) (by decide) .nil), by decide⟩

/-- C27: from any reachable state, whatever noise arrives, every fitting frame after the next zero is delivered intact
and in order; the noise itself yields at most one message per zero in it, plus one. -/
theorem c27_cobs_resync {N : Nat} (hN : 0 < N) (s : Acc) (hs : AccReachable N s) (ds es : List Bytes)
    (he : Encodings N ds es) (noise : Bytes) (chunks : List Bytes) (hc : chunks.flatten = noise ++ 0#8 :: stream es) :
    ∃ junk outs s', cobs_reads N hN s chunks = .ok (junk ++ outs, s') ∧ s'.idx = 0 ∧
      (junk.filterMap FeedResult.payload).length ≤ noise.count 0#8 + 1 ∧
      outs.map FeedResult.payload = ds.map some := by
  obtain ⟨j, o, s', e, _, i, l, p⟩ := cobs_reads_resync hN chunks (accReachable_good hs) he noise hc
  exact ⟨j, o, s', e, i, l, p⟩

example : ∃ s, AccReachable 4 s ∧ s.idx = 4 :=
  ⟨⟨[1#8, 2#8, 3#8, 4#8], 4⟩, .feed (input := [1#8, 2#8, 3#8, 4#8]) (r := .Consumed) .new (by decide), rfl⟩

/-- C27, with good frames before the noise: they are delivered too, so the noise damages only what it overlaps, up to
the next zero. -/
theorem c27_cobs_noise_confined {N : Nat} (hN : 0 < N) (ds₁ es₁ ds₂ es₂ : List Bytes) (he₁ : Encodings N ds₁ es₁)
    (he₂ : Encodings N ds₂ es₂) (noise : Bytes) (chunks : List Bytes)
    (hc : chunks.flatten = stream es₁ ++ noise ++ 0#8 :: stream es₂) :
    ∃ outs s' junk, cobs_reads N hN (Acc.new N) chunks = .ok (outs, s') ∧
      outs.filterMap FeedResult.payload = ds₁ ++ junk ++ ds₂ ∧ junk.length ≤ noise.count 0#8 + 1 := by
  obtain ⟨o1, s1, ws', g1, i1, f1, p1, e1⟩ := cobs_reads_prefix hN chunks (Acc.good_new N) he₁ (fun _ => rfl)
    (noise ++ 0#8 :: stream es₂) (by simpa [Acc.new] using hc)
  obtain ⟨j, o2, s2, e2, _, i2, l2, p2⟩ := cobs_reads_resync hN ws' g1 he₂ noise f1
  refine ⟨o1 ++ (j ++ o2), s2, j.filterMap FeedResult.payload, ?_, ?_, l2⟩
  · rw [e1, e2]; rfl
  · rw [List.filterMap_append, List.filterMap_append, map_some_filterMap p1, map_some_filterMap p2]
    simp

example : Encodings 8 [[5#8]] [[2#8, 5#8]] ∧
    [[2#8], [5#8, 0#8, 9#8, 9#8], [0#8, 2#8, 5#8, 0#8]].flatten =
      stream [[2#8, 5#8]] ++ [9#8, 9#8] ++ 0#8 :: stream [[2#8, 5#8]] :=
  ⟨.cons (.last (by decide) (by decide)) (by decide) .nil, by decide⟩

/-- C28 (safety): from every reachable state, feeding any input neither panics nor changes the size of the buffer, the
index stays within it, and what is handed back is a suffix of the input. -/
theorem c28_cobs_feed_safe {N : Nat} (s : Acc) (hs : AccReachable N s) (input : Bytes) :
    ∃ r s', s.feed N input = .ok (r, s') ∧ s'.buf.length = N ∧ s'.idx ≤ N ∧ ∀ rest, r.rest = some rest → rest <:+ input := by
  have h := accReachable_good hs
  rcases split_zero input with hi | ⟨a, b, rfl, ha⟩
  · by_cases hf : s.idx + input.length ≤ N
    · obtain ⟨s2, e2, g, _⟩ := feed_nozero_fit h hi hf
      exact ⟨_, s2, e2, g.len, g.idx, by simp [FeedResult.rest]⟩
    · obtain ⟨s2, e2, g, _⟩ := feed_nozero_over h hi (by omega)
      refine ⟨_, s2, e2, g.len, g.idx, ?_⟩
      intro rest hr
      simp only [FeedResult.rest, Option.some.injEq] at hr
      exact hr ▸ List.drop_suffix _ _
  · obtain ⟨r2, s2, e2, hr, g, _⟩ := feed_zero h (b := b) ha
    refine ⟨r2, s2, e2, g.len, g.idx, ?_⟩
    intro rest hr2
    rw [hr] at hr2
    cases hr2
    exact ⟨a ++ [0#8], by simp⟩

example : ∃ s, AccReachable 4 s ∧ s.idx = 4 ∧ s.feed 4 [7#8] = .ok (.OverFull [7#8], { s with idx := 0 }) :=
  ⟨⟨[1#8, 2#8, 3#8, 4#8], 4⟩, .feed (input := [1#8, 2#8, 3#8, 4#8]) (r := .Consumed) .new (by decide), rfl, by decide⟩

/-- The progress half of C28 as stated: a feed of a non-empty input consumes at least a byte or is `Consumed`. -/
def C28Progress : Prop :=
  ∀ (N : Nat) (s : Acc) (input : Bytes) (r : FeedResult) (s' : Acc) (rest : Bytes), 0 < N → AccReachable N s →
    input ≠ [] → s.feed N input = .ok (r, s') → r.rest = some rest → rest.length < input.length

/-- C28's progress half is false: with the buffer exactly full, zero-free input is handed back whole. -/
theorem c28_cobs_progress_false : ¬ C28Progress := by
  intro h
  have := h 4 ⟨[1#8, 2#8, 3#8, 4#8], 4⟩ [7#8] (.OverFull [7#8]) ⟨[1#8, 2#8, 3#8, 4#8], 0⟩ [7#8] (by decide)
    (.feed (input := [1#8, 2#8, 3#8, 4#8]) (r := .Consumed) .new (by decide)) (by decide) (by decide) (by decide)
  simp at this

/-- C28's progress half, what holds: the only feed that consumes nothing is that of zero-free input to an exactly full
accumulator, which it empties. -/
theorem c28_cobs_progress_partial {N : Nat} (s : Acc) (hs : AccReachable N s) (input : Bytes)
    (hi : input ≠ []) (r : FeedResult) (s' : Acc) (rest : Bytes) (hf : s.feed N input = .ok (r, s'))
    (hr : r.rest = some rest) :
    rest.length < input.length ∨ (s.idx = N ∧ 0#8 ∉ input ∧ rest = input ∧ s'.idx = 0) := by
  have h := accReachable_good hs
  rcases split_zero input with hz | ⟨a, b, rfl, ha⟩
  · by_cases hfit : s.idx + input.length ≤ N
    · obtain ⟨s2, e2, g, _⟩ := feed_nozero_fit h hz hfit
      rw [e2] at hf; cases hf; cases hr
    · obtain ⟨s2, e2, g, hi2⟩ := feed_nozero_over h hz (by omega)
      rw [e2] at hf; cases hf; cases hr
      have := h.idx
      have hl : 0 < input.length := List.length_pos_iff.mpr hi
      by_cases hfull : s.idx = N
      · exact .inr ⟨hfull, hz, by simp [hfull], hi2⟩
      · left; simp; omega
  · obtain ⟨r2, s2, e2, hr2, g, _⟩ := feed_zero h (b := b) ha
    rw [e2] at hf; cases hf
    rw [hr2] at hr
    cases hr
    left; simp; omega

example : ∃ (s s' : Acc) (r : FeedResult) (rest : Bytes), AccReachable 4 s ∧ s.feed 4 [7#8, 0#8, 1#8] = .ok (r, s') ∧
    r.rest = some rest :=
  ⟨Acc.new 4, ⟨[7#8, 0#8, 0#8, 0#8], 0⟩, .DeserError [1#8], [1#8], .new, by decide +kernel, rfl⟩

/-- C28 (termination): the receive loop over any window finishes, without panic, after at most one feed per byte, plus
one if the buffer was exactly full. -/
theorem c28_cobs_loop_terminates {N : Nat} (hN : 0 < N) (s : Acc) (hs : AccReachable N s) (window : Bytes) :
    ∃ outs s', cobs_loop N hN s window = .ok (outs, s') ∧
      outs.length ≤ window.length + (if s.idx = N then 1 else 0) := by
  obtain ⟨o, s', e, _, _, l⟩ := cobs_loop_total hN (accReachable_good hs) window
  exact ⟨o, s', e, l⟩

example : ∃ s, AccReachable 2 s ∧ s.idx = 2 :=
  ⟨⟨[1#8, 2#8], 2⟩, .feed (input := [1#8, 2#8]) (r := .Consumed) .new (by decide), rfl⟩

/-- C28, the excluded edge: with capacity zero, zero-free input is handed back whole for ever. -/
theorem c28_cobs_zero_capacity_stuck (input : Bytes) (hi : input ≠ []) (hz : 0#8 ∉ input) :
    (Acc.new 0).feed 0 input = .ok (.OverFull input, Acc.new 0) := by
  have hl : 0 < input.length := List.length_pos_iff.mpr hi
  obtain ⟨s, e, g, i⟩ := feed_nozero_over (Acc.good_new 0) hz (by simpa [Acc.new] using hl)
  rw [e]
  have hb : s.buf = [] := List.length_eq_zero_iff.mp g.len
  cases s
  simp only at hb i
  subst hb i
  simp [Acc.new]

example : (1#8 :: []) ≠ [] ∧ 0#8 ∉ [1#8] := by decide

/-- C29 as stated: every frame sent is delivered, exactly once and in order (`receive` called `calls` times returns the
first `calls` frames), for every encoder that produces COBS encodings and every cutting of the stream into reads. -/
def C29Full : Prop :=
  ∀ (encode : Bytes → Bytes), (∀ d, Cobs d (encode d)) → ∀ (frames reads : List Bytes),
    reads.flatten = (frames.map (serial_send encode)).flatten →
    ∀ calls, ∃ s', SerialRx.new.recv_all reads calls = .ok (frames.take calls, s')

/-- C29, what holds: of frames whose encodings fit the 1024-byte accumulator, exactly those of nine bytes or more are
delivered, once each and in order. -/
theorem c29_serial_delivery_partial (encode : Bytes → Bytes) (henc : ∀ d, Cobs d (encode d)) (frames reads : List Bytes)
    (hfit : ∀ d ∈ frames, (encode d).length + 1 ≤ 1024)
    (hr : reads.flatten = (frames.map (serial_send encode)).flatten) (calls : Nat) :
    ∃ s', SerialRx.new.recv_all reads calls = .ok ((frames.filter (fun d => 9 ≤ d.length)).take calls, s') := by
  rw [sends_stream] at hr
  obtain ⟨o, s, e, g, i, p⟩ := cobs_reads_stream (by decide : 0 < SERIAL_ACC) reads (Acc.good_new SERIAL_ACC)
    (encodings_map henc hfit) (by simpa [Acc.new] using hr)
  obtain ⟨s', e2⟩ := recv_all_spec calls reads (Acc.new SERIAL_ACC) [] (Acc.good_new SERIAL_ACC) e
  refine ⟨s', ?_⟩
  rw [SerialRx.new, e2, List.nil_append, to_pending_eq, map_some_filterMap p]

example : (∀ d, Cobs d (cobsEncode d)) ∧ ∀ d ∈ [List.replicate 9 7#8, [0#8]], (cobsEncode d).length + 1 ≤ 1024 :=
  ⟨cobsEncode_ok, by decide⟩

/-- C29 is false: a reply with a one-byte key, a four-byte sequence number (what this client always sends and a server
echoes) and a two-byte body is lost. -/
theorem c29_serial_short_frame_lost :
    ∃ (h : VarHeader) (frame : Bytes), h.write_to_vec = .ok frame ∧ h.seq_no = .Seq4 7#32 ∧
      ∃ s', SerialRx.new.recv_all [serial_send cobsEncode (frame ++ [1#8, 2#8])] 1 = .ok ([], s') := by
  refine ⟨⟨.Key1 ⟨9#8⟩, .Seq4 7#32⟩, [0x20#8, 9#8, 7#8, 0#8, 0#8, 0#8], by decide, rfl, ?_⟩
  have := c29_serial_delivery_partial cobsEncode cobsEncode_ok
    [[0x20#8, 9#8, 7#8, 0#8, 0#8, 0#8, 1#8, 2#8]]
    [serial_send cobsEncode [0x20#8, 9#8, 7#8, 0#8, 0#8, 0#8, 1#8, 2#8]] (by decide) (by simp) 1
  simpa using this

theorem c29_serial_delivery_false : ¬ C29Full := by
  intro h
  obtain ⟨hd, frame, _, _, s', e⟩ := c29_serial_short_frame_lost
  obtain ⟨s2, e2⟩ := h cobsEncode cobsEncode_ok [frame ++ [1#8, 2#8]]
    [serial_send cobsEncode (frame ++ [1#8, 2#8])] (by simp) 1
  rw [e] at e2
  simp at e2

set_option maxRecDepth 100000 in
/-- C29 is false for long frames as well, and worse: a frame of 1210 bytes is not delivered, but a 190-byte frame
nobody sent is. -/
theorem c29_serial_long_frame_spurious :
    ∃ (frame enc : Bytes) (reads : List Bytes), Cobs frame enc ∧ frame.length = 1210 ∧
      reads.flatten = enc ++ [0#8] ∧ (∀ r ∈ reads, r.length ≤ 1024) ∧
      ∃ s', SerialRx.new.recv_all reads 5 = .ok ([List.replicate 190 0#8], s') := by
  refine ⟨List.replicate 1210 1#8, cobsEncode (List.replicate 1210 1#8),
    [(cobsEncode (List.replicate 1210 1#8)).take 600, ((cobsEncode (List.replicate 1210 1#8)).drop 600).take 600,
      (cobsEncode (List.replicate 1210 1#8)).drop 1200 ++ [0#8]], cobsEncode_ok _, by simp, by decide +kernel,
    by decide +kernel, ?_⟩
  have key : (match SerialRx.new.recv_all [(cobsEncode (List.replicate 1210 1#8)).take 600,
      ((cobsEncode (List.replicate 1210 1#8)).drop 600).take 600,
      (cobsEncode (List.replicate 1210 1#8)).drop 1200 ++ [0#8]] 5 with
    | .ok (x, _) => decide (x = [List.replicate 190 0#8])
    | .panic => false) = true := by decide +kernel
  revert key
  generalize SerialRx.new.recv_all _ 5 = q
  cases q with
  | panic => intro h; cases h
  | ok q =>
    intro h
    exact ⟨q.2, by rw [← of_decide_eq_true h]⟩

end PRpc.Props
