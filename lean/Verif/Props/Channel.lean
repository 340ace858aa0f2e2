import Verif.Lemmas.Channel
import Verif.Props.Server
/-!
Property theorems C59-C61: the channel transport of the server, with any number of tasks sending at the same time.
A run is any sequence of events the transport can show (`ch_run`), from a new channel.
-/

namespace PRpc.Props
open PRpc PRpc.Spec

variable {w : Nat} {logging : Key} {cap buf : Nat} {evs : List ChEv} {s : ChSt}

/-! ### C59: what is sent arrives -/

/-- C59: the frames received, counting those refused for their size, are those of the calls that returned `Ok`, in that
order, each once and unchanged; at most `cap` are still on the way.  A call that returned an error, was given up or has
not returned puts nothing on the channel.  `receive` returns a frame exactly if it fits the buffer. -/
theorem c59_channel_faithful (hw : 0 < w) (hrun : ch_run w logging buf evs (ChSt.new cap) = some s)
    (ht : ∀ op ∈ started evs, TextFits w op) :
    ∃ frame : Nat → Bytes,
      (∀ i op, (started evs)[i]? = some op → ¬ Crashes op → ChFrame w logging (logNo evs i) op (frame i)) ∧
      taken evs <+: (accepted evs).map frame ∧ (accepted evs).length ≤ (taken evs).length + cap ∧
      (accepted evs).Nodup ∧ (∀ i ∈ accepted evs, ∃ op, (started evs)[i]? = some op ∧ ¬ Crashes op) ∧
      (∀ i ∈ unsent evs, i ∉ accepted evs) ∧
      (∀ b, ChEv.got b ∈ evs → b.length ≤ buf) ∧ (∀ b, ChEv.too_large b ∈ evs → buf < b.length) := by
  have h := chInv_run evs (chInv_new w logging cap buf) hrun
  rw [List.nil_append] at h
  have spec : ∀ i op, (started evs)[i]? = some op →
      (Crashes op ∧ frameAt w logging (started evs) i = .panic) ∨
      (¬ Crashes op ∧ ∃ f, frameAt w logging (started evs) i = .ok f ∧ ChFrame w logging (logNo evs i) op f) := by
    intro i op hi
    have := ch_begin_spec w hw logging op (logNo evs i) (ht op (List.mem_of_getElem? hi))
    simpa only [frameAt, hi, logNo] using this
  let frame : Nat → Bytes := fun i => match frameAt w logging (started evs) i with | .ok f => f | .panic => []
  have hok : ∀ i f, frameAt w logging (started evs) i = .ok f → frame i = f := by
    intro i f hf
    simp only [frame, hf]
  have hacc : ∀ i ∈ accepted evs, ∃ f, frameAt w logging (started evs) i = .ok f := by
    intro i hi
    have : frameAt w logging (started evs) i ∈ (taken evs ++ s.queue).map Exec.ok := by
      rw [← h.fifo]; exact List.mem_map_of_mem hi
    obtain ⟨f, _, hf⟩ := List.mem_map.mp this
    exact ⟨f, hf.symm⟩
  have hmap : (accepted evs).map frame = taken evs ++ s.queue := by
    have e : ((accepted evs).map frame).map Exec.ok = (taken evs ++ s.queue).map Exec.ok := by
      rw [← h.fifo, List.map_map]
      refine List.map_congr_left fun i hi => ?_
      obtain ⟨f, hf⟩ := hacc i hi
      rw [Function.comp, hok i f hf, hf]
    exact (List.map_inj_right fun a b hab => by cases hab; rfl).mp e
  refine ⟨frame, ?_, ?_, ?_, h.acc_nodup, ?_, fun i hi => (h.acc_unsent i hi).1, h.got_fits, h.large⟩
  · intro i op hi hc
    rcases spec i op hi with ⟨hc', _⟩ | ⟨_, f, hf, hF⟩
    · exact absurd hc' hc
    · rw [hok i f hf]; exact hF
  · rw [hmap]; exact List.prefix_append _ _
  · have := congrArg List.length hmap
    simp only [List.length_map, List.length_append] at this
    have := h.room
    omega
  · intro i hi
    obtain ⟨op, hop⟩ : ∃ op, (started evs)[i]? = some op := ⟨_, List.getElem?_eq_getElem (h.acc_lt i hi)⟩
    rcases spec i op hop with ⟨_, hp⟩ | ⟨hc, _⟩
    · obtain ⟨f, hf⟩ := hacc i hi
      rw [hp] at hf; cases hf
    · exact ⟨op, hop, hc⟩

/-- C59 (nothing is left behind): once every sender is gone and `receive` returns `ChannelClosed` without having been
stopped, every frame of a successful call has been received. -/
theorem c59_channel_drained (hw : 0 < w) (hrun : ch_run w logging buf (evs ++ [.rx_closed]) (ChSt.new cap) = some s)
    (hns : ChEv.stop ∉ evs) (ht : ∀ op ∈ started evs, TextFits w op) :
    ∃ frame : Nat → Bytes,
      (∀ i op, (started evs)[i]? = some op → ¬ Crashes op → ChFrame w logging (logNo evs i) op (frame i)) ∧
      taken evs = (accepted evs).map frame := by
  obtain ⟨m, h1, h2⟩ := (ch_run_append evs [.rx_closed]).mp hrun
  have h := chInv_run evs (chInv_new w logging cap buf) h1
  rw [List.nil_append] at h
  obtain ⟨frame, f1, f2, _⟩ := c59_channel_faithful hw h1 ht
  refine ⟨frame, f1, ?_⟩
  have hq : m.queue = [] := by
    simp only [ch_run, ch_step] at h2
    split at h2
    · cases h2
    · rename_i hx
      split at hx
      · rename_i hc
        rcases hc.2 with hst | hq
        · exact absurd (h.stopped_iff.mp hst) hns
        · exact hq.1
      · cases hx
  have hl := congrArg List.length h.fifo
  rw [hq] at hl
  simp only [List.append_nil, List.length_map] at hl
  exact f2.eq_of_length (by simp [hl])

/-- Once the senders are gone none of their calls is in progress. -/
theorem ch_gone_step {s s' : ChSt} {e : ChEv} (h : ch_step w logging buf s e = some s') (h0 : s.tx_open = false → s.calls = []) :
    s'.tx_open = false → s'.calls = [] := by
  cases e <;> simp only [ch_step] at h <;> (try split at h) <;> (try split at h) <;> (try split at h) <;>
    (first
      | (cases h; done)
      | (cases h; intro h1; (try simp only at h1 ⊢); first
          | assumption
          | exact h0 h1
          | (rw [h0 h1]; rfl)
          | (exact absurd ‹s.tx_open = true› (by rw [h1]; decide))))

theorem ch_gone {evs : List ChEv} : ∀ {s s' : ChSt}, ch_run w logging buf evs s = some s' → (s.tx_open = false → s.calls = []) →
    s'.tx_open = false → s'.calls = [] := by
  induction evs with
  | nil => intro s s' h h0; cases h; exact h0
  | cons e evs ih =>
    intro s s' h h0
    simp only [ch_run] at h
    split at h
    · cases h
    · rename_i t ht
      exact ih h (ch_gone_step ht h0)

/-- With no sender and an empty channel nothing more is started, accepted or taken. -/
theorem ch_final {evs : List ChEv} : ∀ {s s' : ChSt}, ch_run w logging buf evs s = some s' → s.tx_open = false → s.calls = [] →
    s.queue = [] → started evs = [] ∧ accepted evs = [] ∧ taken evs = [] := by
  induction evs with
  | nil => intro s s' _ _ _ _; exact ⟨rfl, rfl, rfl⟩
  | cons e evs ih =>
    intro s s' h h1 h2 h3
    simp only [ch_run] at h
    split at h
    · cases h
    · rename_i t ht
      cases e <;> simp only [ch_step, h1, h2, h3] at ht <;> simp at ht <;>
        (first | subst ht | (obtain ⟨_, ht⟩ := ht; subst ht)) <;>
        (have := ih h (by first | exact h1 | rfl) (by first | exact h2 | rfl) (by first | exact h3 | rfl); exact this)

/-- C59 (end): after `receive` has reported `ChannelClosed` with nobody having stopped the server, no call is started or returns
`Ok` any more, and nothing more is received: the report is final. -/
theorem c59_closed_is_final {post : List ChEv} (hrun : ch_run w logging buf (evs ++ .rx_closed :: post) (ChSt.new cap) = some s)
    (hns : ChEv.stop ∉ evs) : started post = [] ∧ accepted post = [] ∧ taken post = [] := by
  obtain ⟨m, h1, h2⟩ := (ch_run_append evs (.rx_closed :: post)).mp hrun
  have h := chInv_run evs (chInv_new w logging cap buf) h1
  rw [List.nil_append] at h
  simp only [ch_run] at h2
  split at h2
  · cases h2
  · rename_i t ht
    simp only [ch_step] at ht
    split at ht
    · rename_i hc
      cases ht
      rcases hc.2 with hst | ⟨hq, htx⟩
      · exact absurd (h.stopped_iff.mp hst) hns
      · exact ch_final h2 htx (ch_gone h1 (fun _ => rfl) htx) hq
    · cases ht

/-- A run: a message and a log text by two tasks, the second finishing first; a message that does not fit the receiver;
a message whose serialization fails. -/
def exChEvs : List ChEv :=
  [.start (.send ⟨.Key1 ⟨7#8⟩, .Seq1 1#8⟩ ⟨[1#8], false, 0⟩), .start (.send_log_str .Key1 [97#8] 0), .sent 1, .sent 0,
   .start (.send_raw (List.replicate 20 5#8)), .got [0x20#8, 3#8, 0#8, 0#8, 0#8, 0#8, 1#8, 97#8],
   .start (.send ⟨.Key1 ⟨7#8⟩, .Seq1 1#8⟩ ⟨[1#8], true, 0⟩), .sent 2, .got [0#8, 7#8, 1#8, 1#8],
   .too_large (List.replicate 20 5#8), .close_tx]

/-- A log topic key. -/
def exLogKey : Key := ⟨1#8, 2#8, 0#8, 0#8, 0#8, 0#8, 0#8, 0#8⟩

example : (ch_run 4 exLogKey 16 (exChEvs ++ .rx_closed :: [.rx_closed, .close_rx]) (ChSt.new 2)).isSome ∧ ChEv.stop ∉ exChEvs := by
  decide +kernel

example : (ch_run 4 exLogKey 16 (exChEvs ++ [.rx_closed]) (ChSt.new 2)).isSome ∧ ChEv.stop ∉ exChEvs ∧
    accepted exChEvs = [1, 0, 2] ∧ (taken exChEvs).length = 3 ∧ ∀ op ∈ started exChEvs, TextFits 4 op := by
  refine ⟨by decide +kernel, by decide, by decide, by decide, ?_⟩
  intro op hop
  have : started exChEvs = [.send ⟨.Key1 ⟨7#8⟩, .Seq1 1#8⟩ ⟨[1#8], false, 0⟩, .send_log_str .Key1 [97#8] 0,
    .send_raw (List.replicate 20 5#8), .send ⟨.Key1 ⟨7#8⟩, .Seq1 1#8⟩ ⟨[1#8], true, 0⟩] := rfl
  rw [this] at hop
  simp only [List.mem_cons, List.not_mem_nil, or_false] at hop
  rcases hop with rfl | rfl | rfl | rfl <;> simp [TextFits]

/-! ### C60: log numbers -/

/-- C60: the log message of call `i` carries, modulo 2^32, the number of log calls started before it; so two of them carry
the same number only if 2^32 or more log calls lie between. -/
theorem c60_log_numbers {i : Nat} {op : TxOp} {f : Bytes} (hl : isLog op = true) (hf : ChFrame w logging (logNo evs i) op f) :
    ∃ hdr b, VarHeader.take_from_slice f = .ok (some (hdr, b)) ∧ seqVal hdr.seq_no = logNo evs i % 2 ^ 32 := by
  have key : ∀ (n : Nat) (hb b : Bytes) (k : VarKey),
      hb.map BitVec.toNat = layout ⟨k, .Seq4 (BitVec.ofNat 32 n)⟩ → f = hb ++ b →
      ∃ hdr b, VarHeader.take_from_slice f = .ok (some (hdr, b)) ∧ seqVal hdr.seq_no = n % 2 ^ 32 := by
    rintro n hb b k hb2 rfl
    rw [← layout_encOf] at hb2
    have e : hb = encOf ⟨k, .Seq4 (BitVec.ofNat 32 n)⟩ :=
      List.map_inj_right (fun _ _ h => BitVec.eq_of_toNat_eq h) |>.mp hb2
    subst e
    exact ⟨_, b, take_enc _ _, by simp [seqVal]⟩
  cases op with
  | send => cases hl
  | send_raw => cases hl
  | send_log_str kk t k => obtain ⟨hb, b, k, _, h1, h2, _⟩ := hf; exact key _ hb b k h1 h2
  | send_log_fmt kk ps fl => obtain ⟨hb, b, k, _, h1, h2, _⟩ := hf; exact key _ hb b k h1 h2

/-- C60 (distinct): two log calls with fewer than 2^32 log calls from one to the other have different numbers. -/
theorem c60_log_distinct {i j : Nat} {oi oj : TxOp} (hij : i < j) (hi : (started evs)[i]? = some oi)
    (hj : (started evs)[j]? = some oj) (li : isLog oi = true)
    (hfew : logNo evs j - logNo evs i < 2 ^ 32) :
    logNo evs i < logNo evs j ∧ logNo evs i % 2 ^ 32 ≠ logNo evs j % 2 ^ 32 := by
  have hlen := (List.getElem?_eq_some_iff.mp hj).1
  have hlt : logNo evs i < logNo evs j := by
    have e : ((started evs).take j).take (i + 1) = (started evs).take (i + 1) := by
      rw [List.take_take, Nat.min_eq_left hij]
    have h1 : ((started evs).take (i + 1)).countP isLog = ((started evs).take i).countP isLog + 1 := by
      rw [List.take_add_one, List.countP_append, hi]
      simp [li]
    have h2 : ((started evs).take (i + 1)).countP isLog ≤ ((started evs).take j).countP isLog := by
      rw [← e]
      exact (List.take_sublist _ _).countP_le
    simp only [logNo]
    omega
  refine ⟨hlt, ?_⟩
  omega

example : isLog (.send_log_str .Key1 [97#8] 0) = true ∧ logNo exChEvs 1 = 0 ∧ (started exChEvs)[1]?.isSome := by decide

/-- C60 as stated: the log messages are received in the order of their numbers. -/
def C60Full : Prop :=
  ∀ (w : Nat) (logging : Key) (cap buf : Nat) (evs : List ChEv) (s : ChSt), 0 < w →
    ch_run w logging buf evs (ChSt.new cap) = some s → (∀ op ∈ started evs, isLog op = true) →
    ((accepted evs).map (logNo evs)).Pairwise (· < ·)

/-- C60 is false: two tasks log at the same time, and the one that took the later number is first to enter the channel. -/
theorem c60_log_order_false : ¬ C60Full := by
  intro h
  have := h 4 exLogKey 2 16 [.start (.send_log_str .Key1 [97#8] 0), .start (.send_log_str .Key1 [98#8] 0), .sent 1, .sent 0]
  have hs : (ch_run 4 exLogKey 16 [.start (.send_log_str .Key1 [97#8] 0), .start (.send_log_str .Key1 [98#8] 0), .sent 1,
    .sent 0] (ChSt.new 2)).isSome = true := by decide +kernel
  obtain ⟨s, hs⟩ := Option.isSome_iff_exists.mp hs
  have := this s (by omega) hs (by decide)
  revert this
  decide

/-- The accepted calls are in the order they started, if no two overlap. -/
theorem accepted_sorted (hw : 0 < w) (hrun : ch_run w logging buf evs (ChSt.new cap) = some s)
    (ht : ∀ op ∈ started evs, TextFits w op) (h1 : OneAtATime evs) :
    (accepted evs).Pairwise (· < ·) ∧ ∀ c ∈ s.calls, c.1 + 1 = (started evs).length := by
  induction hn : evs.length generalizing evs s with
  | zero =>
    have : evs = [] := List.length_eq_zero_iff.mp hn
    subst this
    simp only [ch_run, Option.some.injEq] at hrun
    subst hrun
    simp [accepted, ChSt.new]
  | succ n ih =>
    obtain ⟨pre, e, rfl⟩ : ∃ pre e, evs = pre ++ [e] := by
      exact ⟨evs.dropLast, evs.getLast (by intro h; simp [h] at hn), (List.dropLast_concat_getLast _).symm⟩
    obtain ⟨m, hm, he⟩ := (ch_run_append pre [e]).mp hrun
    have hpre : ∀ op ∈ started pre, TextFits w op := fun op hop => ht op (by rw [started_snoc]; simp [hop])
    have hone : OneAtATime pre := by
      intro a op b hab i o hi
      exact h1 a op (b ++ [e]) (by rw [hab]; simp) i o hi
    obtain ⟨i1, i2⟩ := ih hm hpre hone (by simpa using hn)
    have hinv := chInv_run pre (chInv_new w logging cap buf) hm
    rw [List.nil_append] at hinv
    have he' : ch_step w logging buf m e = some s := by
      simp only [ch_run] at he
      cases hx : ch_step w logging buf m e with
      | none => rw [hx] at he; cases he
      | some t => rw [hx] at he; exact he
    have keep : started [e] = [] → accepted [e] = [] → (∀ c ∈ s.calls, c ∈ m.calls) →
        (accepted (pre ++ [e])).Pairwise (· < ·) ∧ ∀ c ∈ s.calls, c.1 + 1 = (started (pre ++ [e])).length := by
      intro e1 e2 e3
      rw [accepted_snoc, started_snoc, e1, e2, List.append_nil, List.append_nil]
      exact ⟨i1, fun c hc => i2 c (e3 c hc)⟩
    cases e with
    | start op =>
      have hnone : m.calls = [] := by
        rw [List.eq_nil_iff_forall_not_mem]
        intro c hc
        obtain ⟨o, ho⟩ : ∃ o, (started pre)[c.1]? = some o := ⟨_, List.getElem?_eq_getElem (hinv.calls_lt c hc)⟩
        rcases h1 pre op [] rfl c.1 o ho with h | h | h
        · exact (hinv.calls_open c hc).1 h
        · exact (hinv.calls_open c hc).2 h
        · have hf := hinv.calls_frame c hc
          rcases ch_begin_spec w hw logging o (((started pre).take c.1).countP isLog)
            (hpre o (List.mem_of_getElem? ho)) with ⟨_, hp⟩ | ⟨hc', _⟩
          · simp only [frameAt, ho, hp] at hf
            cases hf
          · exact hc' h
      have ea : accepted [ChEv.start op] = [] := rfl
      have es : started [ChEv.start op] = [op] := rfl
      rw [accepted_snoc, started_snoc, ea, es, List.append_nil]
      refine ⟨i1, ?_⟩
      simp only [ch_step] at he'
      split at he'
      · cases hr : (ch_begin w logging op m.log_ctr).1 with
        | panic =>
          simp only [hr, Option.some.injEq] at he'
          subst he'
          simp [hnone]
        | ok f =>
          simp only [hr, Option.some.injEq] at he'
          subst he'
          simp [hnone, hinv.next_eq]
      · cases he'
    | sent i =>
      simp only [ch_step] at he'
      cases hf : m.calls.find? (·.1 = i) with
      | none => rw [hf] at he'; cases he'
      | some c =>
        rw [hf] at he'
        obtain ⟨hc, hci⟩ := find_call hf
        simp only at he'
        split at he'
        · simp only [Option.some.injEq] at he'
          subst he'
          have ea : accepted [ChEv.sent i] = [i] := rfl
          have es : started [ChEv.sent i] = [] := rfl
          rw [accepted_snoc, started_snoc, ea, es, List.append_nil]
          refine ⟨?_, fun d hd => i2 d (List.mem_filter.mp hd).1⟩
          rw [List.pairwise_append]
          refine ⟨i1, by simp, ?_⟩
          intro a ha b hb
          simp only [List.mem_singleton] at hb
          subst hb
          have h3 := hinv.acc_lt a ha
          have h4 := i2 c hc
          have h5 : a ≠ b := by
            rintro rfl
            exact (hinv.calls_open c hc).1 (by rw [hci]; exact ha)
          omega
        · cases he'
    | failed i =>
      simp only [ch_step] at he'
      split at he'
      · simp only [Option.some.injEq] at he'
        subst he'
        exact keep rfl rfl fun c hc => (List.mem_filter.mp hc).1
      · cases he'
    | dropped i =>
      simp only [ch_step] at he'
      split at he'
      · simp only [Option.some.injEq] at he'
        subst he'
        exact keep rfl rfl fun c hc => (List.mem_filter.mp hc).1
      · cases he'
    | got b =>
      simp only [ch_step] at he'
      split at he'
      · simp only [Option.some.injEq] at he'
        subst he'
        exact keep rfl rfl fun c hc => hc
      · cases he'
    | too_large b =>
      simp only [ch_step] at he'
      split at he'
      · simp only [Option.some.injEq] at he'
        subst he'
        exact keep rfl rfl fun c hc => hc
      · cases he'
    | rx_closed =>
      simp only [ch_step] at he'
      split at he'
      · simp only [Option.some.injEq] at he'
        subst he'
        exact keep rfl rfl fun c hc => hc
      · cases he'
    | stop =>
      simp only [ch_step, Option.some.injEq] at he'
      subst he'
      exact keep rfl rfl fun c hc => hc
    | close_rx =>
      simp only [ch_step, Option.some.injEq] at he'
      subst he'
      exact keep rfl rfl fun c hc => hc
    | close_tx =>
      simp only [ch_step] at he'
      split at he'
      · simp only [Option.some.injEq] at he'
        subst he'
        exact keep rfl rfl fun c hc => hc
      · cases he'

/-- C60, what holds: if no call starts while another is in progress, frames enter the channel in the order of the calls,
so log messages arrive in the order of their numbers.  Missing: concurrent senders. -/
theorem c60_log_order_partial (hw : 0 < w) (hrun : ch_run w logging buf evs (ChSt.new cap) = some s)
    (ht : ∀ op ∈ started evs, TextFits w op) (h1 : OneAtATime evs) :
    (accepted evs).Pairwise (· < ·) ∧
    (((accepted evs).filter fun i => match (started evs)[i]? with | some op => isLog op | none => false).map
      (logNo evs)).Pairwise (· < ·) := by
  have hs := (accepted_sorted hw hrun ht h1).1
  have h := chInv_run evs (chInv_new w logging cap buf) hrun
  rw [List.nil_append] at h
  refine ⟨hs, ?_⟩
  rw [List.pairwise_map]
  have hf := hs.filter fun i => match (started evs)[i]? with | some op => isLog op | none => false
  refine List.Pairwise.imp_of_mem ?_ hf
  intro a b ha hb hab
  obtain ⟨ha1, ha2⟩ := List.mem_filter.mp ha
  obtain ⟨hb1, _⟩ := List.mem_filter.mp hb
  obtain ⟨oa, hoa⟩ : ∃ o, (started evs)[a]? = some o := ⟨_, List.getElem?_eq_getElem (h.acc_lt a ha1)⟩
  simp only [hoa] at ha2
  have h1 : ((started evs).take (a + 1)).countP isLog = ((started evs).take a).countP isLog + 1 := by
    rw [List.take_add_one, List.countP_append, hoa]
    simp [ha2]
  have h2 : ((started evs).take (a + 1)).countP isLog ≤ ((started evs).take b).countP isLog := by
    have e : ((started evs).take b).take (a + 1) = (started evs).take (a + 1) := by
      rw [List.take_take, Nat.min_eq_left hab]
    rw [← e]
    exact (List.take_sublist _ _).countP_le
  simp only [logNo]
  omega

/-- Two log calls one after the other. -/
def exChSeq : List ChEv := [.start (.send_log_str .Key1 [97#8] 0), .sent 0, .start (.send_log_str .Key1 [98#8] 0), .sent 1]

example : (ch_run 4 exLogKey 16 exChSeq (ChSt.new 2)).isSome ∧ OneAtATime exChSeq ∧
    (accepted exChSeq).map (logNo exChSeq) = [0, 1] := by
  refine ⟨by decide +kernel, ?_, by decide⟩
  intro pre op post h i o hi
  match pre, h with
  | [], h => simp [started] at hi
  | [a], h => simp [exChSeq] at h
  | [a, b], h =>
    simp only [exChSeq, List.cons_append, List.nil_append, List.cons.injEq] at h
    obtain ⟨rfl, rfl, _⟩ := h
    have : i = 0 := by
      have := (List.getElem?_eq_some_iff.mp hi).1
      simp [started] at this
      exact this
    subst this
    exact .inl (by decide)
  | [a, b, c], h => simp [exChSeq] at h
  | a :: b :: c :: d :: r, h => simp [exChSeq] at h

/-! ### C61: stopping -/

/-- C61 as stated: once `stop` has been called nothing more is sent or received. -/
def C61Full : Prop :=
  ∀ (w : Nat) (logging : Key) (cap buf : Nat) (before after : List ChEv) (s : ChSt), 0 < w →
    ch_run w logging buf (before ++ ChEv.stop :: after) (ChSt.new cap) = some s →
    accepted after = [] ∧ taken after = []

/-- C61 is false: the choice between stopping and going on is open, so a frame may be accepted and another received. -/
theorem c61_stop_false : ¬ C61Full := by
  intro h
  have hs : (ch_run 4 exLogKey 16 ([.start (.send_raw [1#8])] ++ .stop :: [.sent 0, .got [1#8]]) (ChSt.new 2)).isSome
      = true := by decide +kernel
  obtain ⟨s, hs⟩ := Option.isSome_iff_exists.mp hs
  have := (h 4 exLogKey 2 16 _ _ s (by omega) hs).1
  cases this

/-- C61, what holds: once stopped, whatever happens after, every call in progress can return `ChannelClosed` at once, and
so can `receive`: none waits for room or for a frame.  And `ChannelClosed` is never returned for another reason than a
stop or the other side being gone. -/
theorem c61_stop_partial (hrun : ch_run w logging buf evs (ChSt.new cap) = some s) :
    (ChEv.stop ∈ evs → (∀ i op, (started evs)[i]? = some op → i ∉ accepted evs → i ∉ unsent evs → 0 < w → TextFits w op →
        ¬ Crashes op → ∃ s', ch_run w logging buf (evs ++ [.failed i]) (ChSt.new cap) = some s') ∧
      (ChEv.close_rx ∉ evs → ∃ s', ch_run w logging buf (evs ++ [.rx_closed]) (ChSt.new cap) = some s')) ∧
    (∀ pre post i, evs = pre ++ ChEv.failed i :: post → ChEv.stop ∈ pre ∨ ChEv.close_rx ∈ pre) ∧
    (∀ pre post, evs = pre ++ ChEv.rx_closed :: post → ChEv.stop ∈ pre ∨ ChEv.close_tx ∈ pre) := by
  have inv : ∀ {evs s}, ch_run w logging buf evs (ChSt.new cap) = some s → ChInv w logging cap buf evs s := by
    intro evs s h
    have := chInv_run evs (chInv_new w logging cap buf) h
    rwa [List.nil_append] at this
  have h := inv hrun
  have one : ∀ e s', ch_step w logging buf s e = some s' →
      ch_run w logging buf (evs ++ [e]) (ChSt.new cap) = some s' := by
    intro e s' he
    exact (ch_run_append evs [e]).mpr ⟨s, hrun, by simp [ch_run, he]⟩
  refine ⟨fun hst => ⟨?_, ?_⟩, ?_, ?_⟩
  · intro i op hi ha hu hw htf hc
    obtain ⟨f, hf⟩ : ∃ f, frameAt w logging (started evs) i = .ok f := by
      rcases ch_begin_spec w hw logging op (((started evs).take i).countP isLog) htf with ⟨h', _⟩ | ⟨_, f, hf, _⟩
      · exact absurd h' hc
      · exact ⟨f, by simp only [frameAt, hi, hf]⟩
    rcases h.calls_all i f hf with h' | h' | h'
    · exact absurd h' ha
    · exact absurd h' hu
    · refine ⟨{ s with calls := s.calls.filter (·.1 ≠ i) }, one (.failed i) _ ?_⟩
      simp only [ch_step]
      have : (s.calls.find? (·.1 = i)).isSome = true := by
        rw [List.find?_isSome]
        exact ⟨(i, f), h', by simp⟩
      rw [if_pos ⟨this, .inl (h.stopped_iff.mpr hst)⟩]
  · intro hrx
    refine ⟨s, one .rx_closed s ?_⟩
    have : s.rx_open = true := by
      cases hb : s.rx_open
      · exact absurd (h.rx_iff.mp hb) hrx
      · rfl
    simp only [ch_step]
    rw [if_pos ⟨this, .inl (h.stopped_iff.mpr hst)⟩]
  · intro pre post i he
    rw [he] at hrun
    obtain ⟨m, h1, h2⟩ := (ch_run_append pre _).mp hrun
    have hm := inv h1
    simp only [ch_run, ch_step] at h2
    split at h2
    · cases h2
    · rename_i hx
      split at hx
      · rename_i hc
        rcases hc.2 with hc | hc
        · exact .inl (hm.stopped_iff.mp hc)
        · exact .inr (hm.rx_iff.mp hc)
      · cases hx
  · intro pre post he
    rw [he] at hrun
    obtain ⟨m, h1, h2⟩ := (ch_run_append pre _).mp hrun
    have hm := inv h1
    simp only [ch_run, ch_step] at h2
    split at h2
    · cases h2
    · rename_i hx
      split at hx
      · rename_i hc
        rcases hc.2 with hc | hc
        · exact .inl (hm.stopped_iff.mp hc)
        · exact .inr (hm.tx_iff.mp hc.2)
      · cases hx

example : (ch_run 4 exLogKey 16 [.start (.send_raw [1#8]), .stop] (ChSt.new 0)).isSome ∧
    (ch_run 4 exLogKey 16 [.start (.send_raw [1#8]), .stop, .failed 0, .rx_closed] (ChSt.new 0)).isSome := by
  decide +kernel

/-- What `Server::run` is given. -/
def chRx (evs : List ChEv) : List (Rx ChRxErr) :=
  evs.filterMap fun
    | .got b => some (.frame b)
    | .too_large _ => some (.error .MessageTooLarge)
    | .rx_closed => some (.error .ChannelClosed)
    | _ => none

/-- C61 (the server): `Server::run` goes on after a frame that is too large and ends at the first `ChannelClosed`; what is
received before is dispatched as ever. -/
theorem c61_server_ends {E S : Type} (tx_kind : E → WireTxErrorKind)
    (hd : VarHeader → Bytes → S → Exec (Option E × S)) (before after : List ChEv) (st s' : S)
    (h : server_run tx_kind ChRxErr.as_kind hd (chRx before) st = .ok (.waiting s')) :
    server_run tx_kind ChRxErr.as_kind hd (chRx (before ++ .rx_closed :: after)) st =
      .ok (.rx_fatal .ChannelClosed (chRx after) s') ∧
    ∀ b, server_run tx_kind ChRxErr.as_kind hd (chRx (before ++ [.too_large b])) st = .ok (.waiting s') := by
  obtain ⟨fs, h1, h2⟩ := (c17_still_running _ _ _ _ _ _).mp h
  refine ⟨(c17_stops_on_rx _ _ _ _ _ _ _ _).mpr ⟨chRx before, fs, ?_, rfl, h1, h2⟩, fun b => ?_⟩
  · simp [chRx]
  · refine (c17_still_running _ _ _ _ _ _).mpr ⟨fs, ?_, h2⟩
    have : chRx (before ++ [.too_large b]) = chRx before ++ [.error .MessageTooLarge] := by simp [chRx]
    rw [this]
    clear this h h2
    generalize chRx before = l at h1
    induction h1 with
    | nil => exact .error (by decide) .nil
    | malformed a _ ih => exact .malformed a ih
    | error a _ ih => exact .error a ih
    | frame a _ ih => exact .frame a ih

example : chRx exChEvs = [.frame [0x20#8, 3#8, 0#8, 0#8, 0#8, 0#8, 1#8, 97#8], .frame [0#8, 7#8, 1#8, 1#8],
    .error .MessageTooLarge] := rfl

end PRpc.Props
