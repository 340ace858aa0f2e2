import Verif.Lemmas.UsbRx
import Verif.Lemmas.LogFmt
/-!
Property theorems C30-C34: the embassy-usb transport.

`Spec.transfers [] pkts` are the transfers the host forms from the packets on the bus, and the bytes of the one in
progress; `Spec.Packets d ps` says the packets `ps` carry the transfer `d`.
-/

namespace PRpc.Props

open PRpc PRpc.Spec

/-- All packet writes succeed. -/
def allOk : Nat → WriteOut := fun _ => .ok

theorem ep_write_ok (p : Bytes) (t : UsbTx) : ep_write .ok p t = (none, { t with pkts := t.pkts ++ [p] }) := rfl

theorem write_chunks_ok (chs : List Bytes) (i : Nat) (t : UsbTx) : (write_chunks allOk i chs t).1 = none := by
  induction chs generalizing i t with
  | nil => rfl
  | cons c chs ih => rw [write_chunks]; exact ih _ _

theorem send_body_ok (i : Nat) (out : Bytes) (t : UsbTx) : (send_body allOk i out t).1 = .Ok := by
  have h := write_chunks_ok (chunks64 out) i { t with pending_frame := true }
  rw [send_body]
  revert h
  generalize write_chunks allOk i (chunks64 out) { t with pending_frame := true } = q
  obtain ⟨r, t'⟩ := q
  intro h
  simp only at h
  subst h
  simp only [allOk, ep_write_ok]
  split <;> rfl

theorem send_all_ok (out : Bytes) (t : UsbTx) : (send_all allOk out t).1 = .Ok := by
  rw [send_all]
  split
  · rfl
  · split
    · simp only [allOk, ep_write_ok]; exact send_body_ok _ _ _
    · exact send_body_ok _ _ _

/-- C30 (a send whose packets all go out succeeds). -/
theorem c30_usb_send_succeeds (frames : List Bytes) (t : UsbTx) :
    (send_history (frames.map fun f => (f, allOk)) t).1 = frames.map fun _ => .Ok := by
  induction frames generalizing t with
  | nil => rfl
  | cons f frames ih =>
    simp only [List.map_cons, send_history]
    rw [ih, send_all_ok]

/-- C30: after any history of successful sends the host has received exactly those frames (empty ones put nothing on the
bus), each in a transfer of its own, and no transfer is in progress. -/
theorem c30_usb_send_framing (h : List (Bytes × (Nat → WriteOut)))
    (hok : ∀ r ∈ (send_history h UsbTx.new).1, r = .Ok) :
    transfers [] (send_history h UsbTx.new).2.pkts = ((h.map Prod.fst).filter (fun f => !f.isEmpty), []) := by
  have gen : ∀ (h : List (Bytes × (Nat → WriteOut))) (t : UsbTx), t.pending_frame = false → openT t.pkts = [] →
      (∀ r ∈ (send_history h t).1, r = .Ok) →
      done (send_history h t).2.pkts = done t.pkts ++ (h.map Prod.fst).filter (fun f => !f.isEmpty) ∧
        openT (send_history h t).2.pkts = [] := by
    intro h
    induction h with
    | nil => intro t _ ho _; exact ⟨by simp [send_history], ho⟩
    | cons x h ih =>
      intro t hp ho hr
      obtain ⟨out, o⟩ := x
      simp only [send_history, List.mem_cons] at hr ⊢
      have hr1 := hr _ (.inl rfl)
      obtain ⟨a, _, b⟩ := send_all_spec o out t (fun _ => ho)
      by_cases hne : out = []
      · subst hne
        have e : send_all o [] t = (.Ok, t) := rfl
        simp only [e] at hr ⊢
        have := ih t hp ho (fun r hr' => hr r (.inr hr'))
        simpa using this
      · obtain ⟨b1, b2⟩ := b hr1 hne
        have := ih _ b1 (a b1) (fun r hr' => hr r (.inr hr'))
        rw [this.1, b2, hp]
        refine ⟨?_, this.2⟩
        cases out with
        | nil => exact absurd rfl hne
        | cons x xs => simp
  have := gen h UsbTx.new rfl rfl hok
  exact Prod.ext (by simpa [done, UsbTx.new, transfers] using this.1) this.2

/-- A 128-byte frame goes out as two full packets and an empty one, and arrives whole. -/
example : (send_history [(List.replicate 128 5#8, allOk), ([1#8], allOk)] UsbTx.new).2.pkts =
    [List.replicate 64 5#8, List.replicate 64 5#8, [], [1#8]] := by decide +kernel

/-- C31: in any history of sends, however each was cut off, the non-empty transfers seen by the host (the one in progress
last) are, in order, one optional contribution per send: a non-empty prefix of that send's frame, and for a successful
send exactly the frame.  So nothing is ever glued together, reordered or repeated. -/
theorem c31_usb_interrupted_sends (h : List (Bytes × (Nat → WriteOut))) :
    let q := send_history h UsbTx.new
    ∃ cs : List (Option Bytes), cs.length = h.length ∧ q.1.length = h.length ∧
      ((transfers [] q.2.pkts).1 ++ [(transfers [] q.2.pkts).2]).filter (fun t => !t.isEmpty) = cs.flatMap Option.toList ∧
      ∀ (i : Nat) (x : Bytes × (Nat → WriteOut)) (r : TxRes) (c : Option Bytes), h[i]? = some x → q.1[i]? = some r →
        cs[i]? = some c →
        (∀ p, c = some p → p <+: x.1 ∧ p ≠ []) ∧ (r = .Ok → c = if x.1 = [] then none else some x.1) := by
  obtain ⟨_, cs, h1, h2, h3, h4⟩ := send_history_spec h UsbTx.new txInv_new
  refine ⟨cs, h1, h2, ?_, h3⟩
  have : view UsbTx.new.pkts = [] := rfl
  rw [this] at h4
  exact h4

/-- A frame cut after its first packet, then a good one: the cut one shows up as its own 64-byte transfer. -/
example : transfers [] (send_history [(List.replicate 100 5#8, fun i => if i = 0 then .ok else .cut false),
    ([1#8, 2#8], allOk)] UsbTx.new).2.pkts = ([List.replicate 64 5#8, [1#8, 2#8]], []) := by decide +kernel

/-- C31: after any history, the next successful send of a non-empty frame arrives as the last completed transfer, is
exactly that frame, and leaves no transfer in progress. -/
theorem c31_usb_next_send_intact (h : List (Bytes × (Nat → WriteOut))) (out : Bytes) (o : Nat → WriteOut)
    (hne : out ≠ []) (hok : (send_all o out (send_history h UsbTx.new).2).1 = .Ok) :
    let t := (send_history h UsbTx.new).2
    ∃ mid, (mid = [] ∨ mid = [(transfers [] t.pkts).2]) ∧
      transfers [] (send_all o out t).2.pkts = ((transfers [] t.pkts).1 ++ mid ++ [out], []) := by
  obtain ⟨inv, _⟩ := send_history_spec h UsbTx.new txInv_new
  obtain ⟨a, _, b⟩ := send_all_spec o out _ inv
  obtain ⟨b1, b2⟩ := b hok hne
  refine ⟨if (send_history h UsbTx.new).2.pending_frame then [openT (send_history h UsbTx.new).2.pkts] else [], ?_, ?_⟩
  · split
    · exact .inr rfl
    · exact .inl rfl
  · exact Prod.ext b2 (a b1)

example : (send_all allOk [9#8] (send_history [(List.replicate 64 5#8, fun i => if i = 0 then .ok else .err true)]
    UsbTx.new).2).1 = .Ok := send_all_ok _ _

/-- C32 as stated: every frame that fits the buffer is returned, every other one refused, in order and aligned. -/
def C32Full : Prop :=
  ∀ (lost : Bool) (B : Nat) (frames : List Bytes) (pss : List (List Bytes)) (n : Nat), AllPackets frames pss →
    (usb_receive_all lost B n (pss.flatten.map .packet)).1 =
      (frames.map fun d => if d.length ≤ B then .Ok d else .ReceivedMessageTooLarge).take n

/-- C32 is false: a frame that exactly fills a buffer of 64 bytes is refused. -/
theorem c32_usb_receive_false : ¬ C32Full := by
  intro h
  have := h true 64 [List.replicate 64 7#8] [[List.replicate 64 7#8, []]] 1
    (.cons (.more (p := List.replicate 64 7#8) (data := []) (by simp) (.last (by simp))) .nil)
  revert this
  decide +kernel

/-- C32, the first defect in general: with a buffer whose size is a multiple of 64, every frame of exactly that size is
refused. -/
theorem c32_usb_receive_exact_fit_refused (lost : Bool) (B : Nat) (hB : 64 ∣ B) (hpos : 0 < B) (d : Bytes)
    (ps : List Bytes) (hd : Packets d ps) (hl : d.length = B) (q : List UsbIn) :
    usb_receive lost B (ps.map .packet ++ q) = (.ReceivedMessageTooLarge, q) :=
  rx_loop_big lost B hB hpos hd [] q (by simp) (by simp) (by simp; omega)

example : Packets (List.replicate 64 7#8) [List.replicate 64 7#8, []] :=
  .more (p := List.replicate 64 7#8) (data := []) (by simp) (.last (by simp))

/-- C32, the second defect: with a 100-byte buffer, a 200-byte frame is refused, and then its tail is taken for a frame
of its own, whether or not the driver drops the packet that overflowed. -/
theorem c32_usb_receive_misaligned (lost : Bool) :
    ∃ (d : Bytes) (ps : List Bytes), Packets d ps ∧ d.length = 200 ∧
      ∃ (pre : List RxRes) (tail : Bytes), (usb_receive_all lost 100 3 (ps.map .packet)).1 = pre ++ [.Ok tail] ∧
        tail.length = 72 := by
  refine ⟨List.replicate 64 7#8 ++ (List.replicate 64 7#8 ++ (List.replicate 64 7#8 ++ List.replicate 8 7#8)),
    [List.replicate 64 7#8, List.replicate 64 7#8, List.replicate 64 7#8, List.replicate 8 7#8],
    .more (by simp) (.more (by simp) (.more (by simp) (.last (by simp)))), by decide +kernel, ?_⟩
  cases lost
  · exact ⟨[.ReceivedMessageTooLarge, .ReceivedMessageTooLarge], List.replicate 72 7#8, by decide +kernel, by simp⟩
  · exact ⟨[.ReceivedMessageTooLarge], List.replicate 72 7#8, by decide +kernel, by simp⟩

/-- C32, what holds: with a non-empty buffer whose size is a multiple of 64, every frame shorter than the buffer is
returned exactly, every other one is refused, in order, and the receiver stays aligned.  Missing for the full
statement: frames exactly as long as the buffer, and other buffer sizes. -/
theorem c32_usb_receive_partial (lost : Bool) (B : Nat) (hB : 64 ∣ B) (hpos : 0 < B) (frames : List Bytes)
    (pss : List (List Bytes)) (hp : AllPackets frames pss) (n : Nat) :
    (usb_receive_all lost B n (pss.flatten.map .packet)).1 =
      (frames.map fun d => if d.length < B then .Ok d else .ReceivedMessageTooLarge).take n := by
  refine usb_receive_all_frames lost B _ (fun d => ?_) hp ?_ n
  · split <;> simp
  · intro d _ ps hd q
    by_cases hl : d.length < B
    · rw [if_pos hl]
      exact rx_loop_fit lost B hd [] q (by simp; omega) (by simp; omega)
    · rw [if_neg hl]
      exact rx_loop_big lost B hB hpos hd [] q (by simp) (by simp) (by simp; omega)

example : AllPackets [List.replicate 64 7#8, [1#8]] [[List.replicate 64 7#8, []], [[1#8]]] ∧ 64 ∣ 128 :=
  ⟨.cons (.more (p := List.replicate 64 7#8) (data := []) (by simp) (.last (by simp))) (.cons (.last (by simp)) .nil),
    by decide⟩

/-- C32, any buffer size: as long as every frame fits (and does not exactly fill a buffer of a multiple of 64 bytes),
all are returned exactly, in order. -/
theorem c32_usb_receive_fitting_partial (lost : Bool) (B : Nat) (frames : List Bytes) (pss : List (List Bytes))
    (hp : AllPackets frames pss) (hfit : ∀ d ∈ frames, d.length ≤ B ∧ (d.length = B → ¬ 64 ∣ B)) (n : Nat) :
    (usb_receive_all lost B n (pss.flatten.map .packet)).1 = (frames.map .Ok).take n := by
  refine usb_receive_all_frames lost B _ (fun d => by simp) hp ?_ n
  intro d hd ps hps q
  obtain ⟨h1, h2⟩ := hfit d hd
  refine rx_loop_fit lost B hps [] q (by simp; omega) ?_
  simp only [List.length_nil, Nat.zero_add]
  intro e hm
  exact h2 e (by omega)

example : AllPackets [[1#8, 2#8]] [[[1#8, 2#8]]] ∧ ∀ d ∈ [[1#8, 2#8]], d.length ≤ 2 ∧ (d.length = 2 → ¬ 64 ∣ 2) :=
  ⟨.cons (.last (by simp)) .nil, by simp⟩

/-- C33 (clamping). -/
theorem c33_usb_timeout_clamped (timeout : Nat) :
    1 ≤ set_timeout_ms_per_frame timeout ∧ set_timeout_ms_per_frame timeout ≤ 60000 ∧
      (1 ≤ timeout → timeout ≤ 60000 → set_timeout_ms_per_frame timeout = timeout) := by
  simp only [set_timeout_ms_per_frame]
  omega

example : set_timeout_ms_per_frame 0 = 1 ∧ set_timeout_ms_per_frame 5 = 5 ∧ set_timeout_ms_per_frame 100000 = 60000 := by
  decide

/-- The number of packets needed for `len` bytes. -/
def packetsFor (len : Nat) : Nat := len / 64 + if len % 64 = 0 then 0 else 1

/-- C33 as stated, for a 32-bit device: no overflow for any frame that fits in memory. -/
def C33Full : Prop :=
  ∀ (checks : Bool) (len timeout : Nat), len < 2 ^ 31 → ∃ ms,
    send_timeout (2 ^ 32 - 1) checks len (set_timeout_ms_per_frame timeout) = .ok ms ∧
      packetsFor len * set_timeout_ms_per_frame timeout ≤ ms

/-- C33 is false for huge buffers on 32-bit devices: an 8 MiB frame with the largest allowance overflows. -/
theorem c33_usb_timeout_overflow : ¬ C33Full := by
  intro h
  obtain ⟨ms, h1, _⟩ := h true (2 ^ 23) 60000 (by decide)
  revert h1
  simp [send_timeout, set_timeout_ms_per_frame]

/-- C33, what holds: up to 4 MiB on a 32-bit device, and in general whenever the largest allowance times the number of
packets fits `usize`, the timeout is computed without overflow and is exactly the allowance times the packets. -/
theorem c33_usb_timeout_partial (umax : Nat) (checks : Bool) (len timeout : Nat) (h1 : len + 63 ≤ umax)
    (h2 : packetsFor len * 60000 ≤ umax) :
    send_timeout umax checks len (set_timeout_ms_per_frame timeout) =
      .ok (packetsFor len * set_timeout_ms_per_frame timeout) := by
  have hf : (len + 63) / 64 = packetsFor len := by
    simp only [packetsFor]; split <;> omega
  have hc := (c33_usb_timeout_clamped timeout).2.1
  have hle : packetsFor len * set_timeout_ms_per_frame timeout ≤ packetsFor len * 60000 := Nat.mul_le_mul_left _ hc
  have hm : (len + 63) % (umax + 1) = len + 63 := Nat.mod_eq_of_lt (by omega)
  simp only [send_timeout, hm, hf]
  rw [if_neg (by omega), if_neg (by omega), Nat.mod_eq_of_lt (by omega)]

theorem c33_usb_timeout_32bit_partial (checks : Bool) (len timeout : Nat) (h : len ≤ 2 ^ 22) :
    send_timeout (2 ^ 32 - 1) checks len (set_timeout_ms_per_frame timeout) =
      .ok (packetsFor len * set_timeout_ms_per_frame timeout) := by
  apply c33_usb_timeout_partial
  · omega
  · simp only [packetsFor]; split <;> omega

/-- C33, the allowance used unless one is set: 2 ms for each packet. -/
theorem c33_usb_timeout_default_partial (checks : Bool) (len : Nat) (h : len ≤ 2 ^ 22) :
    send_timeout (2 ^ 32 - 1) checks len DEFAULT_TIMEOUT_MS_PER_FRAME = .ok (2 * packetsFor len) := by
  have := c33_usb_timeout_32bit_partial checks len 2 h
  rw [show set_timeout_ms_per_frame 2 = 2 from rfl] at this
  rw [show DEFAULT_TIMEOUT_MS_PER_FRAME = 2 from rfl, this, Nat.mul_comm]

example : send_timeout (2 ^ 32 - 1) true 1024 DEFAULT_TIMEOUT_MS_PER_FRAME = .ok 32 := by decide

example : packetsFor 120 = 2 ∧ packetsFor 128 = 2 ∧ packetsFor 129 = 3 ∧ 1024 + 63 ≤ 2 ^ 32 - 1 := by decide

/-- C34 as stated, about the bytes handed to the transmitter: a text that leaves room for the header and the reserved
length field is sent as that text; no text makes the device panic. -/
def C34Full : Prop :=
  ∀ (w : Nat) (tx_buf : Bytes) (key : VarKey) (ctr : BitVec 16) (pieces : List Bytes) (hdr : Bytes), 0 < w →
    tx_buf.length < 2 ^ (8 * w) → (VarHeader.mk key (.Seq2 ctr)).write_to_vec = .ok hdr →
    ∃ r, log_fmt_frame w tx_buf key ctr pieces false = .ok r ∧
      (hdr.length + 10 + pieces.flatten.length ≤ tx_buf.length →
        ∃ b, r = some (hdr ++ b) ∧ IsText w b pieces.flatten)

/-- The space left for length field and text, and the size of the length field the code reserves for it. -/
def logSpace (tx_buf hdr : Bytes) : Nat := tx_buf.length - hdr.length

theorem reserved_eq (w r : Nat) : reserved w r = actual_varint_max_len w r := by
  simp only [reserved, actual_varint_max_len, varint_max, Nat.mul_comm 8 w]
  rfl

theorem log_fmt_cases (w : Nat) (hw : 0 < w) (tx_buf : Bytes) (htx : tx_buf.length < 2 ^ (8 * w)) (key : VarKey)
    (ctr : BitVec 16) (pieces : List Bytes) (fails : Bool) (hdr : Bytes)
    (hh : (VarHeader.mk key (.Seq2 ctr)).write_to_vec = .ok hdr) :
    let r := logSpace tx_buf hdr
    let m := actual_varint_max_len w r
    (tx_buf.length < hdr.length ∨ r < m → log_fmt_frame w tx_buf key ctr pieces fails = .ok none) ∧
    (hdr.length ≤ tx_buf.length → m ≤ r →
      (r - m < pieces.flatten.length ∨ 128 ^ m ≤ pieces.flatten.length →
        log_fmt_frame w tx_buf key ctr pieces fails = .panic) ∧
      (pieces.flatten.length ≤ r - m → pieces.flatten.length < 128 ^ m →
        ∃ b, log_fmt_frame w tx_buf key ctr pieces fails = .ok (some (hdr ++ b)) ∧
          IsText w b (logText fails (r - m) pieces.flatten))) := by
  rw [write_to_vec_eq] at hh
  cases hh
  intro r m
  obtain ⟨a, b⟩ := log_fmt_buf_cases w hw tx_buf htx key ctr pieces fails
  refine ⟨fun h => ?_, fun h1 h2 => ⟨fun h => ?_, fun h3 h4 => ?_⟩⟩
  · obtain ⟨_, _, e⟩ := a h
    rw [log_fmt_frame, e]; rfl
  · rw [log_fmt_frame, (b h1 h2).1 h]; rfl
  · obtain ⟨b, rest, e, h5, _⟩ := (b h1 h2).2 h3 h4
    refine ⟨b, ?_, h5⟩
    rw [log_fmt_frame, e]
    simp only [Exec.ok_bind, Option.map_some, List.take_left]

/-- C34: exactly when the message comes out right, when it is refused and when the device panics.  With `r` the bytes
after the header and `m` the reserved length field (`m` = 1 for `r` < 256, 2 for `r` < 32768, …):
no room for the header or the length field: an error;
text longer than `r - m`: panic;
text of at least `128 ^ m` bytes: panic;
otherwise the frame is the header and the text with its length. -/
theorem c34_log_fmt_partial (w : Nat) (hw : 0 < w) (tx_buf : Bytes) (htx : tx_buf.length < 2 ^ (8 * w)) (key : VarKey)
    (ctr : BitVec 16) (pieces : List Bytes) (hdr : Bytes)
    (hh : (VarHeader.mk key (.Seq2 ctr)).write_to_vec = .ok hdr) :
    let r := logSpace tx_buf hdr
    let m := reserved w r
    (tx_buf.length < hdr.length ∨ r < m → log_fmt_frame w tx_buf key ctr pieces false = .ok none) ∧
    (hdr.length ≤ tx_buf.length → m ≤ r →
      (r - m < pieces.flatten.length ∨ 128 ^ m ≤ pieces.flatten.length →
        log_fmt_frame w tx_buf key ctr pieces false = .panic) ∧
      (pieces.flatten.length ≤ r - m → pieces.flatten.length < 128 ^ m →
        ∃ b, log_fmt_frame w tx_buf key ctr pieces false = .ok (some (hdr ++ b)) ∧ IsText w b pieces.flatten)) := by
  simp only [reserved_eq]
  exact log_fmt_cases w hw tx_buf htx key ctr pieces false hdr hh

/-- C34, when the formatter itself reports an error (a `Display` implementation may) after writing pieces that fit: the
pieces written so far are sent, with full stops only where they reach the last three bytes of the space set aside. -/
theorem c34_log_fmt_display_error (w : Nat) (hw : 0 < w) (tx_buf : Bytes) (htx : tx_buf.length < 2 ^ (8 * w))
    (key : VarKey) (ctr : BitVec 16) (pieces : List Bytes) (hdr : Bytes)
    (hh : (VarHeader.mk key (.Seq2 ctr)).write_to_vec = .ok hdr) (hfit : hdr.length ≤ tx_buf.length) :
    let space := logSpace tx_buf hdr - reserved w (logSpace tx_buf hdr)
    reserved w (logSpace tx_buf hdr) ≤ logSpace tx_buf hdr → pieces.flatten.length ≤ space →
    pieces.flatten.length < 128 ^ reserved w (logSpace tx_buf hdr) →
    ∃ b, log_fmt_frame w tx_buf key ctr pieces true = .ok (some (hdr ++ b)) ∧
      IsText w b (logText true space pieces.flatten) := by
  simp only [reserved_eq]
  intro h1 h2 h3
  exact ((log_fmt_cases w hw tx_buf htx key ctr pieces true hdr hh).2 hfit h1).2 h2 h3

/-- A nine-byte buffer leaves four bytes for the text: of "abc" the last two are replaced. -/
example : log_fmt_frame 4 (List.replicate 9 0#8) (.Key1 ⟨9#8⟩) 5#16 [[97#8], [98#8, 99#8]] true =
    .ok (some [0x10#8, 9#8, 5#8, 0#8, 3#8, 97#8, 46#8, 46#8]) := by decide +kernel

/-- A 64-byte buffer and the text "ab", written as two pieces. -/
example : log_fmt_frame 4 (List.replicate 64 0#8) (.Key1 ⟨9#8⟩) 5#16 [[97#8], [98#8]] false =
    .ok (some [0x10#8, 9#8, 5#8, 0#8, 2#8, 97#8, 98#8]) := by decide +kernel

/-- C34 is false: with a 200-byte transmit buffer, a 150-byte text fits but makes the device panic (its length needs two
bytes, one is reserved). -/
theorem c34_log_fmt_length_panic :
    log_fmt_frame 4 (List.replicate 200 0#8) (.Key1 ⟨9#8⟩) 5#16 [List.replicate 150 97#8] false = .panic := by
  obtain ⟨_, h⟩ := c34_log_fmt_partial 4 (by decide) (List.replicate 200 0#8) (by decide +kernel) (.Key1 ⟨9#8⟩) 5#16
    [List.replicate 150 97#8] [0x10#8, 9#8, 5#8, 0#8] (by decide)
  exact (h (by decide +kernel) (by decide +kernel)).1 (.inr (by decide +kernel))

theorem c34_log_fmt_false : ¬ C34Full := by
  intro h
  obtain ⟨r, h1, _⟩ := h 4 (List.replicate 200 0#8) (.Key1 ⟨9#8⟩) 5#16 [List.replicate 150 97#8]
    [0x10#8, 9#8, 5#8, 0#8] (by decide) (by decide +kernel) (by decide)
  rw [c34_log_fmt_length_panic] at h1
  cases h1

/-- C34 is false for long texts too: whenever the text does not fit the buffer the device panics instead of sending a
truncated message. -/
theorem c34_log_fmt_long_panics (w : Nat) (hw : 0 < w) (tx_buf : Bytes) (htx : tx_buf.length < 2 ^ (8 * w)) (key : VarKey)
    (ctr : BitVec 16) (pieces : List Bytes) (hdr : Bytes)
    (hh : (VarHeader.mk key (.Seq2 ctr)).write_to_vec = .ok hdr)
    (hroom : hdr.length ≤ tx_buf.length ∧ reserved w (logSpace tx_buf hdr) ≤ logSpace tx_buf hdr)
    (hlong : tx_buf.length < hdr.length + pieces.flatten.length) :
    log_fmt_frame w tx_buf key ctr pieces false = .panic := by
  obtain ⟨_, h⟩ := c34_log_fmt_partial w hw tx_buf htx key ctr pieces hdr hh
  refine (h hroom.1 hroom.2).1 (.inl ?_)
  simp only [logSpace]
  omega

example : (VarHeader.mk (.Key1 ⟨9#8⟩) (.Seq2 5#16)).write_to_vec = .ok [0x10#8, 9#8, 5#8, 0#8] ∧
    reserved 4 (logSpace (List.replicate 20 0#8) [0x10#8, 9#8, 5#8, 0#8]) ≤ 16 := by decide

/-- C34, the common case: any text of fewer than 128 bytes that leaves room for
the header and the reserved length field is sent as that text. -/
theorem c34_log_fmt_short_text_partial (w : Nat) (hw : 0 < w) (tx_buf : Bytes) (htx : tx_buf.length < 2 ^ (8 * w))
    (key : VarKey) (ctr : BitVec 16) (pieces : List Bytes) (hdr : Bytes)
    (hh : (VarHeader.mk key (.Seq2 ctr)).write_to_vec = .ok hdr) (hshort : pieces.flatten.length < 128)
    (hroom : hdr.length + reserved w (logSpace tx_buf hdr) + pieces.flatten.length ≤ tx_buf.length) :
    ∃ b, log_fmt_frame w tx_buf key ctr pieces false = .ok (some (hdr ++ b)) ∧ IsText w b pieces.flatten := by
  obtain ⟨_, h⟩ := c34_log_fmt_partial w hw tx_buf htx key ctr pieces hdr hh
  have hm1 : 1 ≤ reserved w (logSpace tx_buf hdr) := by
    simp only [reserved]
    repeat' split
    all_goals omega
  have hp : 128 ^ 1 ≤ 128 ^ reserved w (logSpace tx_buf hdr) := Nat.pow_le_pow_right (by decide) hm1
  have hs : logSpace tx_buf hdr = tx_buf.length - hdr.length := rfl
  exact (h (by omega) (by omega)).2 (by omega) (by omega)

/-- C34: which fitting texts make the device panic, for the usual buffer sizes: with fewer than 256 bytes after the header,
exactly those of 128 bytes and more; with 256 to 32767 bytes, exactly those of 16384 and more. -/
theorem c34_log_fmt_panics_iff (w : Nat) (hw : 0 < w) (tx_buf : Bytes) (htx : tx_buf.length < 2 ^ (8 * w))
    (key : VarKey) (ctr : BitVec 16) (pieces : List Bytes) (hdr : Bytes)
    (hh : (VarHeader.mk key (.Seq2 ctr)).write_to_vec = .ok hdr) (hfit : hdr.length ≤ tx_buf.length) :
    (0 < logSpace tx_buf hdr → logSpace tx_buf hdr < 256 → pieces.flatten.length < logSpace tx_buf hdr →
      (log_fmt_frame w tx_buf key ctr pieces false = .panic ↔ 128 ≤ pieces.flatten.length)) ∧
    (256 ≤ logSpace tx_buf hdr → logSpace tx_buf hdr < 32768 → pieces.flatten.length + 1 < logSpace tx_buf hdr →
      (log_fmt_frame w tx_buf key ctr pieces false = .panic ↔ 16384 ≤ pieces.flatten.length)) := by
  obtain ⟨_, h⟩ := c34_log_fmt_partial w hw tx_buf htx key ctr pieces hdr hh
  constructor
  · intro h0 h1 h2
    have e : reserved w (logSpace tx_buf hdr) = 1 := by simp only [reserved]; rw [if_pos (by omega)]
    rw [e] at h
    obtain ⟨a, b⟩ := h hfit h0
    refine ⟨fun hp => ?_, fun hp => a (.inr hp)⟩
    by_cases hq : 128 ≤ pieces.flatten.length
    · exact hq
    · obtain ⟨_, e, _⟩ := b (by omega) (by omega)
      rw [e] at hp
      cases hp
  · intro h0 h1 h2
    have e : reserved w (logSpace tx_buf hdr) = 2 := by
      simp only [reserved]; rw [if_neg (by omega), if_pos (by omega)]
    rw [e] at h
    obtain ⟨a, b⟩ := h hfit (by omega)
    refine ⟨fun hp => ?_, fun hp => a (.inr hp)⟩
    by_cases hq : 16384 ≤ pieces.flatten.length
    · exact hq
    · obtain ⟨_, e, _⟩ := b (by omega) (by omega)
      rw [e] at hp
      cases hp

example : ([[97#8, 98#8]] : List Bytes).flatten.length < 128 ∧ 4 + reserved 4 60 + 2 ≤ 64 ∧ reserved 4 252 = 1 ∧
    reserved 4 1000 = 2 := by decide

end PRpc.Props
