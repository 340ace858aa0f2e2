import Verif.Lemmas.HostWires
import Verif.Props.Cobs
import Verif.Props.UsbLink
/-!
Property theorems C55-C57: how the host's serial and WebUSB wires report the end of the connection and failures.
-/

namespace PRpc.Props
open PRpc PRpc.Spec

/-! ### C55: the serial port ends -/

/-- C55 as stated: whether the port ends with a read error or with end of file (from then on every read returns no
bytes), the host gets every frame sent before and then something other than an endless wait; the port may end within a frame
(`tail`, what arrived of it). -/
def C55Full : Prop :=
  ∀ (encode : Bytes → Bytes), (∀ d, Cobs d (encode d)) → ∀ (frames reads : List Bytes) (tail : Bytes),
    (∀ d ∈ frames, 9 ≤ d.length ∧ (encode d).length + 1 ≤ 1024) → 0#8 ∉ tail →
    reads.flatten = (frames.map (serial_send encode)).flatten ++ tail → ∀ calls, frames.length < calls →
    SerialRx.new.receive_loop reads true calls = .ok (frames, some .Err) ∧
    ∃ n e, SerialRx.new.receive_loop (reads ++ List.replicate n []) false calls = .ok (frames, some e) ∧ e ≠ .waiting

/-- Either kind of end, at once. -/
theorem serial_end (encode : Bytes → Bytes) (henc : ∀ d, Cobs d (encode d)) (frames reads : List Bytes) (tail : Bytes)
    (hfit : ∀ d ∈ frames, 9 ≤ d.length ∧ (encode d).length + 1 ≤ 1024) (ht : 0#8 ∉ tail)
    (hr : reads.flatten = (frames.map (serial_send encode)).flatten ++ tail) (fails : Bool) (calls : Nat)
    (hc : frames.length < calls) :
    SerialRx.new.receive_loop reads fails calls = .ok (frames, some (if fails then .Err else .waiting)) := by
  rw [sends_stream] at hr
  obtain ⟨o, s, ws, g, _, hw, p, e⟩ := cobs_reads_prefix (by decide : 0 < SERIAL_ACC) reads (Acc.good_new SERIAL_ACC)
    (encodings_map henc fun d hd => (hfit d hd).2) (fun _ => rfl) tail (by simpa [Acc.new] using hr)
  obtain ⟨o2, s2, e2, _, l2⟩ := cobs_reads_total (by decide : 0 < SERIAL_ACC) ws g
  rw [hw, zeros, List.count_eq_zero.mpr ht] at l2
  have p2 : o2.filterMap FeedResult.payload = [] := List.length_eq_zero_iff.mp (Nat.le_zero.mp l2)
  rw [e2] at e
  have hf : frames.filter (fun d => 9 ≤ d.length) = frames := by
    rw [List.filter_eq_self]
    intro d hd
    simpa using (hfit d hd).1
  rw [SerialRx.new, receive_loop_spec fails calls reads (Acc.new SERIAL_ACC) [] (Acc.good_new SERIAL_ACC) e,
    List.nil_append, to_pending_eq, List.filterMap_append, p2, List.append_nil, map_some_filterMap p, hf,
    List.take_of_length_le (by omega), if_pos hc]

/-- C55, what holds: a read error is returned to the caller, after every frame received before it; of a frame the error
interrupts nothing is handed out.  Missing: end of file. -/
theorem c55_serial_read_error_partial (encode : Bytes → Bytes) (henc : ∀ d, Cobs d (encode d))
    (frames reads : List Bytes) (tail : Bytes) (hfit : ∀ d ∈ frames, 9 ≤ d.length ∧ (encode d).length + 1 ≤ 1024)
    (ht : 0#8 ∉ tail) (hr : reads.flatten = (frames.map (serial_send encode)).flatten ++ tail) (calls : Nat)
    (hc : frames.length < calls) :
    SerialRx.new.receive_loop reads true calls = .ok (frames, some .Err) :=
  serial_end encode henc frames reads tail hfit ht hr true calls hc

example : (∀ d ∈ [List.replicate 9 7#8], 9 ≤ d.length ∧ (cobsEncode d).length + 1 ≤ 1024) ∧
    0#8 ∉ (serial_send cobsEncode (List.replicate 12 3#8)).take 5 := by decide

/-- C55, how it goes wrong: at end of file `receive` reads again, however often nothing is returned. -/
theorem c55_serial_eof_waits (encode : Bytes → Bytes) (henc : ∀ d, Cobs d (encode d)) (frames reads : List Bytes) (tail : Bytes)
    (hfit : ∀ d ∈ frames, 9 ≤ d.length ∧ (encode d).length + 1 ≤ 1024) (ht : 0#8 ∉ tail)
    (hr : reads.flatten = (frames.map (serial_send encode)).flatten ++ tail) (n calls : Nat) (hc : frames.length < calls) :
    SerialRx.new.receive_loop (reads ++ List.replicate n []) false calls = .ok (frames, some .waiting) :=
  serial_end encode henc frames _ tail hfit ht (by simp [hr]) false calls hc

example : ([serial_send cobsEncode (List.replicate 9 7#8), [3, 3]] : List Bytes).flatten =
    ([List.replicate 9 7#8].map (serial_send cobsEncode)).flatten ++ [3, 3] := rfl

/-- C55 is false. -/
theorem c55_serial_end_false : ¬ C55Full := by
  intro h
  obtain ⟨_, n, e, h1, h2⟩ := h cobsEncode cobsEncode_ok [] [] [] (by simp) (by simp) rfl 1 (by simp)
  rw [c55_serial_eof_waits cobsEncode cobsEncode_ok [] [] [] (by simp) (by simp) rfl n 1 (by simp)] at h1
  simp only [Exec.ok.injEq, Prod.mk.injEq, Option.some.injEq, true_and] at h1
  exact h2 h1.symm

/-! ### C56: receiving over WebUSB -/

/-- The results the browser gives for completed IN transfers (external: overflow is status `babble`; a transfer without
data may come without a buffer, which the receiver treats alike). -/
def browser : InRes → Js WebIn
  | .data d => .resolved ⟨.Ok, some d⟩
  | .overflow => .resolved ⟨.Babble, none⟩

/-- What the host receives over WebUSB of the packets `pkts` with transfers of `size` bytes: the messages, and the error
that ends the connection, if any. -/
def webReceived (size : Nat) (pkts : List Bytes) : Exec (List Bytes × Option WebErr) :=
  webusb_receive_loop ((inResults size [] pkts).map browser)

theorem web_data (ds : List Bytes) (rs : List (Js WebIn)) :
    webusb_receive_loop ((ds.map InRes.data).map browser ++ rs) = (do
      let (ms, e) ← webusb_receive_loop rs
      .ok (ds ++ ms, e)) := by
  induction ds with
  | nil =>
    simp only [List.map_nil, List.nil_append]
    cases webusb_receive_loop rs <;> rfl
  | cons d ds ih =>
    simp only [List.map_cons, List.cons_append, browser, webusb_receive_loop, webusb_receive, if_true, Exec.ok_bind]
    simp only [browser] at ih
    rw [ih]
    cases webusb_receive_loop rs <;> rfl

theorem web_data_nil (ds : List Bytes) : webusb_receive_loop ((ds.map InRes.data).map browser) = .ok (ds, none) := by
  have := web_data ds []
  simpa [webusb_receive_loop] using this

theorem sent_nonempty {h : List (Bytes × (Nat → WriteOut))} (hne : ∀ x ∈ h, x.1 ≠ []) :
    (h.map Prod.fst).filter (fun f => !f.isEmpty) = h.map Prod.fst := by
  rw [List.filter_eq_self]
  intro d hd
  obtain ⟨x, hx, rfl⟩ := List.mem_map.mp hd
  have := hne x hx
  cases hx1 : x.1 with
  | nil => exact absurd hx1 this
  | cons _ _ => rfl

/-- C56 as stated: whatever transfer length the user chose, the host receives exactly the frames the device sent. -/
def C56Full : Prop :=
  ∀ (size : Nat), 0 < size → ∀ (h : List (Bytes × (Nat → WriteOut))),
    (∀ r ∈ (send_history h UsbTx.new).1, r = .Ok) → (∀ x ∈ h, x.1 ≠ []) →
    webReceived size (send_history h UsbTx.new).2.pkts = .ok (h.map Prod.fst, none)

/-- C56, transfer length not a multiple of 64 (the crate's example uses 1000): the first frame longer than it is not
received, and the connection fails there with "babble"; every frame before it is received exactly. -/
theorem c56_webusb_babble (size : Nat) (h64 : ¬ 64 ∣ size) (h : List (Bytes × (Nat → WriteOut)))
    (hok : ∀ r ∈ (send_history h UsbTx.new).1, r = .Ok) (hne : ∀ x ∈ h, x.1 ≠ [])
    (before after : List Bytes) (x : Bytes) (hh : h.map Prod.fst = before ++ x :: after)
    (hb : ∀ d ∈ before, d.length ≤ size) (hx : size < x.length) :
    webReceived size (send_history h UsbTx.new).2.pkts = .ok (before, some (.UsbTransfer "babble")) := by
  have h1 := c30_usb_send_framing h hok
  rw [sent_nonempty hne, hh] at h1
  rw [webReceived, inResults_misaligned size h64 _ (send_history_small h UsbTx.new (by simp [UsbTx.new])) [] (by simp)
    (by rw [h1]), h1]
  simp only
  rw [cutAt_over hb hx, List.map_append, web_data]
  simp [browser, webusb_receive_loop, webusb_receive, WebErr.from_status]

example : ¬ 64 ∣ 1000 ∧ 1000 < (List.replicate 1001 1#8).length ∧
    ∀ r ∈ (send_history [(List.replicate 1001 1#8, allOk)] UsbTx.new).1, r = .Ok := by
  refine ⟨by decide, by rw [List.length_replicate]; decide, ?_⟩
  have := c30_usb_send_succeeds [List.replicate 1001 1#8] UsbTx.new
  simp only [List.map_cons, List.map_nil] at this
  rw [this]; simp

/-- C56, transfer length a multiple of 64: a frame at least that long is received in pieces, followed by what is left
over, which may be empty. -/
theorem c56_webusb_blocks (size : Nat) (hs : 0 < size) (h64 : 64 ∣ size) (h : List (Bytes × (Nat → WriteOut)))
    (hok : ∀ r ∈ (send_history h UsbTx.new).1, r = .Ok) (hne : ∀ x ∈ h, x.1 ≠ []) :
    webReceived size (send_history h UsbTx.new).2.pkts =
      .ok ((h.map Prod.fst).flatMap fun d => blocks size d ++ [leftover size d], none) := by
  have h1 := c30_usb_send_framing h hok
  have hsm := send_history_small h UsbTx.new (by simp [UsbTx.new])
  obtain ⟨h2, _⟩ := inTransfers_eq size hs h64 _ hsm [] (by simp)
  have z1 : blocks size ([] : Bytes) = [] := blocks_lt (by simpa using hs)
  have z2 : leftover size ([] : Bytes) = [] := leftover_lt (by simpa using hs)
  rw [h1, sent_nonempty hne] at h2
  simp only [z1, z2, List.nil_append, List.append_nil] at h2
  rw [webReceived, inResults_aligned size h64 _ hsm [] (by simp) (by simpa using hs), web_data_nil, h2]

example : webReceived 64 (send_history [(List.replicate 64 1#8, allOk), ([2#8], allOk)] UsbTx.new).2.pkts =
    .ok ([List.replicate 64 1#8, [], [2#8]], none) := by decide +kernel

/-- C56, what holds: frames that are shorter than the transfer length, or equal to it when that is not a multiple of 64,
are received exactly and no error arises.  Missing: longer frames. -/
theorem c56_webusb_receive_partial (size : Nat) (hs : 0 < size) (h : List (Bytes × (Nat → WriteOut)))
    (hok : ∀ r ∈ (send_history h UsbTx.new).1, r = .Ok)
    (hne : ∀ x ∈ h, x.1 ≠ [] ∧ x.1.length ≤ size ∧ (64 ∣ size → x.1.length ≠ size)) :
    webReceived size (send_history h UsbTx.new).2.pkts = .ok (h.map Prod.fst, none) := by
  have hl : ∀ d ∈ h.map Prod.fst, d.length ≤ size ∧ (64 ∣ size → d.length ≠ size) := by
    intro d hd
    obtain ⟨x, hx, rfl⟩ := List.mem_map.mp hd
    exact (hne x hx).2
  by_cases h64 : 64 ∣ size
  · rw [c56_webusb_blocks size hs h64 h hok fun x hx => (hne x hx).1]
    have : ∀ l : List Bytes, (∀ d ∈ l, d.length ≤ size ∧ (64 ∣ size → d.length ≠ size)) →
        (l.flatMap fun d => blocks size d ++ [leftover size d]) = l := by
      intro l
      induction l with
      | nil => intro _; rfl
      | cons d l ih =>
        intro hl
        have h3 := hl d (by simp)
        have h4 : d.length < size := by
          have := h3.2 h64
          omega
        rw [List.flatMap_cons, ih fun x hx => hl x (List.mem_cons_of_mem _ hx), blocks_lt h4, leftover_lt h4]
        rfl
    rw [this _ hl]
  · have h1 := c30_usb_send_framing h hok
    rw [sent_nonempty fun x hx => (hne x hx).1] at h1
    rw [webReceived, inResults_misaligned size h64 _ (send_history_small h UsbTx.new (by simp [UsbTx.new])) []
      (by simp) (by rw [h1]), h1, cutAt_all fun d hd => (hl d hd).1, web_data_nil]

example : webReceived 65 (send_history [(List.replicate 65 1#8, allOk), ([2#8], allOk)] UsbTx.new).2.pkts =
    .ok ([List.replicate 65 1#8, [2#8]], none) := by decide +kernel

/-- C56, one transfer: a call never panics; it returns a message exactly when the transfer completed with status `ok`, and
then the message is its data (nothing for a missing buffer); a failed transfer is reported with its own cause. -/
theorem c56_webusb_outcomes (r : Js WebIn) :
    (∃ x, webusb_receive r = .ok x) ∧
    (∀ d, webusb_receive r = .ok (.ok d) ↔ ∃ b, r = .resolved ⟨.Ok, b⟩ ∧ d = b.getD []) ∧
    (webusb_receive r = .ok (.error .Browser) ↔ r = .rejected) ∧
    (webusb_receive r = .ok (.error (.UsbTransfer "stall")) ↔ ∃ b, r = .resolved ⟨.Stall, b⟩) ∧
    (webusb_receive r = .ok (.error (.UsbTransfer "babble")) ↔ ∃ b, r = .resolved ⟨.Babble, b⟩) ∧
    (webusb_receive r = .ok (.error (.UsbTransfer "unknown")) ↔ ∃ b, r = .resolved ⟨.other, b⟩) := by
  cases r with
  | rejected => simp [webusb_receive]
  | resolved w =>
    obtain ⟨st, b⟩ := w
    cases st <;> cases b <;> simp [webusb_receive, WebErr.from_status, eq_comm]

/-- C56, a sequence of transfers: the messages are the data of the transfers before the first that did not complete with
status `ok`, and that one gives the error. -/
theorem c56_webusb_first_error (before : List (Option Bytes)) (bad : Js WebIn) (after : List (Js WebIn))
    (hbad : ∀ b, bad ≠ .resolved ⟨.Ok, b⟩) :
    ∃ e, webusb_receive bad = .ok (.error e) ∧
      webusb_receive_loop (before.map (fun b => .resolved ⟨.Ok, b⟩) ++ bad :: after) =
        .ok (before.map (·.getD []), some e) := by
  have he : ∃ e, webusb_receive bad = .ok (.error e) := by
    obtain ⟨⟨x, hx⟩, h, _⟩ := c56_webusb_outcomes bad
    cases x with
    | error e => exact ⟨e, hx⟩
    | ok d =>
      obtain ⟨b, hb, _⟩ := (h d).mp hx
      exact absurd hb (hbad b)
  obtain ⟨e, he⟩ := he
  refine ⟨e, he, ?_⟩
  induction before with
  | nil => simp [webusb_receive_loop, he]
  | cons b l ih =>
    have := ((c56_webusb_outcomes (.resolved ⟨.Ok, b⟩)).2.1 (b.getD [])).mpr ⟨b, rfl, rfl⟩
    simp [webusb_receive_loop, this, ih]

example : webusb_receive_loop [.resolved ⟨.Ok, some [1#8]⟩, .resolved ⟨.Ok, none⟩, .rejected, .resolved ⟨.Ok, none⟩] =
    .ok ([[1#8], []], some .Browser) := by decide

/-- C56 is false. -/
theorem c56_webusb_receive_false : ¬ C56Full := by
  intro h
  have h1 := h 1 (by omega) [([1#8, 2#8], allOk)] (by decide +kernel) (by decide)
  rw [c56_webusb_babble 1 (by decide) [([1#8, 2#8], allOk)] (by decide +kernel) (by decide) [] [] [1#8, 2#8] rfl (by simp)
    (by decide)] at h1
  simp at h1

/-! ### C57: sending over WebUSB -/

/-- C57 as stated: `send` reports success only if the device took the whole frame. -/
def C57Full : Prop :=
  ∀ (data : Bytes) (throws : Bool) (p : Js WebOut), webusb_send_result throws p = none →
    throws = false ∧ p = .resolved ⟨.Ok, data.length⟩

/-- C57 is false: a transfer the device stalled, with no byte written, is reported as sent. -/
theorem c57_webusb_send_false : ¬ C57Full := by
  intro h
  have := (h [1#8] false (.resolved ⟨.Stall, 0⟩) rfl).2
  cases this

/-- C57, what holds: errors the browser raises, at the call or afterwards, are reported, and a complete transfer is
reported as success.  Missing: transfers that complete with a status other than `ok`. -/
theorem c57_webusb_send_partial (throws : Bool) (p : Js WebOut) :
    (throws = true ∨ p = .rejected → webusb_send_result throws p = some .Browser) ∧
    (∀ n, throws = false → p = .resolved ⟨.Ok, n⟩ → webusb_send_result throws p = none) := by
  refine ⟨?_, ?_⟩
  · rintro (rfl | rfl)
    · rfl
    · cases throws <;> rfl
  · rintro n rfl rfl
    rfl

/-- C57, exactly when `send` returns `Ok`: the browser neither threw nor rejected; status and number of bytes do not matter. -/
theorem c57_webusb_send_iff (throws : Bool) (p : Js WebOut) :
    webusb_send_result throws p = none ↔ throws = false ∧ ∃ r, p = .resolved r := by
  cases throws <;> cases p <;> simp [webusb_send_result]

example : webusb_send_result false (.resolved ⟨.Stall, 3⟩) = none ∧ webusb_send_result true (.resolved ⟨.Ok, 3⟩) ≠ none := by decide

example : webusb_send_result false (.resolved ⟨.Ok, 9⟩) = none ∧ webusb_send_result false .rejected = some .Browser :=
  ⟨rfl, rfl⟩

end PRpc.Props
