import Verif.Lemmas.EUsbTx
/-!
Property theorems C53 and C54: the USB server transmitter as a whole.

A history is a list of operations, each with the outcomes of its packet writes.  `Spec.FrameOf w cap logging n op f` says
which bytes `f` the operation `op` stands for when `n` log messages were attempted before it, `Spec.Refused` which
operations have to be refused because the message cannot be serialized into a buffer of `cap` bytes.
-/

namespace PRpc.Props

open PRpc PRpc.Spec

/-- Texts given to `send_log_str` are shorter than the address space. -/
def TextsFit (w : Nat) (ops : List (TxOp × (Nat → WriteOut))) : Prop :=
  ∀ x ∈ ops, ∀ kk s k, x.1 = .send_log_str kk s k → s.length < 2 ^ (8 * w)

/-- C53: in every history that does not panic, an operation that must be refused returns `Other` and puts nothing on the
bus; every other one puts a prefix of its own frame on the bus, the whole frame if it returns `Ok`, and never returns
`Other`.  The transfers the host sees are those, in order.  What earlier operations left in the transmit buffer
(`buf` is arbitrary too) never shows. -/
theorem c53_usb_messages (w : Nat) (hw : 0 < w) (logging : Key) (buf : Bytes) (hcap : buf.length < 2 ^ (8 * w))
    (ops : List (TxOp × (Nat → WriteOut))) (hs : TextsFit w ops) (rs : List TxRes) (t : EUsbTx)
    (hrun : eusb_run w logging ops (EUsbTx.new buf) = .ok (rs, t)) :
    rs.length = ops.length ∧ ∃ cs : List (Option Bytes), cs.length = ops.length ∧
      ((transfers [] t.ep.pkts).1 ++ [(transfers [] t.ep.pkts).2]).filter (fun x => !x.isEmpty) =
        cs.flatMap Option.toList ∧
      ∀ (i : Nat) (op : TxOp) (o : Nat → WriteOut) (r : TxRes) (c : Option Bytes), ops[i]? = some (op, o) →
        rs[i]? = some r → cs[i]? = some c →
        (Refused w buf.length op → r = .Other ∧ c = none) ∧
        (¬ Refused w buf.length op → r ≠ .Other ∧
          ∃ f, FrameOf w buf.length logging ((ops.take i).countP fun x => isLog x.1) op f ∧
            (∀ p, c = some p → p <+: f ∧ p ≠ []) ∧ (r = .Ok → c = if f = [] then none else some f)) := by
  obtain ⟨h1, h2⟩ := eusb_run_spec w hw logging buf.length hcap ops hs (EUsbTx.new buf) rfl 0 rfl txInv_new
  by_cases hp : ∃ x ∈ ops, LogPanics w buf.length x.1
  · rw [h1 hp] at hrun; cases hrun
  · obtain ⟨rs', t', e, hl, cs, hcl, hv, hall⟩ := h2 fun x hx q => hp ⟨x, hx, q⟩
    rw [hrun] at e
    cases e
    refine ⟨hl, cs, hcl, ?_, ?_⟩
    · have : view (EUsbTx.new buf).ep.pkts = [] := rfl
      rw [this] at hv
      exact hv
    · intro i op o r c e1 e2 e3
      have := hall i op o r c e1 e2 e3
      rw [Nat.zero_add] at this
      exact this

/-- C53 (panics): a history panics exactly if it contains a formatted log message that does (see C34); no other operation
ever panics. -/
theorem c53_usb_panics_iff (w : Nat) (hw : 0 < w) (logging : Key) (buf : Bytes) (hcap : buf.length < 2 ^ (8 * w))
    (ops : List (TxOp × (Nat → WriteOut))) (hs : TextsFit w ops) :
    eusb_run w logging ops (EUsbTx.new buf) = .panic ↔ ∃ x ∈ ops, LogPanics w buf.length x.1 := by
  obtain ⟨h1, h2⟩ := eusb_run_spec w hw logging buf.length hcap ops hs (EUsbTx.new buf) rfl 0 rfl txInv_new
  refine ⟨fun h => ?_, h1⟩
  by_cases hp : ∃ x ∈ ops, LogPanics w buf.length x.1
  · exact hp
  · obtain ⟨rs', t', e, _⟩ := h2 fun x hx q => hp ⟨x, hx, q⟩
    rw [h] at e; cases e

/-- A message, an unsuccessful log message (no room), a message cut after its only packet, a log text. -/
def exOps : List (TxOp × (Nat → WriteOut)) :=
  [(.send ⟨.Key1 ⟨7#8⟩, .Seq1 1#8⟩ ⟨[1#8, 2#8, 3#8], false, 0⟩, fun _ => .ok),
   (.send_log_str .Key1 [97#8, 98#8, 99#8, 100#8] 2, fun _ => .ok),
   (.send_raw [5#8, 6#8], fun _ => .cut true),
   (.send_log_str .Key1 [97#8] 0, fun _ => .ok),
   (.send_log_fmt .Key2 [[98#8]] false, fun _ => .ok)]

example : (match eusb_run 4 ⟨1#8, 2#8, 0#8, 0#8, 0#8, 0#8, 0#8, 0#8⟩ exOps (EUsbTx.new (List.replicate 8 0xAA#8)) with
    | .ok (rs, t) => (rs, t.ep.pkts, t.log_seq)
    | .panic => ([], [], 0)) =
    ([.Ok, .Other, .Timeout, .Ok, .Ok],
     [[0#8, 7#8, 1#8, 1#8, 2#8, 3#8], [5#8, 6#8], [], [0x10#8, 3#8, 1#8, 0#8, 1#8, 97#8],
      [0x50#8, 3#8, 0#8, 2#8, 0#8, 1#8, 98#8]], 3#16) := by decide +kernel

example : TextsFit 4 exOps := by
  intro x hx kk s k e
  simp only [exOps, List.mem_cons, List.not_mem_nil, or_false] at hx
  rcases hx with rfl | rfl | rfl | rfl | rfl <;> simp at e <;> (obtain ⟨_, rfl, _⟩ := e; decide)

/-- A frame of a log message decodes to a header with the message's number and the log topic's key. -/
theorem logFrame_decode {w cap : Nat} {logging : Key} {n : Nat} {op : TxOp} {f : Bytes}
    (h : FrameOf w cap logging n op f) (hl : isLog op = true) :
    ∃ hdr b, VarHeader.take_from_slice f = .ok (some (hdr, b)) ∧ seqVal hdr.seq_no = n % 2 ^ 16 ∧ f ≠ [] := by
  have key : ∀ kk hb b, IsLogHeader logging kk n hb → f = hb ++ b →
      ∃ hdr b, VarHeader.take_from_slice f = .ok (some (hdr, b)) ∧ seqVal hdr.seq_no = n % 2 ^ 16 ∧ f ≠ [] := by
    rintro kk hb b ⟨k, _, hb2⟩ rfl
    rw [← layout_encOf] at hb2
    have e : hb = encOf ⟨k, .Seq2 (BitVec.ofNat 16 n)⟩ :=
      List.map_inj_right (fun _ _ h => BitVec.eq_of_toNat_eq h) |>.mp hb2
    subst e
    refine ⟨_, b, take_enc _ _, by simp [seqVal], ?_⟩
    intro e
    have := congrArg List.length e
    simp [encOf_length, encLen] at this
  cases op with
  | send => cases hl
  | send_raw => cases hl
  | send_log_str kk s k => obtain ⟨hb, b, h1, h2, _, _⟩ := h; exact key kk hb b h1 h2
  | send_log_fmt kk ps fl => obtain ⟨hb, b, h1, h2, _, _⟩ := h; exact key kk hb b h1 h2

/-- C54: of any two log messages the host receives whole, the sequence numbers differ, modulo 65536, by exactly the number
of log messages attempted from the first to the second; so messages that were refused or cut show as gaps, unless a
multiple of 65536 are missing in a row. -/
theorem c54_log_gaps (w : Nat) (hw : 0 < w) (logging : Key) (buf : Bytes) (hcap : buf.length < 2 ^ (8 * w))
    (ops : List (TxOp × (Nat → WriteOut))) (hs : TextsFit w ops) (rs : List TxRes) (t : EUsbTx)
    (hrun : eusb_run w logging ops (EUsbTx.new buf) = .ok (rs, t)) :
    ∃ cs : List (Option Bytes), cs.length = ops.length ∧
      ((transfers [] t.ep.pkts).1 ++ [(transfers [] t.ep.pkts).2]).filter (fun x => !x.isEmpty) =
        cs.flatMap Option.toList ∧
      ∀ (i j : Nat) (oi oj : TxOp × (Nat → WriteOut)), i ≤ j → ops[i]? = some oi → ops[j]? = some oj →
        isLog oi.1 = true → isLog oj.1 = true → rs[i]? = some TxRes.Ok → rs[j]? = some TxRes.Ok →
        ∃ (fi fj : Bytes) (hi hj : VarHeader) (bi bj : Bytes), cs[i]? = some (some fi) ∧ cs[j]? = some (some fj) ∧
          VarHeader.take_from_slice fi = .ok (some (hi, bi)) ∧ VarHeader.take_from_slice fj = .ok (some (hj, bj)) ∧
          seqVal hj.seq_no =
            (seqVal hi.seq_no + ((ops.take j).drop i).countP fun x => isLog x.1) % 2 ^ 16 := by
  obtain ⟨_, cs, hcl, hv, hall⟩ := c53_usb_messages w hw logging buf hcap ops hs rs t hrun
  refine ⟨cs, hcl, hv, ?_⟩
  have one : ∀ (i : Nat) (x : TxOp × (Nat → WriteOut)), ops[i]? = some x → isLog x.1 = true →
      rs[i]? = some TxRes.Ok → ∃ (f : Bytes) (hd : VarHeader) (b : Bytes), cs[i]? = some (some f) ∧
        VarHeader.take_from_slice f = .ok (some (hd, b)) ∧
        seqVal hd.seq_no = ((ops.take i).countP fun x => isLog x.1) % 2 ^ 16 := by
    intro i x hx hl hr
    have hi : i < cs.length := by
      rw [hcl]
      exact (List.getElem?_eq_some_iff.mp hx).1
    obtain ⟨a, b⟩ := hall i x.1 x.2 .Ok cs[i] hx hr (List.getElem?_eq_getElem hi)
    by_cases href : Refused w buf.length x.1
    · cases (a href).1
    · obtain ⟨_, f, f1, _, f2⟩ := b href
      obtain ⟨hd, b, g1, g2, g3⟩ := logFrame_decode f1 hl
      refine ⟨f, hd, b, ?_, g1, g2⟩
      rw [List.getElem?_eq_getElem hi, f2 rfl, if_neg g3]
  intro i j oi oj hij h1 h2 h3 h4 h5 h6
  obtain ⟨fi, hi, bi, a1, a2, a3⟩ := one i oi h1 h3 h5
  obtain ⟨fj, hj, bj, b1, b2, b3⟩ := one j oj h2 h4 h6
  refine ⟨fi, fj, hi, hj, bi, bj, a1, b1, a2, b2, ?_⟩
  rw [a3, b3]
  have : (ops.take j).countP (fun x => isLog x.1) = (ops.take i).countP (fun x => isLog x.1) +
      ((ops.take j).drop i).countP fun x => isLog x.1 := by
    rw [← List.countP_append]
    congr 1
    have := List.take_append_drop i (ops.take j)
    rw [List.take_take, Nat.min_eq_left hij] at this
    exact this.symm
  rw [this]
  omega

/-- In the history above the log messages at positions 3 and 4 are received with numbers 1 and 2; number 0 was refused. -/
example : exOps[3]?.map (fun x => isLog x.1) = some true ∧ exOps[4]?.map (fun x => isLog x.1) = some true ∧
    ((exOps.take 4).drop 3).countP (fun x => isLog x.1) = 1 := by decide

end PRpc.Props
