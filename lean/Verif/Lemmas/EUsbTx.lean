import Verif.Lemmas.LogFmt
import Verif.Lemmas.Usb
import Verif.Lemmas.MinKey
import Verif.Props.Header
import Verif.Spec.EUsbTx
/-! Helper lemmas: the USB transmitter's operations. -/

namespace PRpc

open Spec

theorem log_key_bytes (k : Key) (n : VarKeyKind) : keyBytes (log_key k n) = short (keyLen n) k := by
  have : log_key k n = (VarKey.Key8 k).shrink_to n := by cases n <;> rfl
  rw [this, short_shrink]

theorem log_key_length (k : Key) (n : VarKeyKind) : (keyBytes (log_key k n)).length = keyLen n := by
  cases n <;> rfl

theorem layout_encOf (h : VarHeader) : (encOf h).map BitVec.toNat = layout h := by
  obtain ⟨bs, e, l, _⟩ := Props.c04_header_layout h
  rw [write_to_vec_eq] at e
  cases e
  exact l

theorem to_slice_length (m : Ser) (sl : Bytes) : (to_slice m sl).2.length = sl.length := by
  rw [to_slice]
  split
  · simp; omega
  · simp; omega

theorem write_chunks_other (o : Nat → WriteOut) (chs : List Bytes) (i : Nat) (t : UsbTx) :
    (write_chunks o i chs t).1 ≠ some .Other := by
  induction chs generalizing i t with
  | nil => simp [write_chunks]
  | cons c chs ih =>
    rw [write_chunks]
    cases o i with
    | ok => simpa [ep_write] using ih _ _
    | err w => simp [ep_write]
    | cut w => simp [ep_write]

theorem send_body_other (o : Nat → WriteOut) (i : Nat) (out : Bytes) (t : UsbTx) : (send_body o i out t).1 ≠ .Other := by
  have h0 := write_chunks_other o (chunks64 out) i { t with pending_frame := true }
  rw [send_body]
  generalize write_chunks o i (chunks64 out) { t with pending_frame := true } = q at *
  obtain ⟨r, t'⟩ := q
  cases r with
  | some r => intro e; exact h0 (by simpa using e)
  | none =>
    simp only
    split
    · cases o (i + (chunks64 out).length) <;> simp [ep_write]
    · simp

theorem send_all_other (o : Nat → WriteOut) (out : Bytes) (t : UsbTx) : (send_all o out t).1 ≠ .Other := by
  rw [send_all]
  split
  · simp
  · split
    · cases o 0 with
      | ok => exact send_body_other _ _ _ _
      | err w => simp [ep_write]
      | cut w => simp [ep_write]
    · exact send_body_other _ _ _ _

/-- `send` and `send_log_str`: refused without touching the endpoint, or the whole message is sent. -/
theorem eusb_send_msg_spec (o : Nat → WriteOut) (hdr : VarHeader) (m : Ser) (t : EUsbTx) :
    ∃ r t', eusb_send_msg o hdr m t = .ok (r, t') ∧ t'.tx_buf.length = t.tx_buf.length ∧ t'.log_seq = t.log_seq ∧
      ((m.fails = true ∨ t.tx_buf.length < encLen hdr + m.bytes.length) → r = .Other ∧ t'.ep = t.ep) ∧
      (¬ (m.fails = true ∨ t.tx_buf.length < encLen hdr + m.bytes.length) →
        (r, t'.ep) = send_all o (encOf hdr ++ m.bytes) t.ep) := by
  by_cases hfit : encLen hdr ≤ t.tx_buf.length
  · rw [eusb_send_msg, write_to_slice_fits _ _ hfit]
    simp only [Exec.ok_bind]
    have hl := to_slice_length m (t.tx_buf.drop (encLen hdr))
    have hel := encOf_length hdr
    by_cases hb : m.fails = false ∧ m.bytes.length ≤ (t.tx_buf.drop (encLen hdr)).length
    · have e : to_slice m (t.tx_buf.drop (encLen hdr)) =
          (some m.bytes, m.bytes ++ (t.tx_buf.drop (encLen hdr)).drop m.bytes.length) := if_pos hb
      rw [e] at hl ⊢
      simp only at hl ⊢
      have hb2 := hb.2
      rw [List.length_drop] at hl hb2
      rw [if_pos (by rw [List.length_append, List.length_append]; omega)]
      refine ⟨_, _, rfl, ?_, rfl, fun h => ?_, fun _ => ?_⟩
      · simp only [List.length_append] at hl ⊢; omega
      · rcases h with h | h
        · rw [hb.1] at h; cases h
        · omega
      · simp only
        rw [← List.append_assoc, List.take_left' (by rw [List.length_append])]
    · have e : (to_slice m (t.tx_buf.drop (encLen hdr))).1 = none := by rw [to_slice, if_neg hb]
      generalize to_slice m (t.tx_buf.drop (encLen hdr)) = q at *
      obtain ⟨q1, q2⟩ := q
      simp only at e hl
      subst e
      refine ⟨_, _, rfl, ?_, rfl, fun _ => ⟨rfl, rfl⟩, fun h => ?_⟩
      · rw [List.length_drop] at hl
        simp only [List.length_append]; omega
      · exfalso
        rw [List.length_drop] at hb
        apply hb
        constructor
        · cases hf : m.fails with
          | false => rfl
          | true => exact absurd (.inl hf) h
        · have := fun q => h (.inr q)
          omega
  · obtain ⟨b', e, hb⟩ := write_to_slice_short hdr t.tx_buf (by omega)
    rw [eusb_send_msg, e]
    refine ⟨_, _, rfl, hb, rfl, fun _ => ⟨rfl, rfl⟩, fun h => ?_⟩
    exfalso
    exact h (.inr (by omega))

/-- One operation that does not panic. -/
theorem eusb_op_spec (w : Nat) (hw : 0 < w) (logging : Key) (op : TxOp) (o : Nat → WriteOut) (t : EUsbTx)
    (htx : t.tx_buf.length < 2 ^ (8 * w)) (n : Nat) (hn : t.log_seq = BitVec.ofNat 16 n)
    (hs : ∀ kk s k, op = .send_log_str kk s k → s.length < 2 ^ (8 * w)) :
    (LogPanics w t.tx_buf.length op → eusb_op w logging op o t = .panic) ∧
    (¬ LogPanics w t.tx_buf.length op → ∃ r t', eusb_op w logging op o t = .ok (r, t') ∧
      t'.tx_buf.length = t.tx_buf.length ∧ t'.log_seq = BitVec.ofNat 16 (n + if isLog op then 1 else 0) ∧
      (Refused w t.tx_buf.length op → r = .Other ∧ t'.ep = t.ep) ∧
      (¬ Refused w t.tx_buf.length op → ∃ f, FrameOf w t.tx_buf.length logging n op f ∧
        (r, t'.ep) = send_all o f t.ep)) := by
  have hinc : t.log_seq + 1#16 = BitVec.ofNat 16 (n + 1) := by
    rw [hn]
    apply BitVec.eq_of_toNat_eq
    simp
  cases op with
  | send hdr m =>
    refine ⟨fun h => h.elim, fun _ => ?_⟩
    obtain ⟨r, t', e, h1, h2, h3, h4⟩ := eusb_send_msg_spec o hdr m t
    refine ⟨r, t', e, h1, by rw [h2, hn]; rfl, h3, fun h => ⟨_, ⟨_, layout_encOf hdr, rfl, ?_⟩, h4 h⟩⟩
    rw [List.length_append, encOf_length]
    exact Nat.not_lt.mp fun q => h (.inr q)
  | send_raw buf =>
    refine ⟨fun h => h.elim, fun _ => ?_⟩
    exact ⟨_, _, rfl, rfl, hn, fun h => h.elim, fun _ => ⟨buf, rfl, rfl⟩⟩
  | send_log_str kk s k =>
    refine ⟨fun h => h.elim, fun _ => ?_⟩
    have hs := hs kk s k rfl
    obtain ⟨r, t', e, h1, h2, h3, h4⟩ := eusb_send_msg_spec o ⟨log_key logging kk, .Seq2 t.log_seq⟩ (ser_str w s k)
      { t with log_seq := t.log_seq + 1#16 }
    have hlen : encLen ⟨log_key logging kk, .Seq2 t.log_seq⟩ = 3 + keyLen kk := by
      simp only [encLen, log_key_length, seqWidth]; omega
    have hvl : ∀ d, 0 < d → ((varint_usize w s.length).length ≤ d ↔ s.length < 128 ^ d) := fun d hd =>
      varint_loop_len _ _ _ (usize_lt_varint w _ hs) hd
    have hvp : 0 < (varint_usize w s.length).length :=
      List.length_pos_iff.mpr (varint_loop_ne _ _ (by simp only [varint_max]; omega))
    have hiff : ((ser_str w s k).fails = true ∨ t.tx_buf.length < encLen ⟨log_key logging kk, .Seq2 t.log_seq⟩ +
        (ser_str w s k).bytes.length) ↔ Refused w t.tx_buf.length (.send_log_str kk s k) := by
      simp only [ser_str, Bool.false_eq_true, false_or, List.length_append, hlen, Refused]
      constructor
      · intro h d hd hlt
        have := (hvl d hd).mpr hlt
        omega
      · intro h
        have := h _ hvp ((hvl _ hvp).mp (Nat.le_refl _))
        omega
    refine ⟨r, t', e, h1, by rw [h2]; exact hinc, fun h => h3 (hiff.mpr h), fun h => ⟨_, ?_, h4 (fun q => h (hiff.mp q))⟩⟩
    refine ⟨_, _, ⟨log_key logging kk, log_key_bytes _ _, ?_⟩, rfl, ?_, ?_⟩
    · rw [layout_encOf, hn]
    · exact is_text hw hs
    · rw [List.length_append, encOf_length]
      exact Nat.not_lt.mp fun q => h (hiff.mp (.inr q))
  | send_log_fmt kk pieces fails =>
    obtain ⟨c1, c2⟩ := log_fmt_buf_cases w hw t.tx_buf htx (log_key logging kk) t.log_seq pieces fails
    have hlen : (encOf ⟨log_key logging kk, .Seq2 t.log_seq⟩).length = 3 + keyLen kk := by
      rw [encOf_length]
      simp only [encLen, log_key_length, seqWidth]; omega
    rw [hlen] at c1 c2
    have hres : ∀ r, actual_varint_max_len w r = reserved w r := by
      intro r
      simp only [reserved, actual_varint_max_len, varint_max, Nat.mul_comm 8 w]
      rfl
    simp only [hres] at c1 c2
    by_cases href : Refused w t.tx_buf.length (.send_log_fmt kk pieces fails)
    · refine ⟨fun h => absurd href h.1, fun _ => ?_⟩
      obtain ⟨b, hb, e⟩ := c1 href
      refine ⟨.Other, { t with log_seq := t.log_seq + 1#16, tx_buf := b }, ?_, hb, hinc, fun _ => ⟨rfl, rfl⟩,
        fun h => absurd href h⟩
      simp only [eusb_op, e, Exec.ok_bind]
    · have h1 : 3 + keyLen kk ≤ t.tx_buf.length := Nat.not_lt.mp fun q => href (.inl q)
      have h2 : reserved w (t.tx_buf.length - (3 + keyLen kk)) ≤ t.tx_buf.length - (3 + keyLen kk) :=
        Nat.not_lt.mp fun q => href (.inr q)
      obtain ⟨c3, c4⟩ := c2 h1 h2
      constructor
      · intro h
        simp only [eusb_op, c3 h.2, Exec.panic_bind]
      · intro h
        obtain ⟨b, rest, e, ht, hl⟩ := c4 (Nat.not_lt.mp fun q => h ⟨href, .inl q⟩) (Nat.not_le.mp fun q => h ⟨href, .inr q⟩)
        refine ⟨(send_all o (encOf ⟨log_key logging kk, .Seq2 t.log_seq⟩ ++ b) t.ep).1,
          ⟨(send_all o (encOf ⟨log_key logging kk, .Seq2 t.log_seq⟩ ++ b) t.ep).2, t.log_seq + 1#16, _⟩, ?_, hl, hinc,
          fun q => absurd q href, fun _ => ⟨encOf ⟨log_key logging kk, .Seq2 t.log_seq⟩ ++ b, ?_, rfl⟩⟩
        · simp only [eusb_op, e, Exec.ok_bind, List.take_left]
        · refine ⟨_, _, ⟨log_key logging kk, log_key_bytes _ _, ?_⟩, rfl, ?_, ?_⟩
          · rw [layout_encOf, hn]
          · rw [hlen]; exact ht
          · have := hl
            simp only [List.length_append] at this ⊢
            omega

/-- Whole histories. -/
theorem eusb_run_spec (w : Nat) (hw : 0 < w) (logging : Key) (cap : Nat) (hcap : cap < 2 ^ (8 * w))
    (ops : List (TxOp × (Nat → WriteOut))) (hs : ∀ x ∈ ops, ∀ kk s k, x.1 = .send_log_str kk s k → s.length < 2 ^ (8 * w))
    (t : EUsbTx) (ht : t.tx_buf.length = cap) (n : Nat) (hn : t.log_seq = BitVec.ofNat 16 n) (hinv : TxInv t.ep) :
    ((∃ x ∈ ops, LogPanics w cap x.1) → eusb_run w logging ops t = .panic) ∧
    ((∀ x ∈ ops, ¬ LogPanics w cap x.1) → ∃ rs t', eusb_run w logging ops t = .ok (rs, t') ∧
      rs.length = ops.length ∧ ∃ cs : List (Option Bytes), cs.length = ops.length ∧
        view t'.ep.pkts = view t.ep.pkts ++ cs.flatMap Option.toList ∧
        ∀ (i : Nat) (op : TxOp) (o : Nat → WriteOut) (r : TxRes) (c : Option Bytes), ops[i]? = some (op, o) →
          rs[i]? = some r → cs[i]? = some c →
          (Refused w cap op → r = .Other ∧ c = none) ∧
          (¬ Refused w cap op → r ≠ .Other ∧
            ∃ f, FrameOf w cap logging (n + ((ops.take i).countP fun x => isLog x.1)) op f ∧ Contrib f r c)) := by
  induction ops generalizing t n with
  | nil => exact ⟨fun h => by obtain ⟨_, h, _⟩ := h; simp at h, fun _ => ⟨[], t, rfl, rfl, [], rfl, by simp, by simp⟩⟩
  | cons x ops ih =>
    obtain ⟨op, o⟩ := x
    obtain ⟨p1, p2⟩ := eusb_op_spec w hw logging op o t (by omega) n hn (hs (op, o) (List.mem_cons_self ..))
    rw [ht] at p1 p2
    rw [eusb_run]
    by_cases hp : LogPanics w cap op
    · refine ⟨fun _ => by rw [p1 hp]; rfl, fun h => absurd hp (h (op, o) (List.mem_cons_self ..))⟩
    · obtain ⟨r, t', e, q1, q2, q3, q4⟩ := p2 hp
      have hcontrib : TxInv t'.ep ∧ ∃ c, view t'.ep.pkts = view t.ep.pkts ++ c.toList ∧
          (Refused w cap op → r = .Other ∧ c = none) ∧
          (¬ Refused w cap op → r ≠ .Other ∧ ∃ f, FrameOf w cap logging n op f ∧ Contrib f r c) := by
        by_cases href : Refused w cap op
        · obtain ⟨r1, r2⟩ := q3 href
          rw [r2]
          exact ⟨hinv, none, by simp, fun _ => ⟨r1, rfl⟩, fun h => absurd href h⟩
        · obtain ⟨f, f1, f2⟩ := q4 href
          obtain ⟨a, ⟨c, c1, c2⟩, _⟩ := send_all_spec o f t.ep hinv
          rw [← f2] at a c1 c2
          refine ⟨a, c, c2, fun h => absurd h href, fun _ => ⟨?_, f, f1, c1⟩⟩
          have := send_all_other o f t.ep
          rw [← f2] at this
          exact this
      obtain ⟨hinv', c, hv, hc1, hc2⟩ := hcontrib
      obtain ⟨i1, i2⟩ := ih (fun x hx => hs x (List.mem_cons_of_mem _ hx)) t' (by omega) _ q2 hinv'
      rw [e]
      simp only [Exec.ok_bind]
      constructor
      · rintro ⟨x, hx, hxp⟩
        rcases List.mem_cons.mp hx with rfl | hx
        · exact absurd hxp hp
        · rw [i1 ⟨x, hx, hxp⟩]; rfl
      · intro h
        obtain ⟨rs, t'', e2, hl, cs, hcl, hcv, hall⟩ := i2 fun x hx => h x (List.mem_cons_of_mem _ hx)
        refine ⟨r :: rs, t'', by rw [e2]; rfl, by simp [hl], c :: cs, by simp [hcl], by rw [hcv, hv]; simp, ?_⟩
        intro i op' o' r' c' h1 h2 h3
        cases i with
        | zero =>
          simp only [List.getElem?_cons_zero, Option.some.injEq, Prod.mk.injEq] at h1 h2 h3
          obtain ⟨rfl, rfl⟩ := h1
          subst h2 h3
          simpa using ⟨hc1, hc2⟩
        | succ i =>
          simp only [List.getElem?_cons_succ] at h1 h2 h3
          have := hall i op' o' r' c' h1 h2 h3
          rw [List.take_succ_cons, List.countP_cons]
          have e3 : n + ((ops.take i).countP (fun x => isLog x.1) + if isLog op = true then 1 else 0) =
            n + (if isLog op = true then 1 else 0) + (ops.take i).countP (fun x => isLog x.1) := by omega
          rw [e3]
          exact this

end PRpc
