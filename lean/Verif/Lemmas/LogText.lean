import Verif.Spec.Logging
import Verif.Lemmas.LogFmt
import Verif.Lemmas.EUsbTx
import Verif.Lemmas.Postcard
/-! Helper lemmas for C95: the texts as bytes. -/

namespace PRpc

open Spec

/-! ### The texts -/

/-- The text of a message. -/
def msg_text : LgVal → Bytes
  | .num _ => []
  | .hello => hello_text
  | .formatted ctr => formatted_text ctr

theorem and_one (k : Nat) : BitVec.ofNat 16 k &&& 0b1#16 ≠ 0#16 ↔ k % 2 = 1 := by
  rw [Ne, ← BitVec.toNat_inj, BitVec.toNat_and, BitVec.toNat_ofNat]
  show ¬ (k % 2 ^ 16 &&& 1) = 0 ↔ _
  rw [Nat.and_one_is_mod]
  omega

theorem msg_logged (k : Nat) : msg_text (log_msg (BitVec.ofNat 16 k)) = logged k := by
  unfold log_msg logged loggedText
  by_cases h : k % 2 = 1
  · rw [if_pos ((and_one k).mpr h), if_pos h]; rfl
  · rw [if_neg (fun h' => h ((and_one k).mp h')), if_neg h]
    show ascii _ = _
    rw [ascii, fmt_u16, BitVec.toNat_ofNat, String.toList_append]
    congr 2
    exact (String.toList_ofList).symm

theorem digit_small {c : Char} (h : c.isDigit = true) : c.toNat < 128 := by
  simp only [Char.isDigit, Bool.and_eq_true, decide_eq_true_eq] at h
  have : c.val.toNat ≤ '9'.val.toNat := UInt32.le_iff_toNat_le.mp h.2
  have h9 : '9'.val.toNat = 57 := rfl
  show c.val.toNat < 128
  omega

theorem ascii_small {s : List Char} (h : ∀ c ∈ s, c.toNat < 128) : ∀ b ∈ ascii s, b.toNat < 128 := by
  intro b hb
  obtain ⟨c, hc, rfl⟩ := List.mem_map.mp hb
  rw [BitVec.toNat_ofNat]
  exact Nat.lt_of_le_of_lt (Nat.mod_le _ _) (h c hc)

theorem msg_text_ascii (v : LgVal) : ∀ b ∈ msg_text v, b.toNat < 128 := by
  cases v with
  | num n => intro b hb; cases hb
  | hello => decide
  | formatted ctr =>
    refine ascii_small fun c hc => ?_
    rcases List.mem_append.mp hc with h | h
    · clear hc; revert c; decide
    · exact digit_small (Nat.isDigit_of_mem_toDigits (by decide) (by decide) h)

theorem msg_text_short (v : LgVal) : (msg_text v).length ≤ 16 := by
  cases v with
  | num n => exact Nat.zero_le _
  | hello => decide
  | formatted ctr =>
    have h : (Nat.toDigits 10 ctr.toNat).length ≤ 5 :=
      (Nat.length_toDigits_le_iff (by decide) (by decide)).mpr (Nat.lt_of_lt_of_le ctr.isLt (by decide))
    show (ascii _).length ≤ 16
    rw [ascii, List.length_map, List.length_append]
    have : "formatted: ".toList.length = 11 := by decide
    show _ + (Nat.toDigits 10 ctr.toNat).length ≤ 16
    omega

/-! ### The bytes -/

theorem room_two (n : VarKeyKind) (w : Nat) : actual_varint_max_len w (1024 - log_header_len n) = 2 := by
  cases n <;> rfl

theorem usize_big {w : Nat} (hw : w = 2 ∨ w = 4 ∨ w = 8) : 2 ^ 16 ≤ 2 ^ (8 * w) :=
  Nat.pow_le_pow_right (by decide) (by omega)

theorem usize_one {w n : Nat} (hw : 0 < w) (hn : n < 128) : varint_usize w n = [BitVec.ofNat 8 n] := by
  unfold varint_usize
  obtain ⟨f, hf⟩ : ∃ f, varint_max w = f + 1 := ⟨varint_max w - 1, by simp only [varint_max]; omega⟩
  rw [hf, varint_loop, if_pos hn]

theorem log_fmt_body_eq (w : Nat) (n : VarKeyKind) (t : Bytes) : log_fmt_body w (1024 - log_header_len n) t =
    ((if (varint_usize w t.length).length ≠ (blank_len_field 2).length then mark_last (varint_usize w t.length)
      else varint_usize w t.length) ++ (blank_len_field 2).drop
      (if (varint_usize w t.length).length ≠ (blank_len_field 2).length then mark_last (varint_usize w t.length)
      else varint_usize w t.length).length) ++ t := by
  unfold log_fmt_body
  rw [room_two]
  rfl

/-- The body of a formatted message is a text, and has one more byte than needed. -/
theorem fmt_body_text {w : Nat} (hw : w = 2 ∨ w = 4 ∨ w = 8) (n : VarKeyKind) {t : Bytes} (ht : t.length < 128) :
    IsText w (log_fmt_body w (1024 - log_header_len n) t) t ∧ (log_fmt_body w (1024 - log_header_len n) t).length = t.length + 2 := by
  have hbig := usize_big hw
  have hl : (varint_usize w t.length).length ≤ 2 := by rw [usize_one (by omega) ht]; simp
  obtain ⟨a1, a2, a3⟩ := len_field_leb w t.length 2 (by omega) (by omega) (by decide) t hl
  rw [log_fmt_body_eq]
  refine ⟨⟨a1, ?_⟩, ?_⟩
  · rw [List.length_append, a2]; omega
  · rw [List.length_append, a2]; omega

/-- It is read as that. -/
theorem fmt_body_reads {utf8 : Bytes → Bool} {wd wh : Nat} (hwd : wd = 2 ∨ wd = 4 ∨ wd = 8) (hwh : wh = 2 ∨ wh = 4 ∨ wh = 8) (n : VarKeyKind)
    {t : Bytes} (ht : t.length < 128) (hu : utf8 t = true) :
    Reads (take_str utf8 wh) (log_fmt_body wd (1024 - log_header_len n) t) t := by
  have hbig := usize_big hwd
  have hbig' := usize_big hwh
  have hl : (varint_usize wd t.length).length ≤ 2 := by rw [usize_one (by omega) ht]; simp
  rw [log_fmt_body_eq]
  have h1 : Reads (take_varint (varint_max wh) (2 ^ (8 * wh % 7) - 1))
      ((if (varint_usize wd t.length).length ≠ (blank_len_field 2).length then mark_last (varint_usize wd t.length)
        else varint_usize wd t.length) ++ (blank_len_field 2).drop
        (if (varint_usize wd t.length).length ≠ (blank_len_field 2).length then mark_last (varint_usize wd t.length)
        else varint_usize wd t.length).length) t.length := by
    intro r
    obtain ⟨a1, a2, _⟩ := len_field_leb wd t.length 2 (by omega) (by omega) (by decide) r hl
    obtain ⟨p1, p2⟩ := pow_split wh hwh
    refine take_varint_leb a1 ?_ (by rw [p1]; omega) p2
    rw [List.length_append, a2]
    simp only [varint_max]
    omega
  refine reads_bind h1 ?_
  have : Reads (if utf8 t = true then pure t else dec_fail) [] t := by rw [if_pos hu]; exact reads_pure t
  have := reads_bind (f := fun t => if utf8 t = true then pure t else dec_fail) (reads_take_n t) this
  rwa [List.append_nil] at this

/-- The host understands the log messages. -/
theorem log_understood {utf8 : Bytes → Bool} {wd wh : Nat} (hu : TakesAscii utf8) (hwd : wd = 2 ∨ wd = 4 ∨ wd = 8)
    (hwh : wh = 2 ∨ wh = 4 ∨ wh = 8) (n : VarKeyKind) (ctr : BitVec 16) :
    Understood (from_bytes (take_str utf8 wh)) (enc_lg wd n (log_msg ctr)) (msg_text (log_msg ctr)) := by
  have hs := msg_text_short (log_msg ctr)
  have ha := hu _ (msg_text_ascii (log_msg ctr))
  have hbig := usize_big hwd
  have hbig' := usize_big hwh
  refine understood_of (local_str _ _) ?_
  unfold log_msg at hs ha ⊢
  split
  · rename_i h
    rw [if_pos h] at hs ha
    simp only [msg_text] at hs ha
    exact reads_str ha (by omega) (by omega) (by omega) hwh
  · rename_i h
    rw [if_neg h] at hs ha
    simp only [msg_text] at hs ha
    exact fmt_body_reads hwd hwh n (by omega) ha

theorem enc_lg_len {w : Nat} (hw : w = 2 ∨ w = 4 ∨ w = 8) (n : VarKeyKind) (v : LgVal) : (enc_lg w n v).length ≤ 32 := by
  have hs := msg_text_short v
  cases v with
  | num x => have := (enc_u32_len x).2; simp only [enc_lg]; omega
  | hello =>
    simp only [msg_text] at hs
    simp only [enc_lg, enc_str]
    rw [usize_one (by omega) (by omega)]
    simp only [List.length_append, List.length_cons, List.length_nil]
    omega
  | formatted ctr =>
    simp only [msg_text] at hs
    simp only [enc_lg]
    rw [(fmt_body_text hw n (by omega)).2]
    omega

/-! ### What the transmitter sends -/

theorem log_hdr_len (n : VarKeyKind) (key : Key) (ctr : BitVec 16) : encLen (VarHeader.mk (log_key key n) (.Seq2 ctr)) = log_header_len n := by
  cases n <;> rfl

/-- The bytes handed to `send_all` for a formatted message. -/
theorem fmt_buf_body {w : Nat} (hw : w = 2 ∨ w = 4 ∨ w = 8) {tx_buf : Bytes} (htx : tx_buf.length = 1024) (key : Key) (n : VarKeyKind)
    (ctr : BitVec 16) {pieces : List Bytes} (ht : pieces.flatten.length < 128) :
    ∃ rest, log_fmt_buf w tx_buf (log_key key n) ctr pieces false =
      .ok (some (encOf ⟨log_key key n, .Seq2 ctr⟩ ++ log_fmt_body w (1024 - log_header_len n) pieces.flatten).length,
        encOf ⟨log_key key n, .Seq2 ctr⟩ ++ log_fmt_body w (1024 - log_header_len n) pieces.flatten ++ rest) ∧
      (encOf ⟨log_key key n, .Seq2 ctr⟩ ++ log_fmt_body w (1024 - log_header_len n) pieces.flatten ++ rest).length = 1024 := by
  have hbig := usize_big hw
  have hh := log_hdr_len n key ctr
  have hle : log_header_len n ≤ 11 := by cases n <;> decide
  have hfit : encLen (VarHeader.mk (log_key key n) (.Seq2 ctr)) ≤ tx_buf.length := by omega
  have hrl : (tx_buf.drop (encLen (VarHeader.mk (log_key key n) (.Seq2 ctr)))).length = 1024 - log_header_len n := by
    rw [List.length_drop, hh, htx]
  have hl : (varint_usize w pieces.flatten.length).length ≤ 2 := by rw [usize_one (by omega) ht]; simp
  obtain ⟨_, a2, a3⟩ := len_field_leb w pieces.flatten.length 2 (by omega) (by omega) (by decide) [] hl
  rw [log_fmt_buf, write_to_slice_fits _ _ hfit]
  simp only [Exec.ok_bind, hrl, room_two]
  rw [if_neg (by omega)]
  generalize hbody : (tx_buf.drop (encLen (VarHeader.mk (log_key key n) (.Seq2 ctr)))).drop 2 = body
  have hbl : body.length = 1024 - log_header_len n - 2 := by rw [← hbody, List.length_drop, hrl]
  rw [fmt_write_fits _ _ _ _ (by omega)]
  simp only [Exec.ok_bind, List.length_drop, List.nil_append]
  have hused : body.length - (body.length - pieces.flatten.length) = pieces.flatten.length := by omega
  rw [hused, log_fmt_body_eq]
  refine ⟨body.drop pieces.flatten.length, ?_, by
    simp only [List.length_append, List.length_drop, a2, encOf_length, hh, hbl]
    omega⟩
  refine (if_pos a3).trans ?_
  congr 2
  · congr 1
    rw [List.length_append, List.length_append, a2, encOf_length, hh, htx]
    omega
  · simp [List.append_assoc]

end PRpc
