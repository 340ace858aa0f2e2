import Verif.Lemmas.UsbRx
import Verif.Lemmas.Header
/-! Helper lemmas: formatted log messages in the transmit buffer. -/

namespace PRpc

open Spec

theorem logText_length (fails : Bool) (space : Nat) (t : Bytes) : (logText fails space t).length = t.length := by
  rw [logText]
  split
  · simp; omega
  · rfl

/-- The body after the formatter and the full stops: the text, then stale bytes. -/
theorem body_logText (fails : Bool) (t rest : Bytes) :
    ∃ rest', rest'.length = rest.length ∧
      (if !(!fails) ∧ (t ++ rest).length ≥ 3 then dots (t ++ rest) else t ++ rest) =
        logText fails (t ++ rest).length t ++ rest' := by
  rw [logText]
  by_cases h : fails = true ∧ 3 ≤ (t ++ rest).length
  · rw [if_pos h, if_pos (by obtain ⟨rfl, h⟩ := h; exact ⟨rfl, h⟩), dots]
    obtain ⟨_, h⟩ := h
    generalize hs : (t ++ rest).length = s at *
    have hs' : t.length + rest.length = s := by rw [← hs, List.length_append]
    by_cases ht : t.length ≤ s - 3
    · refine ⟨(rest.take (s - 3 - t.length)) ++ [46#8, 46#8, 46#8], by simp; omega, ?_⟩
      rw [List.take_append, List.take_of_length_le ht, Nat.sub_eq_zero_of_le ht]
      simp
    · refine ⟨List.replicate rest.length 46#8, by simp, ?_⟩
      rw [List.take_append_of_le_length (by omega), List.append_assoc, List.replicate_append_replicate,
        show t.length - (s - 3) + rest.length = 3 by omega]
      rfl
  · rw [if_neg h, if_neg (by intro q; apply h; simpa using q)]
    exact ⟨rest, rfl, rfl⟩

theorem log_fmt_buf_cases (w : Nat) (hw : 0 < w) (tx_buf : Bytes) (htx : tx_buf.length < 2 ^ (8 * w)) (key : VarKey)
    (ctr : BitVec 16) (pieces : List Bytes) (fails : Bool) :
    let hdr := encOf (VarHeader.mk key (.Seq2 ctr))
    let r := tx_buf.length - hdr.length
    let m := actual_varint_max_len w r
    (tx_buf.length < hdr.length ∨ r < m → ∃ b, b.length = tx_buf.length ∧
      log_fmt_buf w tx_buf key ctr pieces fails = .ok (none, b)) ∧
    (hdr.length ≤ tx_buf.length → m ≤ r →
      (r - m < pieces.flatten.length ∨ 128 ^ m ≤ pieces.flatten.length →
        log_fmt_buf w tx_buf key ctr pieces fails = .panic) ∧
      (pieces.flatten.length ≤ r - m → pieces.flatten.length < 128 ^ m →
        ∃ b rest, log_fmt_buf w tx_buf key ctr pieces fails = .ok (some (hdr ++ b).length, hdr ++ b ++ rest) ∧
          IsText w b (logText fails (r - m) pieces.flatten) ∧ (hdr ++ b ++ rest).length = tx_buf.length)) := by
  intro hdr r m
  have hel : hdr.length = encLen (VarHeader.mk key (.Seq2 ctr)) := encOf_length _
  have hmpos : 0 < m := by
    simp only [m, actual_varint_max_len, varint_max]
    repeat' split
    all_goals omega
  by_cases hfit : encLen (VarHeader.mk key (.Seq2 ctr)) ≤ tx_buf.length
  · have hrl : (tx_buf.drop (encLen (VarHeader.mk key (.Seq2 ctr)))).length = r := by
      simp only [r, hel, List.length_drop]
    rw [log_fmt_buf, write_to_slice_fits _ _ hfit]
    simp only [Exec.ok_bind, hrl]
    by_cases hmr : r < m
    · refine ⟨fun _ => ⟨_, ?_, if_pos hmr⟩, fun _ h => by omega⟩
      rw [List.length_append, encOf_length, List.length_drop]
      omega
    · refine ⟨fun h => by omega, fun _ _ => ?_⟩
      rw [if_neg hmr]
      generalize hbody : (tx_buf.drop (encLen (VarHeader.mk key (.Seq2 ctr)))).drop m = body
      have hbl : body.length = r - m := by rw [← hbody, List.length_drop, hrl]
      by_cases hover : r - m < pieces.flatten.length
      · refine ⟨fun _ => ?_, fun h => by omega⟩
        rw [fmt_write_overflow _ _ _ _ (by omega)]
        rfl
      · rw [fmt_write_fits _ _ _ _ (by omega)]
        simp only [Exec.ok_bind, List.length_drop, List.nil_append]
        have hused : body.length - (body.length - pieces.flatten.length) = pieces.flatten.length := by omega
        have hlt : pieces.flatten.length < 2 ^ (8 * w) := by
          have : r ≤ tx_buf.length := by simp only [r]; omega
          omega
        rw [hused]
        by_cases hbig : 128 ^ m ≤ pieces.flatten.length
        · refine ⟨fun _ => ?_, fun _ h => by omega⟩
          have hnle : ¬ (varint_usize w pieces.flatten.length).length ≤ m := by
            rw [varint_usize, varint_loop_len _ _ _ (usize_lt_varint w _ hlt) hmpos]
            omega
          apply if_neg
          split
          · rw [mark_last_length, blank_length]; exact hnle
          · rw [blank_length]; exact hnle
        · refine ⟨fun h => by omega, fun _ _ => ?_⟩
          have hle : (varint_usize w pieces.flatten.length).length ≤ m := by
            rw [varint_usize, varint_loop_len _ _ _ (usize_lt_varint w _ hlt) hmpos]
            omega
          obtain ⟨rest, r1, r2⟩ := body_logText fails pieces.flatten (body.drop pieces.flatten.length)
          have hbl2 : (pieces.flatten ++ body.drop pieces.flatten.length).length = r - m := by
            rw [List.length_append, List.length_drop]; omega
          rw [hbl2] at r2
          obtain ⟨a1, a2, a3⟩ := len_field_leb w pieces.flatten.length m hlt hw hmpos
            (logText fails (r - m) pieces.flatten) hle
          rw [hbl2, r2]
          change ∃ b rest_1, (if (if (varint_usize w pieces.flatten.length).length ≠ (blank_len_field m).length then
            mark_last (varint_usize w pieces.flatten.length) else varint_usize w pieces.flatten.length).length ≤
              (blank_len_field m).length then _ else _) = _ ∧ _ ∧ _
          generalize (if (varint_usize w pieces.flatten.length).length ≠ (blank_len_field m).length then
              mark_last (varint_usize w pieces.flatten.length) else varint_usize w pieces.flatten.length) = lu at *
          refine ⟨(lu ++ (blank_len_field m).drop lu.length) ++ logText fails (r - m) pieces.flatten, rest, ?_, ?_, ?_⟩
          · refine (if_pos a3).trans ?_
            congr 2
            · congr 1
              rw [List.length_append, List.length_append, a2, logText_length, hel]
              omega
            · simp only [List.append_assoc, hdr, m]
          · refine ⟨by rw [logText_length]; exact a1, ?_⟩
            have := reserved_le hw (Nat.lt_of_le_of_lt (Nat.sub_le _ _) htx : r < 2 ^ (8 * w))
            rw [List.length_append, a2]
            simp only [m]
            omega
          · rw [List.length_append, List.length_append, List.length_append, a2, logText_length, hel, r1,
              List.length_drop]
            omega
  · refine ⟨fun _ => ?_, fun h => by omega⟩
    obtain ⟨b', e, hb⟩ := write_to_slice_short _ tx_buf (Nat.not_le.mp hfit)
    rw [log_fmt_buf, e]
    exact ⟨b', hb, rfl⟩

end PRpc
