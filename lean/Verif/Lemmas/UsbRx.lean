import Verif.Lemmas.Usb
import Verif.Lemmas.Header
/-! Helper lemmas for the embassy-usb receiver and the formatted log frame. -/

namespace PRpc

open Spec (Packets leb IsText)

theorem rx_loop_fit (lost : Bool) (B : Nat) {d : Bytes} {ps : List Bytes} (h : Packets d ps) (got : Bytes)
    (q : List UsbIn) (hfit : got.length + d.length ≤ B) (hne : got.length + d.length = B → d.length % 64 ≠ 0) :
    rx_loop lost B got (ps.map .packet ++ q) = (.Ok (got ++ d), q) := by
  induction h generalizing got with
  | @last p hp =>
    simp only [List.map_cons, List.map_nil, List.cons_append, List.nil_append, rx_loop]
    have h0 : ¬ B - got.length = 0 := by
      intro h0
      have : p.length = 0 := by omega
      exact hne (by omega) (by omega)
    rw [if_neg h0, if_neg (by omega), if_pos (by omega)]
  | @more p data ps hp _ ih =>
    simp only [List.length_append] at hfit hne
    simp only [List.map_cons, List.cons_append, rx_loop]
    rw [if_neg (by omega), if_neg (by omega), if_neg (by omega), ih]
    · simp
    · simp; omega
    · simp only [List.length_append]
      intro e
      have := hne (by omega)
      omega

theorem rx_drain_packets (lost : Bool) (B : Nat) (hB : 64 ≤ B) {d : Bytes} {ps : List Bytes} (h : Packets d ps)
    (q : List UsbIn) : rx_drain lost B (ps.map .packet ++ q) = (.ReceivedMessageTooLarge, q) := by
  induction h with
  | @last p hp =>
    simp only [List.map_cons, List.map_nil, List.cons_append, List.nil_append, rx_drain]
    rw [if_neg (by omega), if_neg (by omega)]
  | @more p data ps hp _ ih =>
    simp only [List.map_cons, List.cons_append, rx_drain]
    rw [if_neg (by omega), if_pos hp, ih]

theorem packets_ne {d : Bytes} {ps : List Bytes} (h : Packets d ps) : ∃ p t, ps = p :: t := by
  cases h <;> exact ⟨_, _, rfl⟩

theorem rx_loop_big (lost : Bool) (B : Nat) (hB : 64 ∣ B) (hpos : 0 < B) {d : Bytes} {ps : List Bytes}
    (h : Packets d ps) (got : Bytes) (q : List UsbIn) (hg : 64 ∣ got.length) (hgl : got.length ≤ B)
    (hbig : B ≤ got.length + d.length) :
    rx_loop lost B got (ps.map .packet ++ q) = (.ReceivedMessageTooLarge, q) := by
  induction h generalizing got with
  | @last p hp =>
    have h0 : B - got.length = 0 := by omega
    have := rx_drain_packets lost B (by omega) (Packets.last hp) q
    simp only [List.map_cons, List.map_nil, List.cons_append, List.nil_append, rx_loop] at *
    rw [if_pos h0, this]
  | @more p data ps hp hd ih =>
    simp only [List.length_append] at hbig
    by_cases h0 : B - got.length = 0
    · have := rx_drain_packets lost B (by omega) (Packets.more hp hd) q
      simp only [List.map_cons, List.cons_append, rx_loop] at *
      rw [if_pos h0, this]
    · simp only [List.map_cons, List.cons_append, rx_loop]
      rw [if_neg h0, if_neg (by omega), if_neg (by omega), ih]
      · simp only [List.length_append]; omega
      · simp only [List.length_append]; omega
      · simp only [List.length_append]; omega

theorem usb_receive_all_nil (lost : Bool) (B n : Nat) : usb_receive_all lost B n [] = ([], []) := by
  cases n with
  | zero => rfl
  | succ n => simp [usb_receive_all, usb_receive, rx_loop]

/-- Repeated receives, when every frame is either returned or refused as a whole. -/
theorem usb_receive_all_frames (lost : Bool) (B : Nat) (f : Bytes → RxRes) (hf : ∀ d, f d ≠ .waiting)
    {frames : List Bytes} {pss : List (List Bytes)} (h : Spec.AllPackets frames pss)
    (hstep : ∀ d ∈ frames, ∀ ps, Packets d ps → ∀ q, usb_receive lost B (ps.map .packet ++ q) = (f d, q)) (n : Nat) :
    (usb_receive_all lost B n (pss.flatten.map .packet)).1 = (frames.map f).take n := by
  induction h generalizing n with
  | nil => rw [List.flatten_nil, List.map_nil, usb_receive_all_nil]; simp
  | @cons d ps frames pss hd _ ih =>
    cases n with
    | zero => rfl
    | succ n =>
      have h1 := hstep d (by simp) ps hd (pss.flatten.map .packet)
      have h2 := ih (fun x hx => hstep x (by simp [hx])) n
      have h3 := hf d
      simp only [List.flatten_cons, List.map_append, usb_receive_all, h1, List.map_cons, List.take_succ_cons]
      cases hfd : f d with
      | waiting => exact absurd hfd h3
      | _ => exact congrArg (List.cons _) h2

/-! ### Formatted logs -/

theorem fmt_write_fits (pieces : List Bytes) (fails : Bool) (written rest : Bytes)
    (h : pieces.flatten.length ≤ rest.length) :
    fmt_write pieces fails written rest =
      .ok (!fails, written ++ pieces.flatten, rest.drop pieces.flatten.length) := by
  induction pieces generalizing written rest with
  | nil => simp [fmt_write]
  | cons p ps ih =>
    simp only [List.flatten_cons, List.length_append] at h
    rw [fmt_write, slice_write_str]
    have hm : min p.length rest.length = p.length := Nat.min_eq_left (by omega)
    simp only [hm, copy_from_slice]
    rw [if_pos (by simp; omega)]
    simp only [Exec.ok_bind]
    rw [if_pos (by simp; omega), ih _ _ (by rw [List.length_drop]; omega)]
    simp

theorem fmt_write_overflow (pieces : List Bytes) (fails : Bool) (written rest : Bytes)
    (h : rest.length < pieces.flatten.length) : fmt_write pieces fails written rest = .panic := by
  induction pieces generalizing written rest with
  | nil => simp at h
  | cons p ps ih =>
    simp only [List.flatten_cons, List.length_append] at h
    rw [fmt_write, slice_write_str]
    by_cases hp : p.length ≤ rest.length
    · have hm : min p.length rest.length = p.length := Nat.min_eq_left hp
      simp only [hm, copy_from_slice]
      rw [if_pos (by simp; omega)]
      simp only [Exec.ok_bind]
      rw [if_pos (by simp; omega), ih _ _ (by rw [List.length_drop]; omega)]
    · have hm : min p.length rest.length = rest.length := Nat.min_eq_right (by omega)
      simp only [hm, copy_from_slice]
      rw [if_neg (by simp; omega)]
      rfl

theorem low_cont (n : Nat) : (BitVec.ofNat 8 n ||| 0x80#8).toNat = n % 128 + 128 := by
  have key : ∀ b : BitVec 8, (b ||| 0x80#8).toNat = b.toNat % 128 + 128 := by decide
  rw [key, BitVec.toNat_ofNat]
  omega

theorem varint_loop_leb (fuel n : Nat) (h : n < 128 ^ fuel) (hf : 0 < fuel) (rest : Bytes) :
    leb (varint_loop fuel n ++ rest) = some (n, rest) := by
  induction fuel generalizing n with
  | zero => omega
  | succ fuel ih =>
    rw [varint_loop]
    split
    · rename_i hn
      have : (BitVec.ofNat 8 n).toNat = n := by rw [BitVec.toNat_ofNat]; omega
      simp [leb, this, hn]
    · rename_i hn
      have hsh : n >>> 7 = n / 128 := by rw [Nat.shiftRight_eq_div_pow]
      have hdiv : n / 128 < 128 ^ fuel := by
        rw [Nat.pow_succ] at h
        exact Nat.div_lt_of_lt_mul (by omega)
      have hfp : 0 < fuel := by
        rcases fuel with _ | fuel
        · simp at h; omega
        · omega
      rw [hsh, List.cons_append, leb, low_cont, if_neg (by omega), ih _ hdiv hfp]
      simp only [Option.map_some, Option.some.injEq, Prod.mk.injEq, and_true]
      omega

theorem varint_loop_ne (fuel n : Nat) (hf : 0 < fuel) : varint_loop fuel n ≠ [] := by
  cases fuel with
  | zero => omega
  | succ fuel => rw [varint_loop]; split <;> simp

theorem mark_last_cons (b : Byte) (l : Bytes) (h : l ≠ []) : mark_last (b :: l) = b :: mark_last l := by
  obtain ⟨x, xs, rfl⟩ := List.exists_cons_of_ne_nil h
  simp [mark_last, List.getLast?_cons_cons, List.dropLast]
  split <;> simp

theorem mark_last_length (l : Bytes) : (mark_last l).length = l.length := by
  induction l with
  | nil => rfl
  | cons b l ih =>
    by_cases h : l = []
    · subst h; rfl
    · rw [mark_last_cons b l h]; simp [ih]

theorem mark_last_leb (fuel n : Nat) (h : n < 128 ^ fuel) (hf : 0 < fuel) (tl rest : Bytes)
    (ht : leb tl = some (0, rest)) : leb (mark_last (varint_loop fuel n) ++ tl) = some (n, rest) := by
  induction fuel generalizing n with
  | zero => omega
  | succ fuel ih =>
    rw [varint_loop]
    split
    · rename_i hn
      have e : mark_last [BitVec.ofNat 8 n] = [BitVec.ofNat 8 n ||| 0x80#8] := rfl
      rw [e, List.cons_append, leb, low_cont, if_neg (by omega), List.nil_append, ht]
      simp
      omega
    · rename_i hn
      have hsh : n >>> 7 = n / 128 := by rw [Nat.shiftRight_eq_div_pow]
      have hdiv : n / 128 < 128 ^ fuel := by
        rw [Nat.pow_succ] at h
        exact Nat.div_lt_of_lt_mul (by omega)
      have hfp : 0 < fuel := by
        rcases fuel with _ | fuel
        · simp at h; omega
        · omega
      rw [mark_last_cons _ _ (varint_loop_ne fuel _ hfp), hsh, List.cons_append, leb, low_cont, if_neg (by omega),
        ih _ hdiv hfp]
      simp only [Option.map_some, Option.some.injEq, Prod.mk.injEq, and_true]
      omega

theorem varint_loop_len (fuel n k : Nat) (h : n < 128 ^ fuel) (hk : 0 < k) :
    (varint_loop fuel n).length ≤ k ↔ n < 128 ^ k := by
  induction fuel generalizing n k with
  | zero =>
    simp at h
    subst h
    simp [varint_loop]
    exact Nat.pow_pos (by decide)
  | succ fuel ih =>
    rw [varint_loop]
    split
    · rename_i hn
      have : 128 ^ 1 ≤ 128 ^ k := Nat.pow_le_pow_right (by decide) hk
      simp only [List.length_singleton]
      omega
    · rename_i hn
      have hsh : n >>> 7 = n / 128 := by rw [Nat.shiftRight_eq_div_pow]
      have hdiv : n / 128 < 128 ^ fuel := by
        rw [Nat.pow_succ] at h
        exact Nat.div_lt_of_lt_mul (by omega)
      rw [hsh, List.length_cons]
      rcases k with _ | k
      · omega
      · rcases k with _ | k
        · have : 0 < (varint_loop fuel (n / 128)).length := by
            rcases fuel with _ | fuel
            · simp at h; omega
            · exact List.length_pos_iff.mpr (varint_loop_ne _ _ (by omega))
          simp only [Nat.zero_add, Nat.pow_one]
          omega
        · have := ih (n / 128) (k + 1) hdiv (by omega)
          rw [Nat.succ_le_succ_iff, this, Nat.pow_succ 128 (k + 1)]
          constructor
          · intro h; omega
          · intro h; exact Nat.div_lt_of_lt_mul (by omega)

theorem usize_lt_varint (w n : Nat) (h : n < 2 ^ (8 * w)) : n < 128 ^ varint_max w := by
  have e : (128 : Nat) ^ varint_max w = 2 ^ (7 * varint_max w) := by
    rw [show (128 : Nat) = 2 ^ 7 by rfl, ← Nat.pow_mul]
  rw [e]
  exact Nat.lt_of_lt_of_le h (Nat.pow_le_pow_right (by decide) (by simp only [varint_max]; omega))

theorem blank_eq (n : Nat) : blank_len_field (n + 1) = List.replicate n 0x80#8 ++ [0#8] := by
  rw [blank_len_field, List.replicate_succ', Nat.add_sub_cancel, List.set_append_right _ _ (by simp)]
  simp

theorem blank_length (n : Nat) : (blank_len_field n).length = n := by simp [blank_len_field]

theorem leb_blank (k : Nat) (rest : Bytes) : leb (List.replicate k 0x80#8 ++ 0#8 :: rest) = some (0, rest) := by
  induction k with
  | zero => simp [leb]
  | succ k ih => simp [List.replicate_succ, leb, ih]

/-- The filled-in length field, followed by anything, reads back as the length. -/
theorem len_field_leb (w n m : Nat) (hw : n < 2 ^ (8 * w)) (hwp : 0 < w) (hm : 0 < m) (rest : Bytes)
    (hlen : (varint_usize w n).length ≤ m) :
    let lu := if (varint_usize w n).length ≠ (blank_len_field m).length then mark_last (varint_usize w n)
      else varint_usize w n
    leb ((lu ++ (blank_len_field m).drop lu.length) ++ rest) = some (n, rest) ∧
      (lu ++ (blank_len_field m).drop lu.length).length = m ∧ lu.length ≤ (blank_len_field m).length := by
  have hv := usize_lt_varint w n hw
  have hvp : 0 < varint_max w := by simp only [varint_max]; omega
  have hbl := blank_length m
  intro lu
  have hlul : lu.length = (varint_usize w n).length := by
    simp only [lu]; split
    · exact mark_last_length _
    · rfl
  refine ⟨?_, by simp [hlul]; omega, by omega⟩
  simp only [lu]
  split
  · rename_i hne
    rw [mark_last_length]
    obtain ⟨m, rfl⟩ : ∃ m', m = m' + 1 := ⟨m - 1, by omega⟩
    have hd : (blank_len_field (m + 1)).drop (varint_usize w n).length =
        List.replicate (m - (varint_usize w n).length) 0x80#8 ++ [0#8] := by
      rw [blank_eq, List.drop_append_of_le_length (by simp; omega), List.drop_replicate]
    rw [hd, List.append_assoc]
    exact mark_last_leb _ n hv hvp _ rest (by
      rw [List.append_assoc]
      exact leb_blank _ rest)
  · rename_i he
    have he : (varint_usize w n).length = (blank_len_field m).length := Decidable.not_not.mp he
    rw [he, List.drop_length, List.append_nil]
    exact varint_loop_leb _ n hv hvp rest

/-- The field set aside for a length is not longer than the longest length there is. -/
theorem reserved_le {w r : Nat} (hw : 0 < w) (h : r < 2 ^ (8 * w)) : actual_varint_max_len w r ≤ (8 * w + 6) / 7 := by
  have e1 : (2 : Nat) <<< 7 = 256 := rfl
  have e2 : (2 : Nat) <<< 14 = 32768 := rfl
  have e3 : (2 : Nat) <<< 21 = 4194304 := rfl
  have e4 : (2 : Nat) <<< 28 = 536870912 := rfl
  simp only [actual_varint_max_len, varint_max, e1, e2, e3, e4]
  rcases Nat.lt_or_ge w 3 with h3 | h3
  · have : w = 1 ∨ w = 2 := by omega
    rcases this with rfl | rfl
    · simp only [Nat.mul_one, Nat.reducePow] at h
      rw [if_pos h]; decide
    · simp only [Nat.reduceMul, Nat.reducePow] at h
      repeat' split
      all_goals omega
  · repeat' split
    all_goals omega

/-- A text as `postcard` writes it is one. -/
theorem is_text {w : Nat} (hw : 0 < w) {s : Bytes} (hs : s.length < 2 ^ (8 * w)) : IsText w (varint_usize w s.length ++ s) s := by
  have h := usize_lt_varint w _ hs
  refine ⟨varint_loop_leb _ _ h (by simp only [varint_max]; omega) _, ?_⟩
  have := (varint_loop_len (varint_max w) s.length (varint_max w) h (by simp only [varint_max]; omega)).mpr h
  rw [List.length_append, varint_usize]
  simp only [varint_max] at this ⊢
  omega

end PRpc
