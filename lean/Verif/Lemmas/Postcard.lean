import Verif.Model.Postcard
import Verif.Spec.Postcard
import Verif.Lemmas.UsbRx
/-! Lemmas for C85: readers, and what they make of what was written. -/

namespace PRpc

open Spec

variable {α β : Type}

/-- The reader takes exactly these bytes for this value. -/
def Reads (p : Dec α) (bs : Bytes) (a : α) : Prop := ∀ r, p (bs ++ r) = some (a, r)

/-- A reader looks only at what it takes. -/
def LocalDec (p : Dec α) : Prop := ∀ b a r, p b = some (a, r) → ∃ u, b = u ++ r ∧ Reads p u a

theorem dec_bind (p : Dec α) (f : α → Dec β) (b : Bytes) :
    (p >>= f) b = match p b with | none => none | some (a, r) => f a r := rfl

theorem reads_pure (a : α) : Reads (pure a : Dec α) [] a := fun _ => rfl

theorem reads_bind {p : Dec α} {f : α → Dec β} {x y : Bytes} {a : α} {b : β} (h1 : Reads p x a) (h2 : Reads (f a) y b) :
    Reads (p >>= f) (x ++ y) b := by
  intro r
  rw [dec_bind, List.append_assoc, h1]
  exact h2 r

theorem reads_map {p : Dec α} {f : α → β} {x : Bytes} {a : α} (h1 : Reads p x a) :
    Reads (p >>= fun a => pure (f a)) x (f a) := by
  have := reads_bind (f := fun a => pure (f a)) h1 (reads_pure (f a))
  rwa [List.append_nil] at this

theorem local_pure (a : α) : LocalDec (pure a : Dec α) := fun b a' r h => by
  cases h
  exact ⟨[], rfl, reads_pure a⟩

theorem local_fail : LocalDec (dec_fail : Dec α) := fun b a r h => by cases h

theorem local_bind {p : Dec α} {f : α → Dec β} (h1 : LocalDec p) (h2 : ∀ a, LocalDec (f a)) : LocalDec (p >>= f) := by
  intro b c r h
  rw [dec_bind] at h
  split at h
  · cases h
  · rename_i a r1 e
    obtain ⟨u, hu, hr⟩ := h1 _ _ _ e
    obtain ⟨v, hv, hr'⟩ := h2 a _ _ _ h
    exact ⟨u ++ v, by rw [hu, hv, List.append_assoc], reads_bind hr hr'⟩

theorem local_ite {c : Prop} [Decidable c] {p q : Dec α} (h1 : LocalDec p) (h2 : LocalDec q) :
    LocalDec (if c then p else q) := by split <;> assumption

/-- What a reader that looks only at what it takes makes of something written, and of beginnings of it. -/
theorem understood_of {p : Dec α} {bs : Bytes} {a : α} (hl : LocalDec p) (h : Reads p bs a) : Understood (from_bytes p) bs a := by
  refine ⟨fun r => by rw [from_bytes, h r]; rfl, fun n hn => ?_⟩
  cases hp : p (bs.take n) with
  | none => rw [from_bytes, hp]; rfl
  | some y =>
    obtain ⟨a', r⟩ := y
    obtain ⟨u, hu, hr⟩ := hl _ _ _ hp
    have h1 := h []
    rw [List.append_nil] at h1
    have h2 := hr (r ++ bs.drop n)
    rw [← List.append_assoc, ← hu, List.take_append_drop, h1] at h2
    have := congrArg (fun x => (x.map Prod.snd)) h2
    simp only [Option.map_some, Option.some.injEq] at this
    have h3 := congrArg List.length this
    simp only [List.length_nil, List.length_append, List.length_drop] at h3
    omega

theorem local_varint (fuel last : Nat) : LocalDec (take_varint fuel last) := by
  induction fuel with
  | zero => exact local_fail
  | succ fuel ih =>
    intro b n r h
    cases b with
    | nil => cases h
    | cons x xs =>
      simp only [take_varint] at h
      split at h
      · rename_i hx
        split at h
        · cases h
        · rename_i hl
          cases h
          refine ⟨[x], rfl, fun r => ?_⟩
          simp only [take_varint, List.cons_append, List.nil_append]
          rw [if_pos hx, if_neg hl]
      · rename_i hx
        split at h
        · cases h
        · rename_i m r' e
          cases h
          obtain ⟨u, hu, hr⟩ := ih _ _ _ e
          refine ⟨x :: u, by rw [hu]; rfl, fun r => ?_⟩
          simp only [take_varint, List.cons_append]
          rw [if_neg hx, hr r]

theorem local_u8 : LocalDec take_u8 := by
  intro b a r h
  cases b with
  | nil => cases h
  | cons x xs => cases h; exact ⟨[a], rfl, fun r => rfl⟩

theorem local_take_n (n : Nat) : LocalDec (take_n n) := by
  intro b a r h
  simp only [take_n] at h
  split at h
  · rename_i hn
    cases h
    refine ⟨b.take n, (List.take_append_drop n b).symm, fun r => ?_⟩
    have hl : (b.take n).length = n := by rw [List.length_take]; omega
    simp only [take_n]
    rw [if_pos (by rw [List.length_append]; omega), List.take_append_of_le_length (by omega), List.drop_append_of_le_length (by omega),
      List.take_of_length_le (by omega), List.drop_of_length_le (by omega), List.nil_append]
  · cases h

theorem reads_take_n (s : Bytes) : Reads (take_n s.length) s s := by
  intro r
  simp only [take_n]
  rw [if_pos (by rw [List.length_append]; omega), List.take_append_of_le_length (by omega), List.drop_append_of_le_length (by omega),
      List.take_of_length_le (by omega), List.drop_of_length_le (by omega), List.nil_append]

/-- Numbers that are small enough, in few enough bytes, are read. -/
theorem take_varint_leb {fuel last : Nat} {b : Bytes} {n : Nat} {r : Bytes} (h : leb b = some (n, r)) (hlen : b.length ≤ r.length + fuel)
    (hn : 128 * n < (last + 1) * 128 ^ fuel) (hl : last < 128) : take_varint fuel last b = some (n, r) := by
  induction fuel generalizing b n with
  | zero =>
    cases b with
    | nil => cases h
    | cons x xs =>
      have : ∀ (b : Bytes) (n : Nat) (r : Bytes), leb b = some (n, r) → r.length < b.length := by
        intro b
        induction b with
        | nil => intro n r h; cases h
        | cons x xs ih =>
          intro n r h
          rw [leb] at h
          split at h
          · cases h; simp
          · obtain ⟨y, hy, e⟩ := Option.map_eq_some_iff.mp h
            cases e
            have := ih _ _ hy
            simp only [List.length_cons]
            omega
      have := this _ _ _ h
      omega
  | succ fuel ih =>
    cases b with
    | nil => cases h
    | cons x xs =>
      rw [leb] at h
      simp only [take_varint]
      split at h
      · rename_i hx
        cases h
        rw [if_pos hx, if_neg]
        rintro ⟨rfl, hlt⟩
        omega
      · rename_i hx
        obtain ⟨y, hy, e⟩ := Option.map_eq_some_iff.mp h
        cases e
        rw [if_neg hx, ih hy (by simp only [List.length_cons] at hlen; omega) (by
          have e : (last + 1) * 128 ^ (fuel + 1) = 128 * ((last + 1) * 128 ^ fuel) := by rw [Nat.pow_succ, ← Nat.mul_assoc, Nat.mul_comm]
          rw [e] at hn
          generalize (last + 1) * 128 ^ fuel = K at hn ⊢
          omega)]

theorem pow_split (w : Nat) (h : w = 2 ∨ w = 4 ∨ w = 8) : (2 ^ (8 * w % 7) - 1 + 1) * 128 ^ varint_max w = 128 * 2 ^ (8 * w) ∧
    2 ^ (8 * w % 7) - 1 < 128 := by
  rcases h with rfl | rfl | rfl <;> decide

theorem varint_loop_short {fuel n k : Nat} (h : n < 128 ^ fuel) (hk : 0 < k) (hn : n < 128 ^ k) : (varint_loop fuel n).length ≤ k :=
  (varint_loop_len fuel n k h hk).mpr hn

/-- A length written on one machine is read on another if it is a `usize` of both. -/
theorem reads_usize {wd wh n : Nat} (hd : n < 2 ^ (8 * wd)) (hwd : 0 < wd) (hh : n < 2 ^ (8 * wh)) (hw : wh = 2 ∨ wh = 4 ∨ wh = 8) :
    Reads (take_varint (varint_max wh) (2 ^ (8 * wh % 7) - 1)) (varint_usize wd n) n := by
  intro r
  have h1 := usize_lt_varint wd n hd
  have h2 := usize_lt_varint wh n hh
  obtain ⟨e1, e2⟩ := pow_split wh hw
  refine take_varint_leb (varint_loop_leb _ _ h1 (by simp only [varint_max]; omega) r) ?_ (by rw [e1]; omega) e2
  have := varint_loop_short h1 (k := varint_max wh) (by simp only [varint_max]; omega) h2
  rw [List.length_append, varint_usize]
  omega

theorem reads_u32 (n : BitVec 32) : Reads take_u32 (enc_u32 n) n := by
  have h := reads_usize (wd := 4) (wh := 4) (n := n.toNat) n.isLt (by omega) n.isLt (by simp)
  have h2 := reads_map (f := fun n => BitVec.ofNat 32 n) h
  rw [BitVec.ofNat_toNat, BitVec.setWidth_eq] at h2
  exact h2

theorem local_u32 : LocalDec take_u32 := local_bind (local_varint _ _) fun _ => local_pure _

theorem reads_str {utf8 : Bytes → Bool} {wd wh : Nat} {s : Bytes} (hu : utf8 s = true) (hd : s.length < 2 ^ (8 * wd)) (hwd : 0 < wd)
    (hh : s.length < 2 ^ (8 * wh)) (hw : wh = 2 ∨ wh = 4 ∨ wh = 8) : Reads (take_str utf8 wh) (enc_str wd s) s := by
  refine reads_bind (reads_usize hd hwd hh hw) ?_
  have : Reads (if utf8 s = true then pure s else dec_fail) [] s := by rw [if_pos hu]; exact reads_pure s
  have := reads_bind (f := fun s => if utf8 s = true then pure s else dec_fail) (reads_take_n s) this
  rwa [List.append_nil] at this

theorem local_str (utf8 : Bytes → Bool) (w : Nat) : LocalDec (take_str utf8 w) :=
  local_bind (local_varint _ _) fun _ => local_bind (local_take_n _) fun _ => local_ite (local_pure _) local_fail

theorem reads_key8 (k : Key) : Reads take_key8 (enc_key k) k := fun _ => rfl

theorem local_key8 : LocalDec take_key8 :=
  local_bind local_u8 fun _ => local_bind local_u8 fun _ => local_bind local_u8 fun _ => local_bind local_u8 fun _ =>
    local_bind local_u8 fun _ => local_bind local_u8 fun _ => local_bind local_u8 fun _ => local_bind local_u8 fun _ => local_pure _

theorem local_wire_error : LocalDec take_wire_error :=
  local_bind local_u32 fun _ => local_ite (local_bind local_u32 fun _ => local_bind local_u32 fun _ => local_pure _)
    (local_ite (local_bind local_u32 fun _ => local_pure _) (local_ite (local_pure _) (local_ite (local_pure _) (local_ite (local_pure _)
      (local_ite (local_pure _) (local_ite (local_pure _) local_fail))))))

theorem reads_wire_error (e : WireError) : Reads take_wire_error (enc_wire_error e) e := by
  have unit : ∀ (v : BitVec 32) (e : WireError) (f : BitVec 32 → Dec WireError), f v = pure e → Reads (take_u32 >>= f) (enc_u32 v) e := by
    intro v e f h
    have := reads_bind (f := f) (reads_u32 v) (by rw [h]; exact reads_pure e)
    rwa [List.append_nil] at this
  cases e with
  | FrameTooLong len max => exact reads_bind (reads_u32 0#32) (reads_bind (reads_u32 len) (reads_map (reads_u32 max)))
  | FrameTooShort len => exact reads_bind (reads_u32 1#32) (reads_map (reads_u32 len))
  | DeserFailed => exact unit _ _ _ rfl
  | SerFailed => exact unit _ _ _ rfl
  | UnknownKey => exact unit _ _ _ rfl
  | FailedToSpawn => exact unit _ _ _ rfl
  | KeyTooSmall => exact unit _ _ _ rfl

theorem local_direction : LocalDec take_direction :=
  local_bind local_u32 fun _ => local_ite (local_pure _) (local_ite (local_pure _) local_fail)

theorem reads_direction (d : TopicDirection) : Reads take_direction (enc_direction d) d := by
  intro r
  cases d <;> rfl

theorem local_schema {takeN : Dec Nty} (hN : LocalDec takeN) (utf8 : Bytes → Bool) (w : Nat) :
    LocalDec (take_owned_schema_data takeN utf8 w) :=
  local_bind local_u32 fun _ => local_ite (local_bind hN fun _ => local_pure _)
    (local_ite (local_bind (local_str _ _) fun _ => local_bind local_key8 fun _ => local_bind local_key8 fun _ => local_pure _)
      (local_ite (local_bind (local_str _ _) fun _ => local_bind local_key8 fun _ => local_bind local_direction fun _ => local_pure _)
        local_fail))

theorem reads_schema {takeN : Dec Nty} {encN : Nty → Bytes} {utf8 : Bytes → Bool} {wd wh : Nat} (hwd : 0 < wd)
    (hw : wh = 2 ∨ wh = 4 ∨ wh = 8) {d : SchemaData} (hd : ItemOk utf8 wd wh (fun t => Reads takeN (encN t) t) d) :
    Reads (take_owned_schema_data takeN utf8 wh) (enc_schema_data encN wd d) d ∧
    Reads (take_owned_schema_data takeN utf8 wh) (enc_owned_schema_data encN wd d) d := by
  cases d with
  | «Type» t => exact ⟨reads_bind (reads_u32 0#32) (reads_map hd), reads_bind (reads_u32 0#32) (reads_map hd)⟩
  | Endpoint path rq rs =>
    obtain ⟨h1, h2, h3⟩ := hd
    have := reads_bind (f := fun v => if v = 0#32 then (do let t ← takeN; pure (SchemaData.Type t)) else if v = 1#32 then (do
      let path ← take_str utf8 wh
      let request_key ← take_key8
      let response_key ← take_key8
      pure (.Endpoint path request_key response_key)) else if v = 2#32 then (do
      let path ← take_str utf8 wh
      let key ← take_key8
      let direction ← take_direction
      pure (.Topic path key direction)) else dec_fail) (reads_u32 1#32) (reads_bind (reads_str h1 h2 hwd h3 hw) (reads_bind (reads_key8 rq) (reads_map (reads_key8 rs))))
    exact ⟨this, this⟩
  | Topic path k d =>
    obtain ⟨h1, h2, h3⟩ := hd
    have := reads_bind (f := fun v => if v = 0#32 then (do let t ← takeN; pure (SchemaData.Type t)) else if v = 1#32 then (do
      let path ← take_str utf8 wh
      let request_key ← take_key8
      let response_key ← take_key8
      pure (.Endpoint path request_key response_key)) else if v = 2#32 then (do
      let path ← take_str utf8 wh
      let key ← take_key8
      let direction ← take_direction
      pure (.Topic path key direction)) else dec_fail) (reads_u32 2#32) (reads_bind (reads_str h1 h2 hwd h3 hw) (reads_bind (reads_key8 k) (reads_map (reads_direction d))))
    exact ⟨this, this⟩

theorem local_totals : LocalDec take_totals :=
  local_bind local_u32 fun _ => local_bind local_u32 fun _ => local_bind local_u32 fun _ => local_bind local_u32 fun _ =>
    local_bind local_u32 fun _ => local_pure _

theorem reads_totals (t : SchemaTotals) : Reads take_totals (enc_totals t) t :=
  reads_bind (reads_u32 _) (reads_bind (reads_u32 _) (reads_bind (reads_u32 _) (reads_bind (reads_u32 _) (reads_map (reads_u32 _)))))

theorem varint_digits (fuel n : Nat) (h : n < 128 ^ fuel) (hf : 0 < fuel) : (varint_loop fuel n).map BitVec.toNat = digits n := by
  induction fuel generalizing n with
  | zero => omega
  | succ fuel ih =>
    rw [varint_loop, digits]
    split
    · rename_i hn
      have : (BitVec.ofNat 8 n).toNat = n := by rw [BitVec.toNat_ofNat]; omega
      simp only [List.map_cons, List.map_nil, this]
    · rename_i hn
      have hsh : n >>> 7 = n / 128 := by rw [Nat.shiftRight_eq_div_pow]
      have hdiv : n / 128 < 128 ^ fuel := by
        rw [Nat.pow_succ] at h
        exact Nat.div_lt_of_lt_mul (by omega)
      have hfp : 0 < fuel := by
        rcases fuel with _ | fuel
        · simp at h; omega
        · omega
      rw [List.map_cons, low_cont, hsh, ih _ hdiv hfp]

theorem enc_u32_digits (n : BitVec 32) : (enc_u32 n).map BitVec.toNat = digits n.toNat :=
  varint_digits _ _ (usize_lt_varint 4 _ n.isLt) (by decide)

theorem enc_u32_len (n : BitVec 32) : 0 < (enc_u32 n).length ∧ (enc_u32 n).length ≤ 5 :=
  ⟨List.length_pos_iff.mpr (varint_loop_ne _ _ (by decide)),
    varint_loop_short (usize_lt_varint 4 _ n.isLt) (by decide) (usize_lt_varint 4 _ n.isLt)⟩

theorem enc_str_layout {w : Nat} (hw : 0 < w) {s : Bytes} (h : s.length < 2 ^ (8 * w)) :
    (enc_str w s).map BitVec.toNat = textLayout s := by
  rw [enc_str, List.map_append, varint_usize, varint_digits _ _ (usize_lt_varint w _ h) (by simp only [varint_max]; omega)]
  rfl

/-- Endpoints and topics are read without looking at how types are read. -/
theorem understood_other {takeN : Dec Nty} {utf8 : Bytes → Bool} {w : Nat} {x : Byte} {b : Bytes} {d : SchemaData}
    (hx : x = 1#8 ∨ x = 2#8) (h : Understood (from_bytes (take_owned_schema_data dec_fail utf8 w)) (x :: b) d) :
    Understood (from_bytes (take_owned_schema_data takeN utf8 w)) (x :: b) d := by
  have hb : ∀ b, from_bytes (take_owned_schema_data takeN utf8 w) (x :: b) = from_bytes (take_owned_schema_data dec_fail utf8 w) (x :: b) := by
    intro b
    simp only [from_bytes, take_owned_schema_data, dec_bind]
    rcases hx with rfl | rfl
    · rw [show take_u32 (1#8 :: b) = some (1#32, b) from rfl]
      rfl
    · rw [show take_u32 (2#8 :: b) = some (2#32, b) from rfl]
      rfl
  refine ⟨fun rest => ?_, fun n hn => ?_⟩
  · have := h.1 rest
    rw [List.cons_append] at this ⊢
    rw [hb, this]
  · cases n with
    | zero => rfl
    | succ n =>
      have := h.2 (n + 1) hn
      rw [List.take_succ_cons] at this ⊢
      rw [hb, this]

end PRpc
