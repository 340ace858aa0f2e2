import Verif.Spec.Takeover
import Verif.Spec.Usb
import Verif.Lemmas.Nusb
import Verif.Lemmas.UsbRx
/-! Helper lemmas for C78. -/

namespace PRpc

open Spec

theorem transfers_framesOf (cur : Bytes) (xs : List Bytes) : transfers cur xs = framesOf 64 cur xs := by
  induction xs generalizing cur with
  | nil => rfl
  | cons x xs ih => simp only [transfers, framesOf, ih]

/-- A frame in progress only changes the first frame to be completed. -/
theorem framesOf_cur (p : Nat) (cur : Bytes) (xs : List Bytes) :
    (framesOf p cur xs).1 = behind cur (framesOf p [] xs).1 ∧
    (framesOf p cur xs).2 = if (framesOf p [] xs).1 = [] then cur ++ (framesOf p [] xs).2 else (framesOf p [] xs).2 := by
  induction xs generalizing cur with
  | nil => simp [framesOf, behind]
  | cons x xs ih =>
    simp only [framesOf]
    split
    · simp [behind]
    · obtain ⟨h1, h2⟩ := ih (cur ++ x)
      obtain ⟨h3, h4⟩ := ih ([] ++ x)
      rw [h1, h2, h3, h4]
      generalize (framesOf p [] xs).1 = l
      cases l <;> simp [behind]

/-- Packets of at most 64 bytes are the packets of the frames they complete, and full ones of a frame in progress. -/
theorem framesOf_packets (xs : List Bytes) (h : ∀ x ∈ xs, x.length ≤ 64) :
    ∃ pss tl, xs = pss.flatten ++ tl ∧ AllPackets (framesOf 64 [] xs).1 pss ∧ (∀ x ∈ tl, x.length = 64) ∧
      (framesOf 64 [] xs).2 = tl.flatten := by
  induction xs with
  | nil => exact ⟨[], [], rfl, .nil, by simp, rfl⟩
  | cons x xs ih =>
    obtain ⟨pss, tl, h1, h2, h3, h4⟩ := ih fun y hy => h y (List.mem_cons_of_mem _ hy)
    have hx := h x (List.mem_cons_self ..)
    by_cases hl : x.length < 64
    · refine ⟨[x] :: pss, tl, ?_, ?_, h3, ?_⟩
      · rw [h1]; rfl
      · simp only [framesOf, hl, if_true, List.nil_append]
        exact .cons (.last hl) h2
      · simpa only [framesOf, hl, if_true] using h4
    · have h64 : x.length = 64 := by omega
      obtain ⟨c1, c2⟩ := framesOf_cur 64 x xs
      cases h2' : (framesOf 64 [] xs).1 with
      | nil =>
        rw [h2'] at h2 c1 c2
        cases h2
        refine ⟨[], x :: tl, ?_, ?_, ?_, ?_⟩
        · rw [h1]; rfl
        · simp only [framesOf, hl, if_false, List.nil_append, c1, behind]; exact .nil
        · intro y hy
          rcases List.mem_cons.mp hy with rfl | hy
          · exact h64
          · exact h3 y hy
        · simp only [framesOf, hl, if_false, List.nil_append, c2, if_true, h4, List.flatten_cons]
      | cons f fs =>
        rw [h2'] at h2 c1 c2
        cases h2 with
        | @cons _ ps _ pss' hp hrest =>
          refine ⟨(x :: ps) :: pss', tl, ?_, ?_, h3, ?_⟩
          · rw [h1]; rfl
          · simp only [framesOf, hl, if_false, List.nil_append, c1, behind]
            exact .cons (.more h64 hp) hrest
          · simpa only [framesOf, hl, if_false, List.nil_append, c2, if_neg (List.cons_ne_nil f fs)] using h4

/-- Full packets alone complete nothing. -/
theorem rx_open (lost : Bool) (B : Nat) (hB : 64 ∣ B) (hpos : 0 < B) (tl : List Bytes) (h : ∀ x ∈ tl, x.length = 64) :
    ∀ got : Bytes, 64 ∣ got.length → got.length ≤ B → (rx_loop lost B got (tl.map .packet)).1 = .waiting := by
  have drain : ∀ tl : List Bytes, (∀ x ∈ tl, x.length = 64) → (rx_drain lost B (tl.map .packet)).1 = .waiting := by
    intro tl
    induction tl with
    | nil => intro _; rfl
    | cons x tl ih =>
      intro h
      have hx := h x (List.mem_cons_self ..)
      simp only [List.map_cons, rx_drain]
      rw [if_neg (by omega), if_pos hx]
      exact ih fun y hy => h y (List.mem_cons_of_mem _ hy)
  induction tl with
  | nil => intro _ _ _; rfl
  | cons x tl ih =>
    intro got h1 h2
    have hx := h x (List.mem_cons_self ..)
    have hd := drain (x :: tl) h
    simp only [List.map_cons] at hd
    simp only [List.map_cons, rx_loop]
    by_cases h0 : B - got.length = 0
    · rw [if_pos h0]; exact hd
    · rw [if_neg h0, if_neg (by omega), if_neg (by omega)]
      exact ih (fun y hy => h y (List.mem_cons_of_mem _ hy)) _ (by simp only [List.length_append]; omega)
        (by simp only [List.length_append]; omega)

/-- Whatever packets come, the receiver deals with the frames they complete, one by one. -/
theorem receive_framesOf (lost : Bool) (B : Nat) (hB : 64 ∣ B) (hpos : 0 < B) (xs : List Bytes) (h : ∀ x ∈ xs, x.length ≤ 64)
    (n : Nat) : (usb_receive_all lost B n (xs.map .packet)).1 = ((framesOf 64 [] xs).1.map (rxResult B)).take n := by
  obtain ⟨pss, tl, h1, h2, h3, _⟩ := framesOf_packets xs h
  generalize (framesOf 64 [] xs).1 = fs at h2
  rw [h1]
  clear h1
  induction h2 generalizing n with
  | nil =>
    cases n with
    | zero => rfl
    | succ n =>
      have := rx_open lost B hB hpos tl h3 [] (by simp) (by simp)
      simp only [List.flatten_nil, List.nil_append, usb_receive_all, usb_receive]
      cases hr : rx_loop lost B [] (tl.map .packet) with
      | mk r q =>
        rw [hr] at this
        cases this
        rfl
  | @cons d ps frames pss hd _ ih =>
    cases n with
    | zero => rfl
    | succ n =>
      have h1 : usb_receive lost B (ps.map .packet ++ ((pss.flatten ++ tl).map .packet)) =
          (rxResult B d, (pss.flatten ++ tl).map .packet) := by
        by_cases hl : d.length < B
        · rw [rxResult, if_pos hl]
          exact rx_loop_fit lost B hd [] _ (by simp; omega) (by simp; omega)
        · rw [rxResult, if_neg hl]
          exact rx_loop_big lost B hB hpos hd [] _ (by simp) (by simp) (by simp; omega)
      have h2 := ih n
      rw [← List.map_append] at h1
      simp only [List.flatten_cons, List.append_assoc, usb_receive_all, h1, List.map_cons, List.take_succ_cons]
      by_cases hl : d.length < B
      · simp only [rxResult, if_pos hl] at h2 ⊢
        exact congrArg (List.cons _) h2
      · simp only [rxResult, if_neg hl] at h2 ⊢
        exact congrArg (List.cons _) h2

/-- Cutting off the packets somewhere. -/
theorem framesOf_take (p : Nat) (xs : List Bytes) (k : Nat) :
    (framesOf p [] xs).1 = (framesOf p [] (xs.take k)).1 ++ behind (framesOf p [] (xs.take k)).2 (framesOf p [] (xs.drop k)).1 ∧
    ((framesOf p [] (xs.drop k)).1 = [] → (framesOf p [] xs).2 = (framesOf p [] (xs.take k)).2 ++ (framesOf p [] (xs.drop k)).2) := by
  have h := framesOf_append p [] (xs.take k) (xs.drop k)
  rw [List.take_append_drop] at h
  obtain ⟨c1, c2⟩ := framesOf_cur p (framesOf p [] (xs.take k)).2 (xs.drop k)
  rw [h]
  refine ⟨by rw [c1], fun e => ?_⟩
  rw [c2, if_pos e]

theorem bulk_small (d : Bytes) : ∀ x ∈ bulk 64 d, x.length ≤ 64 := by
  induction hn : d.length using Nat.strongRecOn generalizing d with
  | _ n ih =>
    subst hn
    intro x hx
    rw [bulk] at hx
    split at hx
    · rename_i h
      rw [List.mem_singleton.mp hx]
      omega
    · rename_i h
      rcases List.mem_cons.mp hx with rfl | hx
      · simp; omega
      · exact ih (d.drop 64).length (by simp; omega) _ rfl x hx

end PRpc
