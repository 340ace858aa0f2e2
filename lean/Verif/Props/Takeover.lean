import Verif.Lemmas.Takeover
import Verif.Props.UsbLink
import Verif.Lemmas.System
/-! A new host process on a USB device that stayed connected: C78. -/

namespace PRpc.Props

open Spec

/-- The packets the device has got: of those of the host that went away the first `k`, then those of the new one. -/
def outPackets (old new : List Bytes) (k : Nat) : List Bytes := (old.flatMap (bulk 64)).take k ++ new.flatMap (bulk 64)

theorem outPackets_small (old new : List Bytes) (k : Nat) : ∀ x ∈ outPackets old new k, x.length ≤ 64 := by
  have h : ∀ (l : List Bytes), ∀ x ∈ l.flatMap (bulk 64), x.length ≤ 64 := by
    intro l x hx
    obtain ⟨d, _, hd⟩ := List.mem_flatMap.mp hx
    exact bulk_small d x hd
  intro x hx
  rcases List.mem_append.mp hx with hx | hx
  · exact h _ x (List.mem_of_mem_take hx)
  · exact h _ x hx

/-- The packets of the frames a host sent make up exactly these frames. -/
theorem sent_frames (frames : List Bytes) (hne : ∀ d ∈ frames, d ≠ []) (cs : List Completion) {n : Nat} {r : NusbSent} {t : NusbTx}
    (h : nusb_send_all frames ⟨some 64, [], 0⟩ cs = .ok (n, r, t)) :
    ∃ m, n ≤ m ∧ m ≤ n + 1 ∧ (r = .Ok → m = frames.length) ∧ framesOf 64 [] (t.submitted.flatMap (bulk 64)) = (frames.take m, []) := by
  obtain ⟨n', r', t', m, h1, h2, h3, h4, h5⟩ := c47_usb_transmit 64 (by omega) frames hne cs
  rw [h1] at h
  cases h
  exact ⟨m, h2, h3, fun e => (h4 e).2, h5⟩

/-- C78 as stated, towards the device: every frame of the new host process reaches the server as a message of its own. -/
def C78Requests : Prop :=
  ∀ (lost : Bool) (B : Nat), 64 ∣ B → 0 < B → ∀ (first second : List Bytes), (∀ d ∈ first, d ≠ []) → (∀ d ∈ second, d ≠ [] ∧ d.length < B) →
  ∀ (cs1 cs2 : List Completion) (n1 n2 : Nat) (r1 : NusbSent) (t1 t2 : NusbTx),
    nusb_send_all first ⟨some 64, [], 0⟩ cs1 = .ok (n1, r1, t1) → nusb_send_all second ⟨some 64, [], 0⟩ cs2 = .ok (n2, .Ok, t2) →
  ∀ (k calls : Nat), first.length + second.length ≤ calls →
    ∃ pre, (usb_receive_all lost B calls ((outPackets t1.submitted t2.submitted k).map .packet)).1 = pre ++ second.map .Ok

/-- C78 towards the device, exactly what happens: the server gets the frames of the old process up to some point, then those of the new
one, where the first of these comes behind the part of the next old frame that was sent; that part is empty or a beginning of that
frame, of full packets. -/
theorem c78_requests (lost : Bool) (B : Nat) (hB : 64 ∣ B) (hpos : 0 < B) (first second : List Bytes) (hne1 : ∀ d ∈ first, d ≠ [])
    (hne2 : ∀ d ∈ second, d ≠ []) (cs1 cs2 : List Completion) {n1 n2 : Nat} {r1 r2 : NusbSent} {t1 t2 : NusbTx}
    (h1 : nusb_send_all first ⟨some 64, [], 0⟩ cs1 = .ok (n1, r1, t1)) (h2 : nusb_send_all second ⟨some 64, [], 0⟩ cs2 = .ok (n2, r2, t2))
    (k : Nat) :
    ∃ i part m, i ≤ n1 + 1 ∧ i ≤ first.length ∧ n2 ≤ m ∧ m ≤ n2 + 1 ∧ (r2 = .Ok → m = second.length) ∧
      (part = [] ∨ ∃ d, first[i]? = some d ∧ part <+: d ∧ part ≠ []) ∧ 64 ∣ part.length ∧
      framesOf 64 [] ((t1.submitted.flatMap (bulk 64)).take k) = (first.take i, part) ∧
      ∀ calls, (usb_receive_all lost B calls ((outPackets t1.submitted t2.submitted k).map .packet)).1 =
        ((first.take i ++ behind part (second.take m)).map (rxResult B)).take calls := by
  obtain ⟨m1, a1, a2, a3, a4⟩ := sent_frames first hne1 cs1 h1
  obtain ⟨m2, b1, b2, b3, b4⟩ := sent_frames second hne2 cs2 h2
  generalize hX : t1.submitted.flatMap (bulk 64) = X at a4
  have hsmall : ∀ x ∈ X.take k, x.length ≤ 64 := by
    have := outPackets_small t1.submitted t2.submitted k
    rw [outPackets, hX] at this
    exact fun x hx => this x (List.mem_append.mpr (.inl hx))
  obtain ⟨c1, c2⟩ := framesOf_take 64 X k
  obtain ⟨_, tl, hcut, _, ht, htl⟩ := framesOf_packets _ hsmall
  rw [a4] at c1 c2
  have c1 : first.take m1 = _ := c1
  have hpre : (framesOf 64 [] (X.take k)).1 <+: first := ⟨_, by rw [← List.take_append_drop m1 first, c1, List.append_assoc]⟩
  have hlen := hpre.length_le
  have hi : (framesOf 64 [] (X.take k)).1.length ≤ m1 := by
    have := congrArg List.length c1
    rw [List.length_append, List.length_take] at this
    omega
  have hfst : first.take (framesOf 64 [] (X.take k)).1.length = (framesOf 64 [] (X.take k)).1 := by
    obtain ⟨z, hz⟩ := hpre
    conv => lhs; rw [← hz]
    simp
  refine ⟨(framesOf 64 [] (X.take k)).1.length, (framesOf 64 [] (X.take k)).2, m2, by omega, hlen, b1, b2, b3, ?_, ?_, ?_, ?_⟩
  · cases hd : (framesOf 64 [] (X.drop k)).1 with
    | nil =>
      left
      exact (List.append_eq_nil_iff.mp (c2 hd).symm).1
    | cons f fs =>
      by_cases hp : (framesOf 64 [] (X.take k)).2 = []
      · exact .inl hp
      · right
        rw [hd, behind] at c1
        refine ⟨(framesOf 64 [] (X.take k)).2 ++ f, ?_, ⟨f, rfl⟩, hp⟩
        have : (first.take m1)[(framesOf 64 [] (X.take k)).1.length]? = some ((framesOf 64 [] (X.take k)).2 ++ f) := by
          rw [c1, List.getElem?_append_right (Nat.le_refl _)]
          simp
        rw [List.getElem?_take] at this
        split at this
        · exact this
        · cases this
  · rw [htl]
    clear htl hcut
    induction tl with
    | nil => exact ⟨0, rfl⟩
    | cons x tl ih =>
      have := ih fun y hy => ht y (List.mem_cons_of_mem _ hy)
      have := ht x (List.mem_cons_self ..)
      rw [List.flatten_cons, List.length_append]
      omega
  · rw [hfst]
  · intro calls
    rw [receive_framesOf lost B hB hpos _ (outPackets_small _ _ _), outPackets, hX, framesOf_append]
    obtain ⟨d1, _⟩ := framesOf_cur 64 (framesOf 64 [] (X.take k)).2 (t2.submitted.flatMap (bulk 64))
    rw [d1, b4, hfst]

/-- One frame of 64 bytes and its end, then a short one. -/
example : nusb_send_all [List.replicate 64 1#8] ⟨some 64, [], 0⟩ [⟨none, []⟩, ⟨none, []⟩] =
    .ok (1, .Ok, ⟨some 64, [List.replicate 64 1#8, []], 0⟩) ∧
    nusb_send_all [[2#8]] ⟨some 64, [], 0⟩ [⟨none, []⟩] = .ok (1, .Ok, ⟨some 64, [[2#8]], 0⟩) := by decide +kernel

/-- C78 is false towards the device: the first frame of the new process is taken for the end of the last one of the old. -/
theorem c78_requests_false : ¬ C78Requests := by
  intro h
  obtain ⟨pre, h⟩ := h true 128 (by decide) (by decide) [List.replicate 64 1#8] [[2#8]] (by decide) (by decide)
    [⟨none, []⟩, ⟨none, []⟩] [⟨none, []⟩] 1 1 .Ok _ _
    (show _ = Exec.ok (1, NusbSent.Ok, (⟨some 64, [List.replicate 64 1#8, []], 0⟩ : NusbTx)) by decide +kernel)
    (show _ = Exec.ok (1, NusbSent.Ok, (⟨some 64, [[2#8]], 0⟩ : NusbTx)) by decide +kernel) 1 2 (by decide)
  have e : (usb_receive_all true 128 2 ((outPackets [List.replicate 64 1#8, []] [[2#8]] 1).map .packet)).1 =
      [.Ok (List.replicate 64 1#8 ++ [2#8])] := by decide +kernel
  rw [e] at h
  have : pre = [] := by
    have := congrArg List.length h
    simp at this
    exact this
  rw [this] at h
  revert h
  decide +kernel

/-- C78 towards the device, what holds: when the old process stopped between two frames, every frame of the new one reaches the server
as a message of its own.  Missing: processes that end in the middle of a frame or before the empty packet that ends one. -/
theorem c78_requests_partial (lost : Bool) (B : Nat) (hB : 64 ∣ B) (hpos : 0 < B) (first second : List Bytes)
    (hne1 : ∀ d ∈ first, d ≠ []) (hne2 : ∀ d ∈ second, d ≠ [] ∧ d.length < B) (cs1 cs2 : List Completion) {n1 n2 : Nat} {r1 : NusbSent}
    {t1 t2 : NusbTx} (h1 : nusb_send_all first ⟨some 64, [], 0⟩ cs1 = .ok (n1, r1, t1))
    (h2 : nusb_send_all second ⟨some 64, [], 0⟩ cs2 = .ok (n2, .Ok, t2)) (k : Nat)
    (hk : (framesOf 64 [] ((t1.submitted.flatMap (bulk 64)).take k)).2 = []) (calls : Nat) (hc : first.length + second.length ≤ calls) :
    ∃ i ≤ first.length, (usb_receive_all lost B calls ((outPackets t1.submitted t2.submitted k).map .packet)).1 =
      (first.take i).map (rxResult B) ++ second.map .Ok := by
  obtain ⟨i, part, m, _, hi, _, _, hm, _, _, hf, h⟩ :=
    c78_requests lost B hB hpos first second hne1 (fun d hd => (hne2 d hd).1) cs1 cs2 h1 h2 k
  rw [hf] at hk
  have hk : part = [] := hk
  subst hk
  refine ⟨i, hi, ?_⟩
  have hb : behind [] (second.take m) = second := by
    rw [hm rfl, List.take_length]
    cases second <;> rfl
  rw [h, hb, List.map_append, List.take_of_length_le (by simp; omega)]
  congr 1
  exact List.map_congr_left fun d hd => by rw [rxResult, if_pos (hne2 d hd).2]

example : (framesOf 64 [] (([List.replicate 64 1#8, []].flatMap (bulk 64)).take 2)).2 = [] ∧
    (framesOf 64 [] (([List.replicate 64 1#8, []].flatMap (bulk 64)).take 0)).2 = [] := by decide +kernel

/-- What becomes of the new frame: if the part that was sent of the old one had a complete header, the server takes the whole for the old
message, with the new frame added to its body, and for nothing else. -/
theorem c78_new_frame_swallowed (part f body : Bytes) (hdr : VarHeader) (h : IsFrame part hdr body) :
    IsFrame (part ++ f) hdr (body ++ f) ∧ ∀ hdr' body', IsFrame (part ++ f) hdr' body' → hdr' = hdr ∧ body' = body ++ f := by
  have h1 : IsFrame (part ++ f) hdr (body ++ f) := by
    unfold IsFrame at h ⊢
    rw [List.map_append, List.map_append, h, List.append_assoc]
  refine ⟨h1, fun hdr' body' h2 => ?_⟩
  obtain ⟨e1, e2⟩ := isFrame_unique h1 h2
  exact ⟨e1.symm, e2.symm⟩

example : IsFrame ([0x00#8, 0x83#8, 7#8] ++ List.replicate 61 9#8) ⟨.Key1 ⟨0x83⟩, .Seq1 7⟩ (List.replicate 61 9#8) := by
  unfold IsFrame
  decide +kernel

/-! ### From the device -/

/-- Transfers of frames shorter than 1024 bytes are shorter than that. -/
theorem history_small (h : List (Bytes × (Nat → WriteOut))) (hl : ∀ x ∈ h, x.1.length < 1024) :
    (∀ d ∈ (transfers [] (send_history h UsbTx.new).2.pkts).1, d.length < 1024) ∧
      (transfers [] (send_history h UsbTx.new).2.pkts).2.length < 1024 := by
  obtain ⟨cs, h1, h2, h3, h4⟩ := c31_usb_interrupted_sends h
  have hcs : ∀ t ∈ cs.flatMap Option.toList, t.length < 1024 := by
    intro t ht
    obtain ⟨c, hc, ht⟩ := List.mem_flatMap.mp ht
    obtain ⟨i, hi, rfl⟩ := List.mem_iff_getElem.mp hc
    have hx : h[i]? = some h[i] := List.getElem?_eq_getElem (by omega)
    have hr := List.getElem?_eq_getElem (l := (send_history h UsbTx.new).1) (i := i) (by rw [h2]; omega)
    obtain ⟨p1, _⟩ := h4 i _ _ _ hx hr (List.getElem?_eq_getElem hi)
    have hct : cs[i] = some t := by
      cases hc' : cs[i] with
      | none => rw [hc'] at ht; cases ht
      | some u => rw [hc'] at ht; simp at ht; rw [ht]
    have := (p1 t hct).1.length_le
    have := hl h[i] (List.getElem_mem _)
    omega
  rw [← h3, List.filter_append] at hcs
  constructor
  · intro d hd
    cases d with
    | nil => simp
    | cons a d => exact hcs _ (by simp [hd])
  · generalize (transfers [] (send_history h UsbTx.new).2.pkts).2 = o at hcs
    cases o with
    | nil => simp
    | cons a d => exact hcs _ (by simp)

/-- Transfers shorter than 1024 bytes are returned one by one. -/
theorem arrivals_small (pkts : List Bytes) (hp : ∀ p ∈ pkts, p.length ≤ 64) (h1 : ∀ d ∈ (transfers [] pkts).1, d.length < 1024)
    (h2 : (transfers [] pkts).2.length < 1024) : (inTransfers MAX_TRANSFER_SIZE [] pkts).1 = (transfers [] pkts).1 := by
  obtain ⟨h5, _⟩ := inTransfers_eq 1024 (by omega) (by decide) pkts hp [] (by simp)
  have z1 : blocks 1024 ([] : Bytes) = [] := blocks_lt (by simp)
  have z2 : leftover 1024 ([] : Bytes) = [] := leftover_lt (by simp)
  rw [z1, z2, List.nil_append, blocks_lt h2, List.append_nil] at h5
  rw [show MAX_TRANSFER_SIZE = 1024 from rfl, h5]
  generalize (transfers [] pkts).1 = l at h1
  induction l with
  | nil => rfl
  | cons d l ih =>
    have := h1 d (by simp)
    rw [List.flatMap_cons, ih fun x hx => h1 x (List.mem_cons_of_mem _ hx), blocks_lt this, leftover_lt this]
    rfl

/-- C78 as stated, from the device: every message the new host process receives is a frame of the device, all of whose sends succeed. -/
def C78Replies : Prop :=
  ∀ (h : List (Bytes × (Nat → WriteOut))), (∀ r ∈ (send_history h UsbTx.new).1, r = .Ok) → (∀ x ∈ h, x.1 ≠ [] ∧ x.1.length < 1024) →
  ∀ (k n : Nat), (arrivals ((send_history h UsbTx.new).2.pkts.drop k)).length < n →
    ∃ s ms, nusb_receive_all n [] NusbRx.new (arrivals ((send_history h UsbTx.new).2.pkts.drop k)) = .ok (ms, none, s) ∧
      ms <:+ h.map Prod.fst

/-- C78 from the device, exactly what happens, for sends of frames shorter than 1024 bytes, interrupted or not, when the old process had
taken `k` packets: put behind the part of a frame the old process had got last, the messages of the new one complete those of the old
one to all the device has sent. -/
theorem c78_replies (h : List (Bytes × (Nat → WriteOut))) (hl : ∀ x ∈ h, x.1.length < 1024) (k n : Nat)
    (hn : (arrivals ((send_history h UsbTx.new).2.pkts.drop k)).length < n) :
    ∃ s ms, nusb_receive_all n [] NusbRx.new (arrivals ((send_history h UsbTx.new).2.pkts.drop k)) = .ok (ms, none, s) ∧
      (transfers [] ((send_history h UsbTx.new).2.pkts.take k)).1 ++ behind (transfers [] ((send_history h UsbTx.new).2.pkts.take k)).2 ms =
        (transfers [] (send_history h UsbTx.new).2.pkts).1 := by
  obtain ⟨s1, s2⟩ := history_small h hl
  have small := send_history_small h UsbTx.new (by simp [UsbTx.new])
  generalize (send_history h UsbTx.new).2.pkts = pkts at s1 s2 small hn
  obtain ⟨c1, c2⟩ := framesOf_take 64 pkts k
  simp only [← transfers_framesOf] at c1 c2
  obtain ⟨s, hs⟩ := receive_arrivals _ n hn
  refine ⟨s, _, hs, ?_⟩
  rw [arrivals_small, c1]
  · exact fun p hp => small p (List.mem_of_mem_drop hp)
  · intro d hd
    rw [c1] at s1
    cases e : (transfers [] (pkts.drop k)).1 with
    | nil => rw [e] at hd; cases hd
    | cons f fs =>
      rw [e] at hd s1
      rcases List.mem_cons.mp hd with rfl | hd
      · have := s1 ((transfers [] (pkts.take k)).2 ++ d) (by simp [behind])
        rw [List.length_append] at this
        omega
      · exact s1 d (by simp [behind, hd])
  · cases e : (transfers [] (pkts.drop k)).1 with
    | nil =>
      rw [c2 e, List.length_append] at s2
      omega
    | cons f fs =>
      have h1 := framesOf_append 64 [] (pkts.take k) (pkts.drop k)
      rw [List.take_append_drop] at h1
      have h2 := (framesOf_cur 64 (framesOf 64 [] (pkts.take k)).2 (pkts.drop k)).2
      simp only [← transfers_framesOf] at h1 h2
      rw [e, if_neg (List.cons_ne_nil _ _)] at h2
      rw [h1] at s2
      simp only [h2] at s2
      exact s2

example : (transfers [] ((send_history [(List.replicate 100 5#8, allOk), ([1#8, 2#8], allOk)] UsbTx.new).2.pkts.take 1)) =
    ([], List.replicate 64 5#8) ∧
    nusb_receive_all 3 [] NusbRx.new (arrivals ((send_history [(List.replicate 100 5#8, allOk), ([1#8, 2#8], allOk)]
      UsbTx.new).2.pkts.drop 1)) = .ok ([List.replicate 36 5#8, [1#8, 2#8]], none, ⟨4, 0⟩) := by decide +kernel

/-- C78 is false from the device: the new process receives the end of a frame as a message. -/
theorem c78_replies_false : ¬ C78Replies := by
  intro h
  obtain ⟨s, ms, h1, h2⟩ := h [(List.replicate 100 5#8, allOk)] (by decide +kernel) (by simp) 1 2 (by decide +kernel)
  have e : nusb_receive_all 2 [] NusbRx.new (arrivals ((send_history [(List.replicate 100 5#8, allOk)] UsbTx.new).2.pkts.drop 1)) =
      .ok ([List.replicate 36 5#8], none, ⟨4, 0⟩) := by decide +kernel
  rw [e] at h1
  cases h1
  revert h2
  decide +kernel

/-- C78 from the device, what holds: when the old process had taken the packets of whole transfers, the new one gets exactly the
transfers after these; in particular, if all sends succeeded, exactly the frames after some point.  Missing: processes that end having
taken a part of a frame. -/
theorem c78_replies_partial (h : List (Bytes × (Nat → WriteOut))) (hl : ∀ x ∈ h, x.1 ≠ [] ∧ x.1.length < 1024) (k n : Nat)
    (hn : (arrivals ((send_history h UsbTx.new).2.pkts.drop k)).length < n)
    (hk : (transfers [] ((send_history h UsbTx.new).2.pkts.take k)).2 = []) :
    ∃ s ms, nusb_receive_all n [] NusbRx.new (arrivals ((send_history h UsbTx.new).2.pkts.drop k)) = .ok (ms, none, s) ∧
      (transfers [] ((send_history h UsbTx.new).2.pkts.take k)).1 ++ ms = (transfers [] (send_history h UsbTx.new).2.pkts).1 ∧
      ((∀ r ∈ (send_history h UsbTx.new).1, r = .Ok) → ms <:+ h.map Prod.fst) := by
  obtain ⟨s, ms, h1, h2⟩ := c78_replies h (fun x hx => (hl x hx).2) k n hn
  have hb : behind [] ms = ms := by cases ms <;> rfl
  rw [hk, hb] at h2
  refine ⟨s, ms, h1, h2, fun hok => ?_⟩
  have := c30_usb_send_framing h hok
  rw [this] at h2
  refine ⟨_, h2.trans ?_⟩
  rw [List.filter_eq_self]
  intro d hd
  obtain ⟨x, hx, rfl⟩ := List.mem_map.mp hd
  have := (hl x hx).1
  cases hx1 : x.1 with
  | nil => exact absurd hx1 this
  | cons _ _ => rfl

example : (transfers [] ((send_history [(List.replicate 64 5#8, allOk), ([1#8], allOk)] UsbTx.new).2.pkts.take 2)).2 = [] := by
  decide +kernel

end PRpc.Props
