import Verif.Lemmas.UsbLink
import Verif.Props.Nusb
/-!
Property theorems C49 and C50: the USB link as a whole, from the device's transmitter to the host's receiver, and the
WebUSB transmitter.
-/

namespace PRpc.Props
open PRpc PRpc.Spec

/-- The completions the host's receiver is given for packets `pkts` from the device: transfers of the size it asks for. -/
def arrivals (pkts : List Bytes) : List Completion :=
  (inTransfers MAX_TRANSFER_SIZE [] pkts).1.map fun d => ⟨none, d⟩

theorem tolerated_all_good (ds : List Bytes) (k : Nat) : ∃ k', Tolerated k (ds.map fun d => ⟨none, d⟩) ds k' := by
  induction ds generalizing k with
  | nil => exact ⟨k, .nil⟩
  | cons d ds ih =>
    obtain ⟨k', h⟩ := ih 0
    exact ⟨k', .good h⟩

theorem receive_arrivals (pkts : List Bytes) (n : Nat) (hn : (arrivals pkts).length < n) :
    ∃ s, nusb_receive_all n [] NusbRx.new (arrivals pkts) = .ok ((inTransfers MAX_TRANSFER_SIZE [] pkts).1, none, s) := by
  obtain ⟨k, h⟩ := tolerated_all_good (inTransfers MAX_TRANSFER_SIZE [] pkts).1 0
  exact ⟨_, c46_tolerates _ _ k h [] (by simp) n (by simpa [arrivals] using hn)⟩

/-- C49 as stated: what the host's receiver returns is exactly the frames sent by the device. -/
def C49Full : Prop :=
  ∀ (h : List (Bytes × (Nat → WriteOut))), (∀ r ∈ (send_history h UsbTx.new).1, r = .Ok) → (∀ x ∈ h, x.1 ≠ []) →
    ∀ n, (arrivals (send_history h UsbTx.new).2.pkts).length < n →
    ∃ s, nusb_receive_all n [] NusbRx.new (arrivals (send_history h UsbTx.new).2.pkts) = .ok (h.map Prod.fst, none, s)

/-- C49, exactly what arrives: every frame is cut into blocks of 1024 bytes followed by what is left over, which is
empty for a frame that is a multiple of 1024 bytes long. -/
theorem c49_usb_link_blocks (h : List (Bytes × (Nat → WriteOut))) (hok : ∀ r ∈ (send_history h UsbTx.new).1, r = .Ok)
    (hne : ∀ x ∈ h, x.1 ≠ []) (n : Nat) (hn : (arrivals (send_history h UsbTx.new).2.pkts).length < n) :
    ∃ s, nusb_receive_all n [] NusbRx.new (arrivals (send_history h UsbTx.new).2.pkts) =
      .ok ((h.map Prod.fst).flatMap fun d => blocks 1024 d ++ [leftover 1024 d], none, s) := by
  obtain ⟨s, hs⟩ := receive_arrivals _ n hn
  refine ⟨s, ?_⟩
  rw [hs]
  have h1 := c30_usb_send_framing h hok
  obtain ⟨h2, _⟩ := inTransfers_eq 1024 (by omega) (by decide) _
    (send_history_small h UsbTx.new (by simp [UsbTx.new])) [] (by simp)
  rw [h1] at h2
  have z1 : blocks 1024 ([] : Bytes) = [] := blocks_lt (by simp)
  have z2 : leftover 1024 ([] : Bytes) = [] := leftover_lt (by simp)
  have hf : (h.map Prod.fst).filter (fun f => !f.isEmpty) = h.map Prod.fst := by
    rw [List.filter_eq_self]
    intro d hd
    obtain ⟨x, hx, rfl⟩ := List.mem_map.mp hd
    have := hne x hx
    cases hx1 : x.1 with
    | nil => exact absurd hx1 this
    | cons _ _ => rfl
  simp only [z1, z2, List.nil_append, List.append_nil, hf] at h2
  rw [show MAX_TRANSFER_SIZE = 1024 from rfl, h2]

example : ∀ r ∈ (send_history [(List.replicate 1024 1#8, allOk)] UsbTx.new).1, r = .Ok := by
  have := c30_usb_send_succeeds [List.replicate 1024 1#8] UsbTx.new
  simp only [List.map_cons, List.map_nil] at this
  rw [this]; simp

/-- C49, what holds: frames shorter than 1024 bytes are returned exactly, one message each, in order.  Missing: longer
frames. -/
theorem c49_usb_link_partial (h : List (Bytes × (Nat → WriteOut))) (hok : ∀ r ∈ (send_history h UsbTx.new).1, r = .Ok)
    (hne : ∀ x ∈ h, x.1 ≠ [] ∧ x.1.length < 1024) (n : Nat)
    (hn : (arrivals (send_history h UsbTx.new).2.pkts).length < n) :
    ∃ s, nusb_receive_all n [] NusbRx.new (arrivals (send_history h UsbTx.new).2.pkts) =
      .ok (h.map Prod.fst, none, s) := by
  obtain ⟨s, hs⟩ := c49_usb_link_blocks h hok (fun x hx => (hne x hx).1) n hn
  refine ⟨s, ?_⟩
  rw [hs]
  have : ∀ l : List Bytes, (∀ d ∈ l, d.length < 1024) → (l.flatMap fun d => blocks 1024 d ++ [leftover 1024 d]) = l := by
    intro l
    induction l with
    | nil => intro _; rfl
    | cons d l ih =>
      intro hl
      have := hl d (by simp)
      rw [List.flatMap_cons, ih fun x hx => hl x (List.mem_cons_of_mem _ hx), blocks_lt this, leftover_lt this]
      rfl
  rw [this]
  intro d hd
  obtain ⟨x, hx, rfl⟩ := List.mem_map.mp hd
  exact (hne x hx).2

example : nusb_receive_all 3 [] NusbRx.new
    (arrivals (send_history [(List.replicate 64 1#8, allOk), ([2#8], allOk)] UsbTx.new).2.pkts) =
    .ok ([List.replicate 64 1#8, [2#8]], none, ⟨4, 0⟩) := by decide +kernel

/-- C49 is false as stated: a frame of 1024 bytes is followed by an empty message, and a longer one is returned in
pieces. -/
theorem c49_usb_link_false : ¬ C49Full := by
  intro h
  obtain ⟨d, hd⟩ : ∃ d : Bytes, d.length = 1024 := ⟨List.replicate 1024 1#8, List.length_replicate⟩
  have hok : ∀ r ∈ (send_history [(d, allOk)] UsbTx.new).1, r = .Ok := by
    have := c30_usb_send_succeeds [d] UsbTx.new
    simp only [List.map_cons, List.map_nil] at this
    rw [this]; simp
  have hne : ∀ x ∈ [(d, allOk)], x.1 ≠ [] := by
    intro x hx e
    simp only [List.mem_singleton] at hx
    subst hx
    simp only at e
    rw [e] at hd
    cases hd
  obtain ⟨s, h1⟩ := h _ hok hne _ (Nat.lt_succ_self _)
  obtain ⟨s', h2⟩ := c49_usb_link_blocks _ hok hne _ (Nat.lt_succ_self _)
  rw [h2] at h1
  simp only [Exec.ok.injEq, Prod.mk.injEq, List.map_cons, List.map_nil, List.flatMap_cons, List.flatMap_nil] at h1
  have := congrArg List.length h1.1
  rw [blocks_ge (by omega) (by omega)] at this
  simp at this

/-- C49, interrupted sends: in any history of sends of frames shorter than 1024 bytes, however each was cut off, the
non-empty messages the host returns are, in order, one optional contribution per send, a prefix of that send's frame and
for a successful send the whole frame, except that the contribution of the last interrupted send may still be on its
way. -/
theorem c49_usb_link_interrupted (h : List (Bytes × (Nat → WriteOut))) (hl : ∀ x ∈ h, x.1.length < 1024) (n : Nat)
    (hn : (arrivals (send_history h UsbTx.new).2.pkts).length < n) :
    ∃ s ms, nusb_receive_all n [] NusbRx.new (arrivals (send_history h UsbTx.new).2.pkts) = .ok (ms, none, s) ∧
    ∃ (cs : List (Option Bytes)) (tail : List Bytes), cs.length = h.length ∧
      ms.filter (fun t => !t.isEmpty) ++ tail = cs.flatMap Option.toList ∧ tail.length ≤ 1 ∧
      ∀ (i : Nat) (x : Bytes × (Nat → WriteOut)) (r : TxRes) (c : Option Bytes), h[i]? = some x →
        (send_history h UsbTx.new).1[i]? = some r → cs[i]? = some c →
        (∀ p, c = some p → p <+: x.1 ∧ p ≠ []) ∧ (r = .Ok → c = if x.1 = [] then none else some x.1) := by
  obtain ⟨s, hs⟩ := receive_arrivals _ n hn
  refine ⟨s, _, hs, ?_⟩
  obtain ⟨cs, h1, h2, h3, h4⟩ := c31_usb_interrupted_sends h
  have hcs : ∀ t ∈ cs.flatMap Option.toList, t.length < 1024 := by
    intro t ht
    obtain ⟨c, hc, ht⟩ := List.mem_flatMap.mp ht
    obtain ⟨i, hi, rfl⟩ := List.mem_iff_getElem.mp hc
    have hx : h[i]? = some h[i] := List.getElem?_eq_getElem (by omega)
    have hr := List.getElem?_eq_getElem (l := (send_history h UsbTx.new).1) (i := i) (by rw [h2]; omega)
    obtain ⟨p1, _⟩ := h4 i _ _ _ hx hr (List.getElem?_eq_getElem hi)
    have hct : cs[i] = some t := by
      cases hc' : cs[i] with
      | none => rw [hc'] at ht; cases ht
      | some u => rw [hc'] at ht; simp at ht; rw [ht]
    have := (p1 t hct).1.length_le
    have := hl h[i] (List.getElem_mem _)
    omega
  obtain ⟨h5, _⟩ := inTransfers_eq 1024 (by omega) (by decide) _
    (send_history_small h UsbTx.new (by simp [UsbTx.new])) [] (by simp)
  have z1 : blocks 1024 ([] : Bytes) = [] := blocks_lt (by simp)
  have z2 : leftover 1024 ([] : Bytes) = [] := leftover_lt (by simp)
  rw [z1, z2, List.nil_append] at h5
  rw [← h3] at hcs
  rw [List.filter_append] at h3 hcs
  have hdone : ∀ d ∈ (transfers [] (send_history h UsbTx.new).2.pkts).1, d.length < 1024 := by
    intro d hd
    cases d with
    | nil => simp
    | cons a d => exact hcs _ (by simp [hd])
  have hopen : (transfers [] (send_history h UsbTx.new).2.pkts).2.length < 1024 := by
    generalize (transfers [] (send_history h UsbTx.new).2.pkts).2 = o at hcs
    cases o with
    | nil => simp
    | cons a d => exact hcs _ (by simp)
  have hfm : ∀ l : List Bytes, (∀ d ∈ l, d.length < 1024) →
      (l.flatMap fun d => blocks 1024 d ++ [leftover 1024 d]) = l := by
    intro l
    induction l with
    | nil => intro _; rfl
    | cons d l ih =>
      intro hl
      have := hl d (by simp)
      rw [List.flatMap_cons, ih fun x hx => hl x (List.mem_cons_of_mem _ hx), blocks_lt this, leftover_lt this]
      rfl
  rw [hfm _ hdone, blocks_lt hopen, List.append_nil] at h5
  refine ⟨cs, [(transfers [] (send_history h UsbTx.new).2.pkts).2].filter (fun t => !t.isEmpty), h1, ?_, ?_, h4⟩
  · rw [show MAX_TRANSFER_SIZE = 1024 from rfl, h5]
    exact h3
  · exact Nat.le_trans (List.length_filter_le _ _) (by simp)

example : nusb_receive_all 3 [] NusbRx.new (arrivals (send_history
    [(List.replicate 100 5#8, fun i => if i = 0 then .ok else .cut false), ([1#8, 2#8], allOk)] UsbTx.new).2.pkts) =
    .ok ([List.replicate 64 5#8, [1#8, 2#8]], none, ⟨4, 0⟩) := by decide +kernel

/-! ### WebUSB -/

/-- C50 as stated: frames sent over WebUSB arrive at the device one by one. -/
def C50Full : Prop :=
  ∀ (p : Nat), 0 < p → ∀ (frames : List Bytes), (∀ d ∈ frames, d ≠ []) →
    framesOf p [] ((frames.flatMap webusb_send).flatMap (bulk p)) = (frames, [])

/-- C50 is false: a frame that fills its last packet is not ended, and the device takes the next one as its
continuation. -/
theorem c50_webusb_transmit_false : ¬ C50Full := by
  intro h
  have := h 2 (by omega) [[1#8, 2#8], [3#8]] (by simp)
  simp [webusb_send, bulk, framesOf] at this

/-- C50, how it goes wrong in general: two frames, the first filling its last packet and the second not, arrive as
one. -/
theorem c50_webusb_joins (p : Nat) (hp : 0 < p) (a b : Bytes) (ha : a ≠ []) (hm : a.length % p = 0)
    (hb : b.length % p ≠ 0) :
    framesOf p [] ((webusb_send a ++ webusb_send b).flatMap (bulk p)) = ([a ++ b], []) := by
  simp only [webusb_send, List.cons_append, List.nil_append, List.flatMap_cons, List.flatMap_nil, List.append_nil]
  rw [framesOf_append, framesOf_bulk p hp]
  simp [hm, ha, framesOf_bulk p hp, hb]

example : [1#8, 2#8] ≠ [] ∧ [1#8, 2#8].length % 2 = 0 ∧ [3#8].length % 2 ≠ 0 := by decide

/-- C50, what holds: frames that do not fill their last packet arrive exactly.  Missing: those that do. -/
theorem c50_webusb_transmit_partial (p : Nat) (hp : 0 < p) (frames : List Bytes)
    (hne : ∀ d ∈ frames, d.length % p ≠ 0) :
    framesOf p [] ((frames.flatMap webusb_send).flatMap (bulk p)) = (frames, []) := by
  induction frames with
  | nil => rfl
  | cons d ds ih =>
    have := hne d (by simp)
    rw [List.flatMap_cons, List.flatMap_append, framesOf_append]
    simp only [webusb_send, List.flatMap_cons, List.flatMap_nil, List.append_nil, framesOf_bulk p hp, this, false_and,
      if_false]
    have ih := ih fun x hx => hne x (List.mem_cons_of_mem _ hx)
    rw [ih]
    simp

example : ∀ d ∈ [[1#8, 2#8, 3#8], [4#8]], d.length % 2 ≠ 0 := by decide

end PRpc.Props
