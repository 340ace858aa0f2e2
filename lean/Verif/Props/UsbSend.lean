import Verif.Lemmas.UsbSend
/-! C68: a USB send reports why it failed. -/

namespace PRpc.Props

open Spec

/-- C68: a send succeeds exactly if all its packet writes are completed; it reports a closed connection exactly if the first
write that is not completed failed at the endpoint, and a timeout exactly if the timer went off during it; it reports nothing
else. -/
theorem c68_usb_send_result (o : Nat → WriteOut) (out : Bytes) (t : UsbTx) :
    ((send_all o out t).1 = .Ok ↔ ∀ i < writesFor t.pending_frame out.length, o i = .ok) ∧
    ((send_all o out t).1 = .ConnectionClosed ↔ ∃ i w, FirstBad o (writesFor t.pending_frame out.length) i ∧ o i = .err w) ∧
    ((send_all o out t).1 = .Timeout ↔ ∃ i w, FirstBad o (writesFor t.pending_frame out.length) i ∧ o i = .cut w) ∧
    (send_all o out t).1 ≠ .Other := by
  rw [send_all_scan]
  obtain ⟨h1, h2⟩ := scan_spec o 0 (writesFor t.pending_frame out.length)
  simp only [Nat.zero_add] at h1 h2
  cases e : scan o 0 (writesFor t.pending_frame out.length) with
  | none =>
    have hall := h1 e
    refine ⟨⟨fun _ => hall, fun _ => rfl⟩, ⟨fun h => (by cases h), ?_⟩, ⟨fun h => (by cases h), ?_⟩, by simp⟩
    · rintro ⟨i, w, ⟨hi, hb, _⟩, _⟩; exact absurd (hall i hi) hb
    · rintro ⟨i, w, ⟨hi, hb, _⟩, _⟩; exact absurd (hall i hi) hb
  | some r =>
    obtain ⟨k, hk, hbefore, hr⟩ := h2 r e
    have uniq : ∀ i, FirstBad o (writesFor t.pending_frame out.length) i → o k ≠ .ok → i = k := by
      rintro i ⟨_, hb, hf⟩ hk'
      rcases Nat.lt_trichotomy i k with h | h | h
      · exact absurd (hbefore i h) hb
      · exact h
      · exact absurd (hf k h) hk'
    rcases hr with ⟨rfl, w, hw⟩ | ⟨rfl, w, hw⟩
    · refine ⟨⟨fun h => (by cases h), fun h => ?_⟩, ⟨fun _ => ?_, fun _ => rfl⟩, ⟨fun h => (by cases h), ?_⟩, by simp⟩
      · rw [h k hk] at hw; cases hw
      · exact ⟨k, w, ⟨hk, by rw [hw]; simp, hbefore⟩, hw⟩
      · rintro ⟨i, w', hf, hc⟩
        rw [uniq i hf (by rw [hw]; simp), hw] at hc; cases hc
    · refine ⟨⟨fun h => (by cases h), fun h => ?_⟩, ⟨fun h => (by cases h), ?_⟩, ⟨fun _ => ?_, fun _ => rfl⟩, by simp⟩
      · rw [h k hk] at hw; cases hw
      · rintro ⟨i, w', hf, hc⟩
        rw [uniq i hf (by rw [hw]; simp), hw] at hc; cases hc
      · exact ⟨k, w, ⟨hk, by rw [hw]; simp, hbefore⟩, hw⟩

/-- A 128-byte frame after a cut one takes four writes; the fourth, the empty packet that ends the transfer, is cut. -/
example : (send_all (fun i => if i = 3 then .cut false else .ok) (List.replicate 128 7#8) ⟨true, []⟩).1 = .Timeout ∧
    writesFor true 128 = 4 ∧ FirstBad (fun i => if i = 3 then .cut false else .ok) 4 3 := by
  refine ⟨?_, rfl, by decide, by decide, by decide⟩
  exact (c68_usb_send_result _ _ _).2.2.1.mpr ⟨3, false, ⟨by rw [List.length_replicate]; decide, by decide, by decide⟩, rfl⟩

/-- A failing write of a short frame. -/
example : (send_all (fun _ => .err true) [1#8] ⟨false, []⟩).1 = .ConnectionClosed :=
  (c68_usb_send_result _ _ _).2.1.mpr ⟨0, true, ⟨by decide, by simp, by simp⟩, rfl⟩

end PRpc.Props
