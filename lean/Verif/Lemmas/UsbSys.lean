import Verif.Spec.UsbSys
import Verif.Lemmas.Usb
import Verif.Lemmas.Bounded
/-!
Lemmas on client and server over a USB cable: the packets in either direction, and how runs packet by packet are runs of the
composed system with whole messages on its links.
-/

namespace PRpc

open Spec

variable {V E SC Ctx : Type}

/-! ### Packets -/

theorem dev_packets_eq (b : Bytes) : dev_packets b = host_packets b := by rw [dev_packets, and63]; rfl

theorem host_packets_lt {b : Bytes} (h : b.length < 64) : host_packets b = [b] := by
  unfold host_packets
  by_cases hb : b = []
  · subst hb; rw [chunks64_nil]; rfl
  · have hp := List.length_pos_iff.mpr hb
    rw [chunks64_cons hb, List.drop_eq_nil_of_le (by omega), chunks64_nil, List.take_of_length_le (by omega), if_neg (by omega)]
    rfl

theorem host_packets_ge {b : Bytes} (h : 64 ≤ b.length) : host_packets b = b.take 64 :: host_packets (b.drop 64) := by
  unfold host_packets
  have hb : b ≠ [] := fun e => by rw [e] at h; simp at h
  rw [chunks64_cons hb, List.length_drop, show (b.length - 64) % 64 = b.length % 64 by omega]
  rfl

theorem host_packets_ne (b : Bytes) : host_packets b ≠ [] := by
  by_cases h : b.length < 64
  · rw [host_packets_lt h]; simp
  · rw [host_packets_ge (by omega)]; simp

theorem host_packets_le (b : Bytes) : ∀ p ∈ host_packets b, p.length ≤ 64 := by
  generalize hn : b.length = n
  induction n using Nat.strongRecOn generalizing b with
  | _ n ih =>
    by_cases h : b.length < 64
    · rw [host_packets_lt h]; intro p hp; rw [List.mem_singleton.mp hp]; omega
    · rw [host_packets_ge (by omega)]
      intro p hp
      rcases List.mem_cons.mp hp with rfl | hp
      · rw [List.length_take]; omega
      · exact ih _ (by rw [List.length_drop]; omega) _ rfl p hp

/-- The first of several packets: full with more to come, or short, the last, and everything. -/
theorem host_packets_cons {b p : Bytes} {rest : List Bytes} (h : host_packets b = p :: rest) :
    (p.length = 64 ∧ p = b.take 64 ∧ rest = host_packets (b.drop 64) ∧ 64 ≤ b.length) ∨ (p.length < 64 ∧ p = b ∧ rest = []) := by
  by_cases hb : b.length < 64
  · rw [host_packets_lt hb] at h
    cases h
    exact .inr ⟨hb, rfl, rfl⟩
  · rw [host_packets_ge (by omega)] at h
    cases h
    exact .inl ⟨by rw [List.length_take]; omega, rfl, rfl, by omega⟩

/-- Full packets, then a packet, on a stream that begins with the packets of `m`: a short one completes `m`. -/
theorem stream_split {fp : List Bytes} (hf : ∀ q ∈ fp, q.length = 64) {p : Bytes} (hp : p.length ≠ 64) :
    ∀ {m : Bytes} {X Y : List Bytes}, fp ++ p :: X = host_packets m ++ Y → m = fp.flatten ++ p ∧ X = Y ∧ p.length < 64 := by
  induction fp with
  | nil =>
    intro m X Y h
    cases e : host_packets m with
    | nil => exact absurd e (host_packets_ne m)
    | cons q r =>
      rw [e] at h
      simp only [List.nil_append, List.cons_append, List.cons.injEq] at h
      obtain ⟨rfl, rfl⟩ := h
      rcases host_packets_cons e with ⟨h1, _⟩ | ⟨h1, rfl, rfl⟩
      · exact absurd h1 hp
      · exact ⟨by simp, rfl, h1⟩
  | cons q fp ih =>
    intro m X Y h
    cases e : host_packets m with
    | nil => exact absurd e (host_packets_ne m)
    | cons q' r =>
      rw [e] at h
      simp only [List.cons_append, List.cons.injEq] at h
      obtain ⟨rfl, h⟩ := h
      have hq := hf q (List.mem_cons_self ..)
      rcases host_packets_cons e with ⟨h1, h2, rfl, _⟩ | ⟨h1, _⟩
      · obtain ⟨i1, i2, i3⟩ := ih (fun x hx => hf x (List.mem_cons_of_mem _ hx)) h
        refine ⟨?_, i2, i3⟩
        rw [List.flatten_cons, List.append_assoc, ← i1, h2, List.take_append_drop]
      · omega

/-- A full packet belongs to the message under way. -/
theorem stream_more {fp : List Bytes} (hf : ∀ q ∈ fp, q.length = 64) : ∀ {m : Bytes} {X Y : List Bytes},
    fp ++ X = host_packets m ++ Y → X ≠ [] → ∃ t, m = fp.flatten ++ t := by
  induction fp with
  | nil => intro m X Y h _; exact ⟨m, rfl⟩
  | cons q fp ih =>
    intro m X Y h hX
    cases e : host_packets m with
    | nil => exact absurd e (host_packets_ne m)
    | cons q' r =>
      rw [e] at h
      simp only [List.cons_append, List.cons.injEq] at h
      obtain ⟨rfl, h⟩ := h
      have hq := hf q (List.mem_cons_self ..)
      rcases host_packets_cons e with ⟨h1, h2, rfl, _⟩ | ⟨h1, _⟩
      · obtain ⟨t, ht⟩ := ih (fun x hx => hf x (List.mem_cons_of_mem _ hx)) h hX
        exact ⟨t, by rw [List.flatten_cons, List.append_assoc, ← ht, h2, List.take_append_drop]⟩
      · omega

/-- Full packets alone are not the packets of whole messages. -/
theorem stream_full {fp : List Bytes} (hf : ∀ q ∈ fp, q.length = 64) {ms : List Bytes} (h : fp = ms.flatMap host_packets) : ms = [] := by
  cases ms with
  | nil => rfl
  | cons m ms =>
    exfalso
    rw [List.flatMap_cons] at h
    have : ∃ q ∈ host_packets m, q.length < 64 := by
      clear h
      generalize hn : m.length = n
      induction n using Nat.strongRecOn generalizing m with
      | _ n ih =>
        by_cases hm : m.length < 64
        · exact ⟨m, by rw [host_packets_lt hm]; simp, hm⟩
        · obtain ⟨q, h1, h2⟩ := ih (m.drop 64).length (by rw [List.length_drop]; omega) (m.drop 64) rfl
          exact ⟨q, by rw [host_packets_ge (by omega)]; exact List.mem_cons_of_mem _ h1, h2⟩
    obtain ⟨q, h1, h2⟩ := this
    have := hf q (h ▸ List.mem_append_left _ h1)
    omega

theorem flatten_full {fp : List Bytes} (hf : ∀ q ∈ fp, q.length = 64) : fp.flatten.length = 64 * fp.length := by
  induction fp with
  | nil => rfl
  | cons q fp ih =>
    have := hf q (List.mem_cons_self ..)
    have := ih (fun x hx => hf x (List.mem_cons_of_mem _ hx))
    simp only [List.flatten_cons, List.length_append, List.length_cons]
    omega

/-- With a buffer of whole packets a packet stops the receiver only if it is short. -/
theorem rx_step_cases {lost : Bool} {B : Nat} (hB : 64 ∣ B) (hpos : 0 < B) {fp : List Bytes} (hf : ∀ q ∈ fp, q.length = 64) {p : Bytes}
    (hp : p.length ≤ 64) (rx : DevRx) (hrx : ∀ got, rx = .filling got → got = fp.flatten) :
    (p.length = 64 ∧ (rx_step lost B rx p = .more .draining ∨ rx_step lost B rx p = .more (.filling (fp ++ [p]).flatten))) ∨
    (p.length ≠ 64 ∧ (rx_step lost B rx p = .done none false ∨ rx_step lost B rx p = .done (some (fp.flatten ++ p)) false)) := by
  have hB64 : 64 ≤ B := Nat.le_of_dvd hpos hB
  have drain : (p.length = 64 ∧ drain_step lost B p = .more .draining) ∨ (p.length ≠ 64 ∧ drain_step lost B p = .done none false) := by
    unfold drain_step
    rw [if_neg (by omega)]
    by_cases h : p.length = 64
    · exact .inl ⟨h, by rw [if_pos h]⟩
    · exact .inr ⟨h, by rw [if_neg h]⟩
  cases rx with
  | draining =>
    simp only [rx_step]
    rcases drain with ⟨h1, h2⟩ | ⟨h1, h2⟩
    · exact .inl ⟨h1, .inl h2⟩
    · exact .inr ⟨h1, .inl h2⟩
  | filling got =>
    have hg := hrx got rfl
    have hl : got.length = 64 * fp.length := by rw [hg, flatten_full hf]
    simp only [rx_step]
    by_cases h0 : B - got.length = 0
    · rw [if_pos h0]
      rcases drain with ⟨h1, h2⟩ | ⟨h1, h2⟩
      · exact .inl ⟨h1, .inl h2⟩
      · exact .inr ⟨h1, .inl h2⟩
    · obtain ⟨k, rfl⟩ := hB
      rw [if_neg h0, if_neg (by omega)]
      by_cases h : p.length = 64
      · refine .inl ⟨h, .inr ?_⟩
        rw [if_neg (by omega), hg]
        simp
      · refine .inr ⟨h, .inr ?_⟩
        rw [if_pos h, hg]

/-- If the message fits into the buffer the receiver does not lose it. -/
theorem rx_step_fits {lost : Bool} {B : Nat} (hB : 64 ∣ B) {fp : List Bytes} (hf : ∀ q ∈ fp, q.length = 64) {p : Bytes} (hp : p.length ≤ 64)
    (h : (fp.flatten ++ p).length < B ∨ (p.length = 64 ∧ (fp.flatten ++ p).length ≤ B)) : ∀ r, rx_step lost B (.filling fp.flatten) p ≠ .done none r ∧
      rx_step lost B (.filling fp.flatten) p ≠ .more .draining := by
  intro r
  have hl := flatten_full hf
  rw [List.length_append] at h
  obtain ⟨k, rfl⟩ := hB
  simp only [rx_step]
  rw [if_neg (by omega), if_neg (by omega)]
  split <;> simp

/-- The loops of `receive` are turns of `rx_step`. -/
theorem rx_loop_step (lost : Bool) (B : Nat) (got p : Bytes) (q : List UsbIn) :
    rx_loop lost B got (.packet p :: q) = match rx_step lost B (.filling got) p with
      | .more (.filling g) => rx_loop lost B g q
      | .more .draining => rx_drain lost B q
      | .done (some m) _ => (.Ok m, q)
      | .done none kept => (.ReceivedMessageTooLarge, if kept then .packet p :: q else q) := by
  simp only [rx_loop, rx_step, drain_step, rx_drain]
  cases lost <;> (repeat' split) <;> simp_all

theorem rx_drain_step (lost : Bool) (B : Nat) (p : Bytes) (q : List UsbIn) :
    rx_drain lost B (.packet p :: q) = match rx_step lost B .draining p with
      | .more (.filling g) => rx_loop lost B g q
      | .more .draining => rx_drain lost B q
      | .done (some m) _ => (.Ok m, q)
      | .done none kept => (.ReceivedMessageTooLarge, if kept then .packet p :: q else q) := by
  simp only [rx_step, drain_step, rx_drain]
  cases lost <;> (repeat' split) <;> simp_all

end PRpc
