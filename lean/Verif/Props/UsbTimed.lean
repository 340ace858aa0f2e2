import Verif.Lemmas.UsbTimed
/-! C73: a USB send ends in time. -/

namespace PRpc.Props

open Spec

/-- Frames whose time limit does not overflow `usize` (see C33 for those that do). -/
def NoOverflow (umax : Nat) (ops : List TimedOp) : Prop :=
  ∀ out ws, TimedOp.send out ws ∈ ops → out.length + 63 ≤ umax ∧ dataPackets out.length * 60000 ≤ umax

/-- What C73 says of a send with `per` milliseconds allowed for each packet, of a frame of `len` bytes, after a frame that was
cut or not: its result and the time it took. -/
def SentInTime (per : Nat) (cutBefore : Bool) (len : Nat) (ws : Nat → WriteTime) (r : TxRes) (us : Nat) : Prop :=
  us ≤ dataPackets len * per * 1000 ∧
  ((r = .Ok ∧ Written ws (packets cutBefore len) us) ∨
   (r = .ConnectionClosed ∧ FailsAt ws (packets cutBefore len) us) ∨
   (r = .Timeout ∧ us = dataPackets len * per * 1000 ∧
     ∀ e, e ≤ dataPackets len * per * 1000 → ¬ Written ws (packets cutBefore len) e ∧ ¬ FailsAt ws (packets cutBefore len) e))

theorem allowance_bound {a : Nat} (h1 : 1 ≤ a) (h2 : a ≤ 60000) (ops : List TimedOp) :
    1 ≤ allowance a ops ∧ allowance a ops ≤ 60000 := by
  induction ops generalizing a with
  | nil => exact ⟨h1, h2⟩
  | cons op ops ih =>
    cases op with
    | set t => simp only [allowance]; apply ih <;> (split <;> try split) <;> omega
    | send out ws => exact ih h1 h2

theorem limit_eq {umax : Nat} {checks : Bool} {len per : Nat} (h1 : len + 63 ≤ umax) (h2 : dataPackets len * 60000 ≤ umax)
    (hp : per ≤ 60000) : send_timeout umax checks len per = .ok (dataPackets len * per) := by
  have hf : (len + 63) / 64 = dataPackets len := by simp only [dataPackets]; split <;> omega
  have hle : dataPackets len * per ≤ dataPackets len * 60000 := Nat.mul_le_mul_left _ hp
  have hm : (len + 63) % (umax + 1) = len + 63 := Nat.mod_eq_of_lt (by omega)
  simp only [send_timeout, hm, hf]
  rw [if_neg (by omega), if_neg (by omega), Nat.mod_eq_of_lt (by omega)]

theorem timed_run_spec {umax : Nat} {checks : Bool} {ops : List TimedOp} (hno : NoOverflow umax ops) (t : TimedTx)
    (h1 : 1 ≤ t.timeout_ms_per_frame) (h2 : t.timeout_ms_per_frame ≤ 60000) :
    ∃ rs t', timed_run umax checks ops t = .ok (rs, t') ∧ rs.length = ops.length ∧
      ∀ k out ws, ops[k]? = some (.send out ws) → out ≠ [] → ∃ r us, rs[k]? = some (some (r, us)) ∧
        SentInTime (allowance t.timeout_ms_per_frame (ops.take k)) (lastCut t.ep.pending_frame ((ops.zip rs).take k)) out.length
          ws r us := by
  induction ops generalizing t with
  | nil => exact ⟨[], t, rfl, rfl, by simp⟩
  | cons op ops ih =>
    have hno' : NoOverflow umax ops := fun o w hm => hno o w (List.mem_cons_of_mem _ hm)
    cases op with
    | set x =>
      have hc : set_timeout_ms_per_frame x = if x < 1 then 1 else if 60000 < x then 60000 else x := by
        simp only [set_timeout_ms_per_frame]; (split <;> try split) <;> omega
      obtain ⟨rs, t', hr, hl, hall⟩ := ih hno' { t with timeout_ms_per_frame := set_timeout_ms_per_frame x }
        (by simp only [set_timeout_ms_per_frame]; omega) (by simp only [set_timeout_ms_per_frame]; omega)
      refine ⟨none :: rs, t', by simp [timed_run, timed_op, hr], by simp [hl], fun k out ws hk hne => ?_⟩
      cases k with
      | zero => simp at hk
      | succ k =>
        obtain ⟨r, us, h⟩ := hall k out ws (by simpa using hk) hne
        refine ⟨r, us, ?_⟩
        simp only [List.getElem?_cons_succ, List.take_succ_cons, List.zip_cons_cons, allowance, lastCut]
        rw [← hc]
        exact h
    | send o w =>
      obtain ⟨r, us, ep, hs⟩ : ∃ r us ep, send_all_timed umax checks t.timeout_ms_per_frame w o t.ep = .ok (r, us, ep) ∧
          ep.pending_frame = (if o = [] then t.ep.pending_frame else (r != .Ok)) ∧
          (o ≠ [] → SentInTime t.timeout_ms_per_frame t.ep.pending_frame o.length w r us) := by
        by_cases hne : o = []
        · subst hne; exact ⟨_, _, _, rfl, rfl, fun h => absurd rfl h⟩
        · obtain ⟨b1, b2⟩ := hno o w List.mem_cons_self
          obtain ⟨r, us, ep, a1, a0, a2, a3⟩ := send_all_timed_spec (ws := w) (t := t.ep) hne (limit_eq (checks := checks) b1 b2 h2)
          exact ⟨r, us, ep, a1, by rw [if_neg hne]; exact a0, fun _ => ⟨a2, a3⟩⟩
      obtain ⟨rs, t', hr, hl, hall⟩ := ih hno' { t with ep := ep } h1 h2
      refine ⟨some (r, us) :: rs, t', by simp [timed_run, timed_op, hs.1, hr], by simp [hl], fun k out ws hk hne => ?_⟩
      cases k with
      | zero =>
        simp only [List.getElem?_cons_zero, Option.some.injEq, TimedOp.send.injEq] at hk
        obtain ⟨rfl, rfl⟩ := hk
        exact ⟨r, us, rfl, hs.2.2 hne⟩
      | succ k =>
        obtain ⟨r', us', h⟩ := hall k out ws (by simpa using hk) hne
        refine ⟨r', us', ?_⟩
        simp only [List.getElem?_cons_succ, List.take_succ_cons, List.zip_cons_cons, allowance, lastCut]
        rw [← hs.2.1]
        exact h

/-- C73 (time limit): whatever the host does, no send takes longer than the allowance in force when it started (the last value
set before, 2 ms if none) times the number of its data packets.  It succeeds, at the time its last packet is written, if all
are written by then; it reports a closed connection at the time a packet fails; it reports a timeout only if neither happens
within the limit, and exactly at the limit. -/
theorem c73_usb_send_in_time {umax : Nat} {checks : Bool} {ops : List TimedOp} (hno : NoOverflow umax ops) :
    ∃ rs t', timed_run umax checks ops TimedTx.new = .ok (rs, t') ∧ rs.length = ops.length ∧
      ∀ k out ws, ops[k]? = some (.send out ws) → out ≠ [] → ∃ r us, rs[k]? = some (some (r, us)) ∧
        SentInTime (allowance 2 (ops.take k)) (lastCut false ((ops.zip rs).take k)) out.length ws r us :=
  timed_run_spec hno TimedTx.new (by decide) (by decide)


/-- The default allowance; 5 ms are set; a frame of 100 bytes whose first packet takes 3 ms and whose second never gets out:
the send ends with a timeout after 10 ms. -/
example : (timed_run (2 ^ 32 - 1) true
      [.send [1#8] fun _ => ⟨some 1500, false, false⟩, .set 5,
       .send (List.replicate 100 7#8) fun i => ⟨if i = 0 then some 3000 else none, false, false⟩] TimedTx.new >>= fun x => .ok x.1) =
    .ok [some (.Ok, 1500), none, some (.Timeout, 10000)] := by decide +kernel

/-- C73 as stated (second half): a send to a host that takes every packet within the allowance succeeds. -/
def C73Full : Prop :=
  ∀ (umax : Nat) (checks : Bool) (per : Nat) (ws : Nat → WriteTime) (out : Bytes) (t : UsbTx), out ≠ [] → 1 ≤ per → per ≤ 60000 →
    out.length + 63 ≤ umax → dataPackets out.length * 60000 ≤ umax → Prompt ws (packets t.pending_frame out.length) per →
    ∃ us t', send_all_timed umax checks per ws out t = .ok (.Ok, us, t')

theorem written_prompt {ws : Nat → WriteTime} {n ms : Nat} (h : Prompt ws n ms) : ∃ e, Written ws n e ∧ e ≤ n * ms * 1000 := by
  induction n with
  | zero => exact ⟨0, .zero, by omega⟩
  | succ n ih =>
    obtain ⟨e, h1, h2⟩ := ih fun i hi => h i (by omega)
    obtain ⟨hf, d, hd, hle⟩ := h n (by omega)
    refine ⟨e + d, .succ h1 hd hf, ?_⟩
    rw [Nat.add_one_mul, Nat.add_mul]
    omega

theorem written_slow {us n : Nat} : Written (fun _ => ⟨some us, false, false⟩) n (n * us) := by
  induction n with
  | zero => rw [Nat.zero_mul]; exact .zero
  | succ n ih => rw [Nat.add_one_mul]; exact .succ ih rfl rfl

/-- C73 (what a host has to do): exactly for frames that end with a short packet and do not follow a cut one is it enough that the
host takes every packet within the allowance.  For every other frame there is a host that does so, and the send ends with a
timeout: the packets that end frames are not allowed for. -/
theorem c73_usb_prompt_host_partial {umax : Nat} {checks : Bool} {per : Nat} {out : Bytes} {t : UsbTx} (hne : out ≠ [])
    (h1 : 1 ≤ per) (h2 : per ≤ 60000) (h3 : out.length + 63 ≤ umax) (h4 : dataPackets out.length * 60000 ≤ umax) :
    (∀ ws, Prompt ws (packets t.pending_frame out.length) per → ∃ us t', send_all_timed umax checks per ws out t = .ok (.Ok, us, t'))
      ↔ out.length % 64 ≠ 0 ∧ t.pending_frame = false := by
  have hlim := limit_eq (checks := checks) h3 h4 h2
  have hp := List.length_pos_iff.mpr hne
  constructor
  · intro h
    refine Classical.byContradiction fun hc => ?_
    obtain ⟨us, t', hs⟩ := h (fun _ => ⟨some (per * 1000), false, false⟩) fun i _ => ⟨rfl, _, rfl, Nat.le_refl _⟩
    obtain ⟨r, us', t'', a1, _, a2, a3⟩ := send_all_timed_spec (ws := fun _ => ⟨some (per * 1000), false, false⟩) (t := t) hne hlim
    rw [hs] at a1
    cases a1
    rcases a3 with ⟨_, hw⟩ | ⟨h, _⟩ | ⟨h, _⟩
    · have := hw.unique written_slow
      subst this
      have hk : dataPackets out.length + 1 ≤ packets t.pending_frame out.length := by
        simp only [packets]
        by_cases hm : out.length % 64 = 0
        · simp only [hm, if_true]; omega
        · cases hpf : t.pending_frame with
          | false => exact absurd ⟨hm, hpf⟩ hc
          | true => simp only [if_true]; omega
      have h5 := Nat.mul_le_mul_right (per * 1000) hk
      rw [Nat.add_one_mul] at h5
      rw [Nat.mul_assoc] at a2
      omega
    · cases h
    · cases h
  · rintro ⟨hm, hpf⟩ ws hpr
    have hk : packets t.pending_frame out.length = dataPackets out.length := by
      simp only [packets, hpf, hm, if_false, Bool.false_eq_true]; omega
    obtain ⟨r, us', t'', a1, _, a2, a3⟩ := send_all_timed_spec (ws := ws) (t := t) hne hlim
    obtain ⟨e, hw, hle⟩ := written_prompt hpr
    rw [hk] at hw hle a3
    rcases a3 with ⟨rfl, _⟩ | ⟨_, i, _, _, hi, _, _, hf, _⟩ | ⟨_, _, h⟩
    · exact ⟨_, _, a1⟩
    · exact absurd (hw.ok i hi) (by simp [hf])
    · exact absurd hw (h e hle).1

/-- C73 as stated is false: 64 bytes at the default of 2 ms, the host takes each of the two packets after 2 ms. -/
theorem c73_usb_prompt_host_false : ¬ C73Full := by
  intro h
  have := (c73_usb_prompt_host_partial (umax := 2 ^ 32 - 1) (checks := true) (per := 2) (out := List.replicate 64 0#8) (t := UsbTx.new)
    (by decide) (by decide) (by decide) (by decide) (by decide)).mp
    fun ws hw => h (2 ^ 32 - 1) true 2 ws (List.replicate 64 0#8) UsbTx.new (by decide) (by decide) (by decide) (by decide) (by decide) hw
  exact absurd this.1 (by decide)

example : (send_all_timed (2 ^ 32 - 1) true 2 (fun _ => ⟨some 2000, false, false⟩) (List.replicate 64 0#8) UsbTx.new
      >>= fun x => .ok (x.1, x.2.1)) = .ok (.Timeout, 2000) := by decide +kernel

/-- C73 (enough for any frame): every send succeeds if the host takes every packet within a third of the allowance. -/
theorem c73_usb_third_of_allowance {umax : Nat} {checks : Bool} {per ms : Nat} {out : Bytes} {t : UsbTx} {ws : Nat → WriteTime}
    (hne : out ≠ []) (h2 : per ≤ 60000) (h3 : out.length + 63 ≤ umax) (h4 : dataPackets out.length * 60000 ≤ umax)
    (hms : 3 * ms ≤ per) (hpr : Prompt ws (packets t.pending_frame out.length) ms) :
    ∃ us t', send_all_timed umax checks per ws out t = .ok (.Ok, us, t') := by
  have hp := List.length_pos_iff.mpr hne
  obtain ⟨r, us', t'', a1, _, a2, a3⟩ := send_all_timed_spec (ws := ws) (t := t) hne (limit_eq (checks := checks) h3 h4 h2)
  obtain ⟨e, hw, hle⟩ := written_prompt hpr
  have hd : 1 ≤ dataPackets out.length := by simp only [dataPackets]; split <;> omega
  have hk : packets t.pending_frame out.length ≤ dataPackets out.length * 3 := by
    simp only [packets]; split <;> split <;> omega
  have h5 : packets t.pending_frame out.length * ms ≤ dataPackets out.length * per := by
    refine Nat.le_trans (Nat.mul_le_mul_right ms hk) ?_
    rw [Nat.mul_assoc]
    exact Nat.mul_le_mul_left _ hms
  have h6 := Nat.mul_le_mul_right 1000 h5
  rcases a3 with ⟨rfl, _⟩ | ⟨_, i, _, _, hi, _, _, hf, _⟩ | ⟨_, _, h⟩
  · exact ⟨_, _, a1⟩
  · exact absurd (hw.ok i hi) (by simp [hf])
  · exact absurd hw (h e (Nat.le_trans hle h6)).1

example : Prompt (fun _ => ⟨some 1700, false, false⟩) (packets true 64) 2 ∧ 3 * 2 ≤ 6 :=
  ⟨fun _ _ => ⟨rfl, 1700, rfl, by omega⟩, by decide⟩

end PRpc.Props
