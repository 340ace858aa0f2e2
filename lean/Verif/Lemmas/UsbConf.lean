import Verif.Lemmas.UsbLive
import Verif.Spec.Nusb
/-! The steps of the system over USB against the functions of the transports. -/

namespace PRpc

open Spec
variable {V E SC Ctx : Type}

/-! ### The writes of a send are those of `send_all` -/

/-- What the host has: the completed transfers and the current one. -/
def hget (x : Sys V E SC Ctx × Bytes) (p : Bytes) : Sys V E SC Ctx × Bytes :=
  if p.length < 64 ∨ (x.2 ++ p).length = MAX_TRANSFER_SIZE then ({ x.1 with air := x.1.air ++ [x.2 ++ p] }, []) else (x.1, x.2 ++ p)

theorem host_get_eq (u : UsbSys V E SC Ctx) (p : Bytes) :
    host_get u p = { u with sys := (hget (u.sys, u.cur) p).1, cur := (hget (u.sys, u.cur) p).2 } := by
  unfold host_get hget
  simp only
  split <;> rfl

theorem write_chunks_append (o : Nat → WriteOut) (ys : List Bytes) : ∀ (xs : List Bytes) (i : Nat) (t : UsbTx),
    write_chunks o i (xs ++ ys) t = match write_chunks o i xs t with
      | (none, t) => write_chunks o (i + xs.length) ys t
      | (some r, t) => (some r, t) := by
  intro xs
  induction xs with
  | nil => intro i t; rfl
  | cons x xs ih =>
    intro i t
    simp only [List.cons_append, write_chunks, List.length_cons]
    cases h : ep_write (o i) x t with
    | mk r t1 =>
      cases r with
      | some r => rfl
      | none => simp only [ih]; rw [show i + 1 + xs.length = i + (xs.length + 1) by omega]

theorem send_body_eq (o : Nat → WriteOut) (i : Nat) (b : Bytes) (t : UsbTx) :
    send_body o i b t = match write_chunks o i (dev_packets b) { t with pending_frame := true } with
      | (some r, t) => (r, t)
      | (none, t) => (.Ok, { t with pending_frame := false }) := by
  unfold send_body dev_packets
  rw [write_chunks_append]
  simp only
  cases h : write_chunks o i (chunks64 b) { t with pending_frame := true } with
  | mk r t1 =>
    cases r with
    | some r => rfl
    | none =>
      simp only
      split
      · simp only [write_chunks]
        cases ep_write (o (i + (chunks64 b).length)) [] t1 with
        | mk r t2 => cases r <;> rfl
      · simp only [write_chunks]

theorem writes_chunks {U : UsbCfg V E SC Ctx} (o : Nat → WriteOut) : ∀ (os : List WriteOut) (i : Nat) (u u' : UsbSys V E SC Ctx)
    (w : Sending V) (pk : List Bytes), (∀ k x, os[k]? = some x → o (i + k) = x) → u.sending = some w → w.zlp = false →
    u_run U (os.map .dev_write) u = some u' → u'.sending = none →
    ∃ given r, write_chunks o i w.todo ⟨true, pk⟩ = (r, ⟨true, pk ++ given⟩) ∧ u'.pending_frame = r.isSome ∧
      (u'.sys, u'.cur) = given.foldl hget (u.sys, u.cur) ∧
      u' = { u with sys := u'.sys, cur := u'.cur, pending_frame := u'.pending_frame, sending := none } := by
  intro os
  induction os with
  | nil =>
    intro i u u' w pk _ hs _ h hn
    cases h
    rw [hs] at hn; cases hn
  | cons x os ih =>
    intro i u u' w pk ho hs hz h hn
    have hx : o i = x := ho 0 x rfl
    have hrest : ∀ k y, os[k]? = some y → o (i + 1 + k) = y := by
      intro k y hk
      have := ho (k + 1) y (by simpa using hk)
      rw [← this]; congr 1; omega
    simp only [List.map_cons, u_run, u_step] at h
    split at h
    · rename_i v hv
      unfold u_write at hv
      rw [hs] at hv
      simp only at hv
      rw [if_neg (by simp [hz])] at hv
      split at hv
      · cases hv
      · rename_i p rest ht
        rw [ht]
        have ended : ∀ (v : UsbSys V E SC Ctx), v.sending = none → u_run U (os.map .dev_write) v = some u' → u' = v := by
          intro v hv h
          cases os with
          | nil => cases h; rfl
          | cons y os => simp [u_run, u_step, u_write, hv] at h
        have fail : ∀ gone : Bool, some { (if gone = true then host_get u p else u) with pending_frame := true, sending := none } = some v →
            (o i = .err gone ∨ o i = .cut gone) → ∃ given r, write_chunks o i (p :: rest) ⟨true, pk⟩ = (r, ⟨true, pk ++ given⟩) ∧
              u'.pending_frame = r.isSome ∧ (u'.sys, u'.cur) = given.foldl hget (u.sys, u.cur) ∧
              u' = { u with sys := u'.sys, cur := u'.cur, pending_frame := u'.pending_frame, sending := none } := by
          intro gone e hoi
          have e := Option.some.inj e
          have hv' : v.sending = none := by rw [← e]
          have := ended v hv' h
          subst this
          subst e
          cases gone with
          | true =>
            refine ⟨[p], ?_⟩
            rcases hoi with hoi | hoi
            · exact ⟨some .ConnectionClosed, by simp [write_chunks, ep_write, hoi], rfl, by simp [host_get_eq], by simp [host_get_eq]⟩
            · exact ⟨some .Timeout, by simp [write_chunks, ep_write, hoi], rfl, by simp [host_get_eq], by simp [host_get_eq]⟩
          | false =>
            refine ⟨[], ?_⟩
            rcases hoi with hoi | hoi
            · exact ⟨some .ConnectionClosed, by simp [write_chunks, ep_write, hoi], rfl, by simp, by simp⟩
            · exact ⟨some .Timeout, by simp [write_chunks, ep_write, hoi], rfl, by simp, by simp⟩
        cases x with
        | ok =>
          obtain ⟨_, hv⟩ := ite_some_some hv
          have hv := Option.some.inj hv
          rw [host_get_eq] at hv
          cases rest with
          | nil =>
            simp only [u_wrote] at hv
            have := ended v (by rw [← hv]) h
            subst this
            subst hv
            exact ⟨[p], none, by simp [write_chunks, ep_write, hx], rfl, by simp, by simp⟩
          | cons q rest =>
            simp only [u_wrote] at hv
            subst hv
            obtain ⟨given, r, g1, g2, g3, g4⟩ := ih (i + 1) _ u' { w with out := w.out + p.length, todo := q :: rest } (pk ++ [p]) hrest rfl hz h hn
            refine ⟨p :: given, r, ?_, g2, ?_, ?_⟩
            · rw [write_chunks, hx]
              simp only [ep_write]
              rw [g1]; simp
            · rw [g3]; rfl
            · rw [g4]
        | err gone => obtain ⟨_, hv⟩ := ite_some_some hv; exact fail gone hv (.inl hx)
        | cut gone => obtain ⟨_, hv⟩ := ite_some_some hv; exact fail gone hv (.inr hx)
    · cases h


/-- The writes of a send that has just begun, until it ends, are those of `send_all`. -/
theorem writes_send_all {U : UsbCfg V E SC Ctx} {os : List WriteOut} {u u' : UsbSys V E SC Ctx} {w : Sending V} {pk : List Bytes}
    (o : Nat → WriteOut) (ho : ∀ k x, os[k]? = some x → o k = x) (hs : u.sending = some w) (hz : w.zlp = u.pending_frame)
    (hb : w.b ≠ []) (ht : w.todo = dev_packets w.b) (h : u_run U (os.map .dev_write) u = some u') (hn : u'.sending = none) :
    ∃ given, (send_all o w.b ⟨u.pending_frame, pk⟩).2 = ⟨u'.pending_frame, pk ++ given⟩ ∧
      ((send_all o w.b ⟨u.pending_frame, pk⟩).1 = .Ok ↔ u'.pending_frame = false) ∧
      (u'.sys, u'.cur) = given.foldl hget (u.sys, u.cur) := by
  have hbe : w.b.isEmpty = false := by simpa using hb
  have noOk : ∀ i chs t, (write_chunks o i chs t).1 ≠ some .Ok := by
    intro i chs
    induction chs generalizing i with
    | nil => intro t; simp [write_chunks]
    | cons c chs ih =>
      intro t
      rw [write_chunks]
      cases o i with
      | ok => exact ih _ _
      | err _ => simp [ep_write]
      | cut _ => simp [ep_write]
  have body : ∀ (i : Nat) (os' : List WriteOut) (v : UsbSys V E SC Ctx) (w' : Sending V) (pk' : List Bytes) (p0 : Bool),
      (∀ k x, os'[k]? = some x → o (i + k) = x) → v.sending = some w' → w'.zlp = false → w'.todo = dev_packets w.b →
      u_run U (os'.map .dev_write) v = some u' → ∃ given, (send_body o i w.b ⟨p0, pk'⟩).2 = ⟨u'.pending_frame, pk' ++ given⟩ ∧
      ((send_body o i w.b ⟨p0, pk'⟩).1 = .Ok ↔ u'.pending_frame = false) ∧ (u'.sys, u'.cur) = given.foldl hget (v.sys, v.cur) := by
    intro i os' v w' pk' p0 h1 h2 h3 h4 h5
    obtain ⟨given, r, g1, g2, g3, _⟩ := writes_chunks o os' i v u' w' pk' h1 h2 h3 h5 hn
    rw [h4] at g1
    have hno := noOk i (dev_packets w.b) ⟨true, pk'⟩
    rw [g1] at hno
    refine ⟨given, ?_, ?_, g3⟩
    · rw [send_body_eq]
      simp only [g1]
      cases r <;> simp [g2]
    · rw [send_body_eq]
      simp only [g1, g2]
      cases r with
      | none => simp
      | some r => simpa using hno
  unfold send_all
  rw [hbe]
  simp only [Bool.false_eq_true, if_false]
  cases hp : u.pending_frame with
  | false =>
    simp only [Bool.false_eq_true, if_false]
    exact body 0 os u w pk false (by intro k x hk; rw [Nat.zero_add]; exact ho k x hk) hs (by rw [hz, hp]) ht h
  | true =>
    simp only [if_true]
    cases os with
    | nil => cases h; rw [hs] at hn; cases hn
    | cons x os =>
      have hx : o 0 = x := ho 0 x rfl
      have hrest : ∀ k y, os[k]? = some y → o (1 + k) = y := by
        intro k y hk
        have := ho (k + 1) y (by simpa using hk)
        rw [← this]; congr 1; omega
      simp only [List.map_cons, u_run, u_step] at h
      split at h
      · rename_i v hv
        unfold u_write at hv
        rw [hs] at hv
        simp only at hv
        rw [if_pos (by rw [hz, hp])] at hv
        have ended : ∀ (v : UsbSys V E SC Ctx), v.sending = none → u_run U (os.map .dev_write) v = some u' → u' = v := by
          intro v hv h
          cases os with
          | nil => cases h; rfl
          | cons y os => simp [u_run, u_step, u_write, hv] at h
        cases x with
        | ok =>
          simp only at hv
          obtain ⟨_, hv⟩ := ite_some_some hv
          have hv := Option.some.inj hv
          rw [host_get_eq] at hv
          subst hv
          obtain ⟨given, g1, g2, g3⟩ := body 1 os _ { w with zlp := false } (pk ++ [[]]) true hrest rfl rfl ht h
          simp only [hx, ep_write]
          refine ⟨[] :: given, ?_, ?_, ?_⟩
          · rw [g1]; simp
          · rw [g2]
          · rw [g3]; rfl
        | err gone =>
          simp only at hv
          obtain ⟨_, hv⟩ := ite_some_some hv
          have hv := Option.some.inj hv
          have := ended v (by rw [← hv]) h
          subst this
          subst hv
          simp only [hx, ep_write]
          cases gone with
          | true => exact ⟨[[]], by simp, by simp, by simp [host_get_eq]⟩
          | false => exact ⟨[], by simp, by simp, by simp⟩
        | cut gone =>
          simp only at hv
          obtain ⟨_, hv⟩ := ite_some_some hv
          have hv := Option.some.inj hv
          have := ended v (by rw [← hv]) h
          subst this
          subst hv
          simp only [hx, ep_write]
          cases gone with
          | true => exact ⟨[[]], by simp, by simp, by simp [host_get_eq]⟩
          | false => exact ⟨[], by simp, by simp, by simp⟩
      · cases h


/-! ### The packets of the host -/

theorem bulk_chunks (n : Nat) : ∀ d : Bytes, d.length ≤ n → d ≠ [] → bulk 64 d = chunks64 d := by
  induction n with
  | zero => intro d h hd; exact absurd (List.length_eq_zero_iff.mp (by omega)) hd
  | succ n ih =>
    intro d h hd
    have hp := List.length_pos_iff.mpr hd
    rw [bulk, chunks64, dif_neg hd]
    split
    · rename_i hle
      have : d.length ≤ 64 := by omega
      rw [List.drop_eq_nil_of_le this, List.take_of_length_le this, chunks64, dif_pos rfl]
    · rename_i hle
      congr 1
      refine ih _ (by simp; omega) ?_
      intro e
      have := List.drop_eq_nil_iff.mp e
      omega

theorem complete_submitted {t t' : NusbTx} {cs cs' : List Completion} {r : NusbSent} (h : tx_complete t cs = .ok (r, t', cs')) :
    t'.submitted = t.submitted := by
  unfold tx_complete at h
  split at h
  · cases h
  · split at h
    · cases h; rfl
    · simp only at h
      split at h <;> (cases h; rfl)

theorem send_inner_submits {t t' : NusbTx} {d : Bytes} {cs cs' : List Completion} {r : NusbSent} (hm : t.max_packet_size = some 64)
    (h : send_inner t d cs = .ok (r, t', cs')) : t'.submitted = t.submitted ++ if d.length % 64 = 0 then [d, []] else [d] := by
  unfold send_inner at h
  simp only [needs_zlp, hm, show (64 = 0) = False by simp, if_false, Exec.ok_bind, decide_eq_true_eq] at h
  generalize ht : (if d.length % 64 = 0 then (t.submit d).submit [] else t.submit d) = t1 at h
  have e1 : t1.submitted = t.submitted ++ if d.length % 64 = 0 then [d, []] else [d] := by
    subst ht
    split <;> simp [NusbTx.submit]
  rw [← e1]
  cases hc : tx_complete t1 cs with
  | panic => rw [hc] at h; cases h
  | ok q =>
    obtain ⟨r1, t2, cs2⟩ := q
    have e2 := complete_submitted hc
    rw [hc] at h
    simp only [Exec.ok_bind] at h
    split at h
    · cases h; exact e2
    · split at h
      · rw [complete_submitted h, e2]
      · cases h; exact e2

end PRpc
