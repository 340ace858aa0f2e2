import Verif.Spec.Bounded
import Verif.Lemmas.LiveRest
/-!
Lemmas on the composed system over bounded channels.
-/

namespace PRpc

open Spec

variable {V E SC Ctx : Type}

/-- The receive worker of a running client can go on, given that there is something to receive. -/
theorem in_moves {cfg : Cfg} {s : Client} (hr : Reachable cfg s) (hs : s.stopped = false) (b : Bytes) :
    (∃ l, Own s l ∧ (∀ ok, l ≠ .out_done ok) ∧ (∀ r, l ≠ .in_recv r) ∧ step cfg s l ≠ none) ∨ step cfg s (.in_recv (some b)) ≠ none := by
  have hi : s.in_pc ≠ .exited := fun e => by
    have := Props.c38_no_silent_worker_exit hr (.inr e)
    rw [hs] at this; cases this
  cases hp : s.in_polled with
  | false =>
    by_cases hpu : s.in_pc = .purge
    · exact .inl ⟨.in_purge, trivial, by simp, by simp, by simp [step, hpu]⟩
    · exact .inl ⟨.in_poll, trivial, by simp, by simp, by simp [step, in_poll, hi, hpu, hp, hs]⟩
  | true =>
    cases hpc : s.in_pc with
    | exited => exact absurd hpc hi
    | purge => exact .inl ⟨.in_purge, trivial, by simp, by simp, by simp [step, hpc]⟩
    | recv =>
      refine .inr ?_
      simp only [step, in_recv, hpc, hp, and_self, if_true]
      rcases take_cases b with e | ⟨hdr, r, e⟩ <;> rw [e] <;> simp
    | lookup f =>
      refine .inl ⟨.in_lookup, trivial, by simp, by simp, ?_⟩
      simp only [step, in_lookup, hpc, hp]
      split <;> simp
    | full f id rm => exact .inl ⟨.in_full_timeout, trivial, by simp, by simp, by simp [step, in_full_timeout, hpc, hp]⟩
    | wake f =>
      cases hf : s.map.find? fun x => x.2.eq f.header with
      | none =>
        refine .inl ⟨.in_wake none, trivial, by simp, by simp, ?_⟩
        have : (s.map.any fun x => x.2.eq f.header) = false := by
          rw [List.any_eq_false]
          intro x hx
          have := List.find?_eq_none.mp hf x hx
          simpa using this
        simp [step, in_wake, hpc, hp, this]
      | some x =>
        refine .inl ⟨.in_wake (some x.1), trivial, by simp, by simp, ?_⟩
        have h1 := List.mem_of_find?_eq_some hf
        have h2 := List.find?_some hf
        have : (s.map.any fun y => y.1 = x.1 && y.2.eq f.header) = true := by
          rw [List.any_eq_true]
          exact ⟨x, h1, by simpa using h2⟩
        simp [step, in_wake, hpc, hp, this]

theorem bnd_sys {S : SysCfg V E SC Ctx} {up down : Nat} {s s' : Sys V E SC Ctx} {l : SLabel V} (h : bnd_step S up down s l = some s') :
    sys_step S s l = some s' ∧ has_room up down s l = true := by
  unfold bnd_step at h
  split at h
  · rename_i e; exact ⟨h, e⟩
  · cases h

theorem bnd_run_sys {S : SysCfg V E SC Ctx} {up down : Nat} {ls : List (SLabel V)} : ∀ {s s' : Sys V E SC Ctx},
    bnd_run S up down ls s = some s' → sys_run S ls s = some s' := by
  induction ls with
  | nil => intro s s' h; exact h
  | cons l ls ih =>
    intro s s' h
    simp only [bnd_run] at h
    split at h
    · rename_i t ht
      simp only [sys_run, (bnd_sys ht).1]
      exact ih h
    · cases h

theorem bnd_own_sys {S : SysCfg V E SC Ctx} {up down : Nat} {s t : Sys V E SC Ctx} {ls : List (SLabel V)}
    (h : BndOwnRun S up down s ls t) : SysOwnRun S s ls t := by
  induction h with
  | nil s => exact .nil s
  | cons ho hs _ ih => exact .cons ho (bnd_sys hs).1 ih

/-- With room for a message in either direction, what is stuck over bounded channels is stuck altogether. -/
theorem bnd_stuck {a : App V E SC Ctx} {S : SysCfg V E SC Ctx} {up down : Nat} {s : Sys V E SC Ctx} (hup : 0 < up) (hdown : 0 < down)
    (hfit : Fits a S) (inv : SysInv a S s) (lv : LiveInv a S s) (ho : Open s) (h : BndStuck S up down s) : SysStuck S s := by
  have free : ∀ l, SysOwn s l → has_room up down s l = true → sys_step S s l = none := by
    intro l h1 h2
    have := h l h1
    simpa only [bnd_step, h2, if_true] using this
  have hair : s.air = [] := by
    cases e : s.air with
    | nil => rfl
    | cons b air =>
      exfalso
      rcases in_moves inv.reach ho.1 b with ⟨l, h1, h2, h3, h4⟩ | h4
      · have own : SysOwn (V := V) s (.client l) := by
          cases l <;> first | exact h1 | exact absurd rfl (h2 _) | exact absurd rfl (h3 _)
        have room : has_room up down s (.client l : SLabel V) = true := by
          cases l <;> first | rfl | exact absurd rfl (h2 _)
        have := free (.client l) own room
        cases hs : step S.cfg s.client l with
        | none => exact h4 hs
        | some c =>
          simp only [sys_step] at this
          cases l <;> first | (exact absurd rfl (h3 _)) | (simp only [client_step, hs] at this; cases this)
      · have := free (.client (.in_recv (some b))) (by simp [SysOwn]) rfl
        simp only [sys_step, client_step, e, if_true] at this
        split at this
        · cases this
        · rename_i e2; exact h4 e2
  have room : s.air.length < down := by rw [hair]; exact hdown
  have hpend : s.pending = [] := by
    have := free .flush trivial (by simpa [has_room] using room)
    simp only [sys_step] at this
    split at this
    · rename_i e; exact e
    · exact absurd this (put_total _ _)
  have hle := lv.le
  have hsent : s.client.sent ≤ s.client.tx.length := by
    unfold Client.sent; split <;> omega
  have hq : s.in_up = 0 := by
    rcases Nat.eq_zero_or_pos s.in_up with e | e
    · exact e
    · have := free .serve trivial (by simpa [has_room] using e)
      exact absurd this (serve_total hfit lv.up hpend (by unfold Sys.in_up at e; omega))
  have hout : s.client.sent = s.client.tx.length := by
    unfold Client.sent
    split
    · rename_i b e
      exfalso
      have hp : s.client.out_polled = true := by
        cases hb : s.client.out_polled with
        | true => rfl
        | false =>
          have := free (.client .out_poll) trivial rfl
          simp [sys_step, client_step, step, out_poll, e, hb, ho.1] at this
      have := free (.client (.out_done true)) rfl (by simpa [has_room, hq] using hup)
      simp [sys_step, client_step, step, out_done, e, hp] at this
    · rfl
  have hall : s.client.tx.length ≤ s.taken := by unfold Sys.in_up at hq; omega
  have hserve : serve S s = none := by
    unfold serve
    split
    · rw [List.getElem?_eq_none hall]
    · rfl
  intro l hl _
  by_cases hsv : l = .serve
  · subst hsv; exact hserve
  by_cases hr : has_room up down s l = true
  · exact free l hl hr
  · exfalso
    cases l with
    | client l =>
      cases l with
      | out_done ok =>
        cases hl
        simp [has_room, hq, hup] at hr
      | _ => exact hr rfl
    | serve => exact hsv rfl
    | reject => cases hl
    | flush => exact hr (by simpa [has_room] using room)
    | task_reply i v => exact hr (by simpa [has_room] using room)
    | app_publish key seq v => cases hl

/-- How a step of the client changes the number of messages sent. -/
theorem step_sent {cfg : Cfg} {s s' : Client} {l : Label} (hne : ∀ b, s.out_pc = .sending b → s.tx ≠ []) (h : step cfg s l = some s') :
    s'.sent = s.sent ∨ (l = .out_done true ∧ s'.sent = s.sent + 1) ∨ (s'.stopped = true ∧ s.sent ≤ s'.sent) := by
  have same : s'.tx = s.tx → s'.out_pc = s.out_pc → s'.sent = s.sent := by
    intro h1 h2; unfold Client.sent; rw [h1, h2]
  have le : s.sent ≤ s.tx.length := by unfold Client.sent; split <;> omega
  cases l with
  | out_recv =>
    simp only [step, out_recv] at h
    split at h
    · rename_i hp
      split at h
      · split at h
        · cases h
          refine .inl ?_
          simp [Client.sent, hp.1]
        · cases h
      · split at h
        · cases h
        · cases h
          exact .inr (.inr ⟨rfl, le⟩)
    · cases h
  | out_poll =>
    simp only [step, out_poll] at h
    split at h
    · cases h
    · split at h
      · rename_i hs
        cases h
        exact .inr (.inr ⟨hs, le⟩)
      · cases h; exact .inl (same rfl rfl)
  | out_done ok =>
    simp only [step, out_done] at h
    split at h
    · rename_i e _
      split at h
      · rename_i hok
        subst hok
        cases h
        refine .inr (.inl ⟨rfl, ?_⟩)
        have := hne _ e
        have := List.length_pos_iff.mpr this
        simp only [Client.sent, e]
        omega
      · cases h
        exact .inr (.inr ⟨rfl, le⟩)
    · cases h
  | _ =>
    refine .inl (same ?_ ?_) <;>
    · simp only [step, send_resp_begin, call_reg_ok, call_reg_err, call_send, call_take, publish_raw_begin, pub_send,
        in_poll, in_recv, in_lookup, in_full_send, in_full_timeout, after_lookup, in_wake, Client.set_phase, Client.drop_waits] at h
      repeat' split at h
      all_goals first
        | (cases h; done)
        | (cases h; rfl)
        | (cases h; split <;> rfl)

/-- While a message is being sent there is one. -/
theorem step_sending {cfg : Cfg} {s s' : Client} {l : Label} (hne : ∀ b, s.out_pc = .sending b → s.tx ≠ []) (h : step cfg s l = some s') :
    ∀ b, s'.out_pc = .sending b → s'.tx ≠ [] := by
  obtain ⟨x, hx⟩ := step_tx h
  have same : s'.out_pc = s.out_pc → ∀ b, s'.out_pc = .sending b → s'.tx ≠ [] := by
    intro e b hb
    rw [hx]
    exact fun h => hne b (e ▸ hb) (List.append_eq_nil_iff.mp h).1
  cases l with
  | out_recv =>
    simp only [step, out_recv] at h
    repeat' split at h
    all_goals first
      | (cases h; done)
      | (cases h; intro b hb; simp at hb ⊢)
  | _ =>
    simp only [step, send_resp_begin, call_reg_ok, call_reg_err, call_send, call_take, publish_raw_begin, pub_send, out_poll, out_done,
      in_poll, in_recv, in_lookup, in_full_send, in_full_timeout, after_lookup, in_wake, Client.set_phase, Client.drop_waits] at h
    repeat' split at h
    all_goals first
      | (cases h; done)
      | (cases h; exact same rfl)
      | (cases h; split <;> exact same rfl)
      | (cases h; intro b hb; simp at hb)

/-- The channels never hold more than they can. -/
structure BndInv (up down : Nat) (s : Sys V E SC Ctx) : Prop where
  sending : ∀ b, s.client.out_pc = .sending b → s.client.tx ≠ []
  taken : s.taken ≤ s.client.sent
  up : s.client.stopped = false → s.client.sent ≤ s.taken + up
  down : s.air.length ≤ down

theorem bndInv_new (up down : Nat) (c : Ctx) : BndInv up down (Sys.new c : Sys V E SC Ctx) :=
  ⟨(fun b h => nomatch h), Nat.zero_le _, fun _ => Nat.zero_le _, Nat.zero_le _⟩

theorem part_length (o : Out V) (b : Bytes) : (o.part b).length ≤ 1 := by
  unfold Out.part; split <;> simp

theorem put_bnd {S : SysCfg V E SC Ctx} {up down : Nat} {s s' : Sys V E SC Ctx} {o : Out V} (inv : BndInv up down s)
    (hr : s.air.length < down) (h : Sys.put S s o = some s') : BndInv up down s' := by
  simp only [Sys.put] at h
  split at h
  · rename_i b _
    cases h
    refine ⟨inv.sending, inv.taken, inv.up, ?_⟩
    have := part_length o b
    simp only [List.length_append]
    omega
  · cases h

theorem send_bnd {S : SysCfg V E SC Ctx} {up down : Nat} {s s' : Sys V E SC Ctx} {src : Src} {r : Option E × St V E SC Ctx} {f : Frame V}
    (inv : BndInv up down s) (hr : s.air.length < down) (h : Sys.send S s src r f = some s') : BndInv up down s' := by
  unfold Sys.send at h
  have i : BndInv up down { s with srv := r.2 } := ⟨inv.sending, inv.taken, inv.up, inv.down⟩
  split at h <;> exact put_bnd i hr h

theorem bnd_step_inv {S : SysCfg V E SC Ctx} {up down : Nat} {s s' : Sys V E SC Ctx} {l : SLabel V} (inv : BndInv up down s)
    (h : bnd_step S up down s l = some s') : BndInv up down s' := by
  obtain ⟨h, hr⟩ := bnd_sys h
  have cli : ∀ (l : Label) (c : Client) (air : List Bytes), step S.cfg s.client l = some c → air.length ≤ s.air.length →
      (l = .out_done true → s.in_up < up) → BndInv up down { s with client := c, air := air } := by
    intro l c air hs ha hroom
    have i1 := inv.taken
    have i2 := inv.down
    have hst : c.stopped = false → s.client.stopped = false := by
      intro e
      cases e2 : s.client.stopped with
      | false => rfl
      | true => rw [step_stopped hs e2] at e; cases e
    refine ⟨step_sending inv.sending hs, ?_, fun e => ?_, Nat.le_trans ha i2⟩
    · show s.taken ≤ c.sent
      rcases step_sent inv.sending hs with e | ⟨_, e⟩ | ⟨_, e⟩ <;> omega
    · show c.sent ≤ s.taken + up
      have e : c.stopped = false := e
      have i3 := inv.up (hst e)
      rcases step_sent inv.sending hs with e2 | ⟨e1, e2⟩ | ⟨e1, _⟩
      · omega
      · have := hroom e1
        unfold Sys.in_up at this
        omega
      · rw [e1] at e; cases e
  cases l with
  | client l =>
    simp only [sys_step, client_step] at h
    split at h
    · split at h
      · cases h
      · rename_i e
        split at h
        · split at h
          · rename_i hc
            cases h
            exact cli _ _ _ hc (by rw [e]; simp) (by simp)
          · cases h
        · cases h
    · split at h
      · rename_i hc
        cases h
        refine cli _ _ s.air hc (Nat.le_refl _) (fun e => ?_)
        subst e
        simpa [has_room] using hr
      · cases h
  | serve =>
    obtain ⟨b, up', srv, hb, rfl, hp, _⟩ := serve_cases h
    have hr : 0 < s.in_up := by simpa [has_room] using hr
    unfold Sys.in_up at hr
    refine ⟨inv.sending, ?_, fun e => ?_, inv.down⟩
    · show s.taken + 1 ≤ s.client.sent
      omega
    · have := inv.up e
      show s.client.sent ≤ s.taken + 1 + up
      omega
  | reject =>
    simp only [sys_step, reject] at h
    split at h
    · cases h
      have hr : 0 < s.in_up := by simpa [has_room] using hr
      unfold Sys.in_up at hr
      refine ⟨inv.sending, ?_, fun e => ?_, inv.down⟩
      · show s.taken + 1 ≤ s.client.sent
        omega
      · have := inv.up e
        show s.client.sent ≤ s.taken + 1 + up
        omega
    · cases h
  | flush =>
    simp only [sys_step] at h
    split at h
    · cases h
    · rename_i o rest _
      have i : BndInv up down { s with pending := rest } := ⟨inv.sending, inv.taken, inv.up, inv.down⟩
      exact put_bnd i (by simpa [has_room] using hr) h
  | task_reply i v =>
    simp only [sys_step, task_reply] at h
    repeat' split at h
    all_goals first
      | (cases h; done)
      | exact send_bnd inv (by simpa [has_room] using hr) h
  | app_publish key seq v =>
    simp only [sys_step, app_publish] at h
    exact send_bnd inv (by simpa [has_room] using hr) h

theorem bnd_run_inv {S : SysCfg V E SC Ctx} {up down : Nat} {ls : List (SLabel V)} : ∀ {s s' : Sys V E SC Ctx}, BndInv up down s →
    bnd_run S up down ls s = some s' → BndInv up down s' := by
  induction ls with
  | nil => intro s s' i h; cases h; exact i
  | cons l ls ih =>
    intro s s' i h
    simp only [bnd_run] at h
    split at h
    · rename_i t ht
      exact ih (bnd_step_inv i ht) h
    · cases h

theorem queued_of {up down : Nat} {s : Sys V E SC Ctx} (inv : BndInv up down s) : Queued s s.in_up := by
  have h1 := inv.taken
  unfold Queued Sys.in_up
  cases e : s.client.out_pc with
  | sending b =>
    have := List.length_pos_iff.mpr (inv.sending b e)
    simp only [Client.sent, e] at h1 ⊢
    exact .inl ⟨b, rfl, by omega⟩
  | _ =>
    simp only [Client.sent, e] at h1 ⊢
    exact .inr ⟨by simp, by omega⟩

theorem queued_unique {s : Sys V E SC Ctx} {n m : Nat} (h1 : Queued s n) (h2 : Queued s m) : n = m := by
  rcases h1 with ⟨b, e, h1⟩ | ⟨e, h1⟩ <;> rcases h2 with ⟨b', e', h2⟩ | ⟨e', h2⟩
  · omega
  · exact absurd e (e' b)
  · exact absurd e' (e b')
  · omega

end PRpc
