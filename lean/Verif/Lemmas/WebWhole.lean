import Verif.Lemmas.WebSys
import Verif.Spec.UsbNext
/-! Requests of a page that fill their last packet: helper lemmas for C104. -/

namespace PRpc

open Spec

variable {V E SC Ctx : Type}

/-- The packets of what fills its last packet are all full. -/
theorem chunks64_full (l : Bytes) (h : l.length % 64 = 0) : ∀ c ∈ chunks64 l, c.length = 64 := by
  induction hn : l.length using Nat.strongRecOn generalizing l with
  | _ n ih =>
    subst hn
    by_cases hl : l = []
    · simp [hl, chunks64_nil]
    · have hp := List.length_pos_iff.mpr hl
      rw [chunks64_cons hl]
      intro c hc
      rcases List.mem_cons.mp hc with rfl | hc
      · rw [List.length_take]; omega
      · exact ih (l.drop 64).length (by rw [List.length_drop]; omega) (l.drop 64) (by rw [List.length_drop]; omega) rfl c hc

/-- What holds from an idle device on while only such requests are sent. -/
structure Unheard (u0 u : UsbSys V E SC Ctx) : Prop where
  bus : ∀ p ∈ u.bus_out, p.length = 64
  endpoint : ∀ p ∈ u.ep_out, p.length = 64
  rx : u.rx = .draining ∨ ∃ got, u.rx = .filling got ∧ got.length % 64 = 0
  taken : u.sys.taken = u0.sys.taken
  before : u.sys.before = u0.sys.before
  tasks : u.sys.tasks = u0.sys.tasks
  pending : u.sys.pending = []
  outs : ∃ y, u.sys.outs = u0.sys.outs ++ y ∧ ∀ o ∈ y, ∀ j, o.src ≠ .req j

/-- Steps that leave device and bus alone. -/
theorem unheard_same {u0 u v : UsbSys V E SC Ctx} (i : Unheard u0 u) (h1 : v.bus_out = u.bus_out) (h2 : v.ep_out = u.ep_out) (h3 : v.rx = u.rx)
    (h4 : v.sys.taken = u.sys.taken) (h5 : v.sys.before = u.sys.before) (h6 : v.sys.tasks = u.sys.tasks) (h7 : v.sys.pending = u.sys.pending)
    (h8 : v.sys.outs = u.sys.outs) : Unheard u0 v :=
  ⟨by rw [h1]; exact i.bus, by rw [h2]; exact i.endpoint, by rw [h3]; exact i.rx, h4.trans i.taken, h5.trans i.before, h6.trans i.tasks,
    h7.trans i.pending, by rw [h8]; exact i.outs⟩

theorem unheard_send {U : UsbCfg V E SC Ctx} {u0 u v : UsbSys V E SC Ctx} (i : Unheard u0 u) {src : Src} {r : Option E × St V E SC Ctx}
    {f : Frame V} (hs : ∀ j, src ≠ .req j) (h : u_send U u src r f = some v) : Unheard u0 v := by
  have beg : ∀ {st : St V E SC Ctx} {o : Out V}, (∀ j, o.src ≠ .req j) → u_begin U u { u.sys with srv := st } o = some v → Unheard u0 v := by
    intro st o ho h
    obtain ⟨_, b, _, rfl⟩ := u_begin_cases h
    obtain ⟨y, hy, hn⟩ := i.outs
    refine ⟨i.bus, i.endpoint, i.rx, i.taken, i.before, i.tasks, i.pending, y ++ [o], ?_, fun o' ho' => ?_⟩
    · show u.sys.outs ++ [o] = _
      rw [hy, List.append_assoc]
    · rcases List.mem_append.mp ho' with h | h
      · exact hn o' h
      · rw [List.mem_singleton.mp h]; exact ho
  simp only [u_send] at h
  split at h <;> exact beg hs h

theorem unheard_step {W : WebCfg V E SC Ctx} (hU : UsbSound W.U) {u0 : UsbSys V E SC Ctx} {x x' : WebSys V E SC Ctx} {l : ULabel V}
    (i : Unheard u0 x.u) (hw : ∀ b ∈ x'.u.sys.client.tx.drop x.u.sys.client.tx.length, b.length % 64 = 0) (h : w_step W x l = some x') :
    Unheard u0 x'.u := by
  have cl : ∀ {s : Sys V E SC Ctx} {l : Label}, client_step W.U.S x.u.sys l = some s → s.taken = x.u.sys.taken ∧ s.before = x.u.sys.before ∧
      s.tasks = x.u.sys.tasks ∧ s.pending = x.u.sys.pending ∧ s.outs = x.u.sys.outs := by
    intro s l hs
    obtain ⟨c, _, hcl⟩ := client_step_cases hs
    rcases hcl with ⟨_, _, _, _, rfl⟩ | ⟨_, rfl⟩ <;> exact ⟨rfl, rfl, rfl, rfl, rfl⟩
  have usb : ∀ {l : Label}, l ≠ .out_recv → (u_client W.U x.u l).map (fun u => { x with u := u }) = some x' → Unheard u0 x'.u := by
    intro l hl h
    obtain ⟨u, h1, rfl⟩ := Option.map_eq_some_iff.mp h
    obtain ⟨s, hs, h2⟩ := u_client_cases h1
    obtain ⟨c1, c2, c3, c4, c5⟩ := cl hs
    rcases h2 with ⟨rfl, _⟩ | ⟨_, _, rfl⟩
    · exact absurd rfl hl
    · exact unheard_same i rfl rfl rfl c1 c2 c3 c4 c5
  cases l with
  | client l =>
    simp only [w_step, w_client] at h
    split at h
    · split at h
      · cases h
      · rename_i s hs
        cases h
        obtain ⟨c1, c2, c3, c4, c5⟩ := cl hs
        refine ⟨fun p hp => ?_, i.endpoint, i.rx, c1.trans i.taken, c2.trans i.before, c3.trans i.tasks, c4.trans i.pending, by
          show ∃ y, s.outs = _ ∧ _
          rw [c5]; exact i.outs⟩
        rcases List.mem_append.mp hp with hp | hp
        · exact i.bus p hp
        · obtain ⟨b, hb, hp⟩ := List.mem_flatMap.mp hp
          exact chunks64_full b (hw b hb) p hp
    · split at h
      · cases h
      · exact usb (by intro e; cases e) h
    · rename_i h1 h2
      exact usb (fun e => h1 e) h
  | dev_write o =>
    have get : ∀ p, Unheard u0 (web_get W.len x p).u := by
      intro p
      unfold web_get
      split
      · exact unheard_same i rfl rfl rfl rfl rfl rfl rfl rfl
      · split <;> exact unheard_same i rfl rfl rfl rfl rfl rfl rfl rfl
    have ends : ∀ (gone : Bool) (p : Bytes), Unheard u0 (if gone = true then web_get W.len x p else x).u := by
      intro gone p
      split
      · exact get p
      · exact i
    simp only [w_step, w_write] at h
    split at h
    · cases h
    · split at h
      · cases o with
        | ok => obtain ⟨_, h⟩ := ite_some_some h; rw [← Option.some.inj h]; exact unheard_same (get _) rfl rfl rfl rfl rfl rfl rfl rfl
        | err gone => obtain ⟨_, h⟩ := ite_some_some h; rw [← Option.some.inj h]; exact unheard_same (ends _ _) rfl rfl rfl rfl rfl rfl rfl rfl
        | cut gone => obtain ⟨_, h⟩ := ite_some_some h; rw [← Option.some.inj h]; exact unheard_same (ends _ _) rfl rfl rfl rfl rfl rfl rfl rfl
      · split at h
        · cases h
        · cases o with
          | ok =>
            obtain ⟨_, h⟩ := ite_some_some h
            rw [← Option.some.inj h]
            unfold u_wrote
            split <;> exact unheard_same (get _) rfl rfl rfl rfl rfl rfl rfl rfl
          | err gone => obtain ⟨_, h⟩ := ite_some_some h; rw [← Option.some.inj h]; exact unheard_same (ends _ _) rfl rfl rfl rfl rfl rfl rfl rfl
          | cut gone => obtain ⟨_, h⟩ := ite_some_some h; rw [← Option.some.inj h]; exact unheard_same (ends _ _) rfl rfl rfl rfl rfl rfl rfl rfl
  | host_packet =>
    simp only [w_step] at h
    obtain ⟨u, hu, rfl⟩ := Option.map_eq_some_iff.mp h
    clear h
    have h := hu
    simp only [u_step, u_host_packet] at h
    split at h
    · cases h
    · rename_i p ps hp
      obtain ⟨_, h⟩ := ite_some_some h
      rw [← Option.some.inj h]
      have hb := i.bus
      rw [hp] at hb
      refine ⟨fun q hq => hb q (List.mem_cons_of_mem _ hq), fun q hq => ?_, i.rx, i.taken, i.before, i.tasks, i.pending, i.outs⟩
      rcases List.mem_append.mp hq with hq | hq
      · exact i.endpoint q hq
      · rw [List.mem_singleton.mp hq]; exact hb p (List.mem_cons_self ..)
  | dev_read =>
    simp only [w_step] at h
    obtain ⟨u, hu, rfl⟩ := Option.map_eq_some_iff.mp h
    clear h
    have h := hu
    simp only [u_step, u_read] at h
    split at h
    · split at h
      · cases h
      · rename_i p ps hp
        have hb := i.endpoint
        rw [hp] at hb
        have hl : p.length = 64 := hb p (List.mem_cons_self ..)
        have hr : ∃ r, rx_step W.U.lost W.U.rxlen x.u.rx p = .more r ∧ (r = .draining ∨ ∃ got, r = .filling got ∧ got.length % 64 = 0) := by
          obtain ⟨k, hk⟩ := hU.buffer
          have hpos := hU.some_buffer
          have drain : drain_step W.U.lost W.U.rxlen p = .more .draining := by
            unfold drain_step
            rw [if_neg (by omega), if_pos hl]
          rcases i.rx with e | ⟨got, e, hg⟩
          · exact ⟨.draining, by rw [e]; exact drain, .inl rfl⟩
          · rw [e]
            simp only [rx_step]
            by_cases h0 : W.U.rxlen - got.length = 0
            · exact ⟨.draining, by rw [if_pos h0]; exact drain, .inl rfl⟩
            · refine ⟨.filling (got ++ p), ?_, .inr ⟨_, rfl, by rw [List.length_append]; omega⟩⟩
              rw [if_neg h0, if_neg (by omega), if_neg (by omega)]
        obtain ⟨r, hr, hrx⟩ := hr
        rw [hr] at h
        cases h
        exact ⟨i.bus, fun q hq => hb q (List.mem_cons_of_mem _ hq), hrx, i.taken, i.before, i.tasks, i.pending, i.outs⟩
    · cases h
  | flush =>
    simp only [w_step] at h
    obtain ⟨u, hu, rfl⟩ := Option.map_eq_some_iff.mp h
    clear h
    have h := hu
    simp only [u_step, i.pending] at h
    cases h
  | task_reply k v =>
    simp only [w_step] at h
    obtain ⟨u, hu, rfl⟩ := Option.map_eq_some_iff.mp h
    clear h
    have h := hu
    simp only [u_step, u_task_reply] at h
    repeat' split at h
    all_goals first
      | (cases h; done)
      | exact unheard_send i (by intro j e; cases e) h
  | app_publish key seq v =>
    simp only [w_step] at h
    obtain ⟨u, hu, rfl⟩ := Option.map_eq_some_iff.mp h
    clear h
    have h := hu
    simp only [u_step, u_publish] at h
    exact unheard_send i (by intro j e; cases e) h
  | refuse =>
    simp only [w_step] at h
    obtain ⟨u, hu, rfl⟩ := Option.map_eq_some_iff.mp h
    clear h
    have h := hu
    simp only [u_step, u_refuse] at h
    split at h
    · cases h
    · obtain ⟨_, h⟩ := ite_some_some h
      rw [← Option.some.inj h]
      exact unheard_same i rfl rfl rfl rfl rfl rfl rfl rfl

theorem unheard_run {W : WebCfg V E SC Ctx} (hU : UsbSound W.U) {u0 : UsbSys V E SC Ctx} {ls : List (ULabel V)} : ∀ {x x' : WebSys V E SC Ctx},
    Unheard u0 x.u → (∀ b ∈ x'.u.sys.client.tx.drop x.u.sys.client.tx.length, b.length % 64 = 0) → w_run W ls x = some x' →
    Unheard u0 x'.u := by
  induction ls with
  | nil => intro x x' i _ h; cases h; exact i
  | cons l ls ih =>
    intro x x' i hw h
    simp only [w_run] at h
    split at h
    · rename_i v hv
      obtain ⟨y, hy⟩ := (w_step_grows hv).2
      obtain ⟨z, hz⟩ := (w_run_grows h).2
      rw [hz, hy, List.append_assoc, List.drop_left] at hw
      refine ih (unheard_step hU i ?_ hv) ?_ h
      · rw [hy, List.drop_left]
        exact fun b hb => hw b (List.mem_append.mpr (.inl hb))
      · rw [hz, List.drop_left]
        exact fun b hb => hw b (List.mem_append.mpr (.inr hb))
    · cases h

end PRpc
