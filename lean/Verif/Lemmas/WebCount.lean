import Verif.Lemmas.WebWhole
/-! How many messages the server takes from a page: helper lemmas for C104. -/

namespace PRpc

open Spec

variable {V E SC Ctx : Type}

/-- Does it leave its last packet unfilled? -/
def short64 (b : Bytes) : Bool := decide (b.length % 64 ≠ 0)

theorem chunks64_short (l : Bytes) : (∀ c ∈ chunks64 l, 0 < c.length) ∧ (chunks64 l).countP short64 = if short64 l = true then 1 else 0 := by
  induction hn : l.length using Nat.strongRecOn generalizing l with
  | _ n ih =>
    subst hn
    by_cases hl : l = []
    · subst hl; rw [chunks64_nil]; exact ⟨(by intro c hc; cases hc), rfl⟩
    · have hp := List.length_pos_iff.mpr hl
      obtain ⟨i1, i2⟩ := ih (l.drop 64).length (by rw [List.length_drop]; omega) (l.drop 64) rfl
      rw [chunks64_cons hl]
      refine ⟨fun c hc => ?_, ?_⟩
      · rcases List.mem_cons.mp hc with rfl | hc
        · rw [List.length_take]; omega
        · exact i1 c hc
      · rw [List.countP_cons, i2]
        simp only [short64, List.length_take, List.length_drop, decide_eq_true_eq]
        by_cases h64 : l.length ≤ 64
        · split <;> split <;> split <;> omega
        · split <;> split <;> split <;> omega

theorem chunks64_shorts (l : List Bytes) : (l.flatMap chunks64).countP short64 = l.countP short64 := by
  induction l with
  | nil => rfl
  | cons b l ih => rw [List.flatMap_cons, List.countP_append, ih, (chunks64_short b).2, List.countP_cons, Nat.add_comm]

/-- What holds from an idle device on: the messages the server has taken and the packets on the way that end one are the requests that leave
their last packet unfilled (`n` of them sent and `k` taken before). -/
structure Counted (n k : Nat) (u : UsbSys V E SC Ctx) : Prop where
  bus : ∀ p ∈ u.bus_out, 0 < p.length ∧ p.length ≤ 64
  endpoint : ∀ p ∈ u.ep_out, 0 < p.length ∧ p.length ≤ 64
  rx : u.rx = .draining ∨ ∃ got, u.rx = .filling got ∧ got.length % 64 = 0
  count : u.sys.taken + u.ep_out.countP short64 + u.bus_out.countP short64 + n = k + u.sys.client.tx.countP short64

theorem counted_same {n k : Nat} {u v : UsbSys V E SC Ctx} (i : Counted n k u) (h1 : v.bus_out = u.bus_out) (h2 : v.ep_out = u.ep_out)
    (h3 : v.rx = u.rx) (h4 : v.sys.taken = u.sys.taken) (h5 : v.sys.client.tx = u.sys.client.tx) : Counted n k v :=
  ⟨by rw [h1]; exact i.bus, by rw [h2]; exact i.endpoint, by rw [h3]; exact i.rx, by rw [h1, h2, h4, h5]; exact i.count⟩

theorem counted_send {U : UsbCfg V E SC Ctx} {n k : Nat} {u v : UsbSys V E SC Ctx} (i : Counted n k u) {src : Src} {r : Option E × St V E SC Ctx}
    {f : Frame V} (h : u_send U u src r f = some v) : Counted n k v := by
  simp only [u_send] at h
  split at h <;> (obtain ⟨_, b, _, rfl⟩ := u_begin_cases h; exact counted_same i rfl rfl rfl rfl rfl)

theorem serve_message_taken {S : SysCfg V E SC Ctx} {s s' : Sys V E SC Ctx} {m : Bytes} (h : serve_message S s m = some s') :
    s'.taken = s.taken + 1 ∧ s'.client.tx = s.client.tx := by
  unfold serve_message at h
  repeat' split at h
  all_goals first
    | (cases h; done)
    | (cases h; exact ⟨rfl, rfl⟩)

theorem counted_step {W : WebCfg V E SC Ctx} (hU : UsbSound W.U) {n k : Nat} {x x' : WebSys V E SC Ctx} {l : ULabel V}
    (i : Counted n k x.u) (h : w_step W x l = some x') :
    Counted n k x'.u := by
  have cl : ∀ {s : Sys V E SC Ctx} {l : Label}, client_step W.U.S x.u.sys l = some s →
      s.taken = x.u.sys.taken ∧ (l ≠ .out_recv → s.client.tx = x.u.sys.client.tx) ∧ ∃ y, s.client.tx = x.u.sys.client.tx ++ y := by
    intro s l hs
    obtain ⟨c, hc, hcl⟩ := client_step_cases hs
    rcases hcl with ⟨_, _, _, _, rfl⟩ | ⟨_, rfl⟩ <;> exact ⟨rfl, fun hl => step_tx_same hl hc, step_tx hc⟩
  have usb : ∀ {l : Label}, l ≠ .out_recv → (u_client W.U x.u l).map (fun u => { x with u := u }) = some x' → Counted n k x'.u := by
    intro l hl h
    obtain ⟨u, h1, rfl⟩ := Option.map_eq_some_iff.mp h
    obtain ⟨s, hs, h2⟩ := u_client_cases h1
    rcases h2 with ⟨rfl, _⟩ | ⟨_, _, rfl⟩
    · exact absurd rfl hl
    · exact counted_same i rfl rfl rfl (cl hs).1 ((cl hs).2.1 hl)
  cases l with
  | client l =>
    simp only [w_step, w_client] at h
    split at h
    · split at h
      · cases h
      · rename_i s hs
        cases h
        refine ⟨fun p hp => ?_, i.endpoint, i.rx, ?_⟩
        · rcases List.mem_append.mp hp with hp | hp
          · exact i.bus p hp
          · obtain ⟨b, hb, hp⟩ := List.mem_flatMap.mp hp
            exact ⟨(chunks64_short b).1 p hp, chunks64_small b p hp⟩
        · obtain ⟨c1, _, y, hy⟩ := cl hs
          show s.taken + x.u.ep_out.countP short64 + (x.u.bus_out ++ (s.client.tx.drop x.u.sys.client.tx.length).flatMap chunks64).countP short64 + n =
            k + s.client.tx.countP short64
          rw [List.countP_append, chunks64_shorts, c1, hy, List.drop_left, List.countP_append]
          have := i.count
          omega
    · split at h
      · cases h
      · exact usb (by intro e; cases e) h
    · rename_i h1 h2
      exact usb (fun e => h1 e) h
  | dev_write o =>
    have get : ∀ p, Counted n k (web_get W.len x p).u := by
      intro p
      unfold web_get
      split
      · exact (counted_same i rfl rfl rfl rfl rfl)
      · split <;> exact (counted_same i rfl rfl rfl rfl rfl)
    have ends : ∀ (gone : Bool) (p : Bytes), Counted n k (if gone = true then web_get W.len x p else x).u := by
      intro gone p
      split
      · exact get p
      · exact i
    simp only [w_step, w_write] at h
    split at h
    · cases h
    · split at h
      · cases o with
        | ok => obtain ⟨_, h⟩ := ite_some_some h; rw [← Option.some.inj h]; exact counted_same (get _) rfl rfl rfl rfl rfl
        | err gone => obtain ⟨_, h⟩ := ite_some_some h; rw [← Option.some.inj h]; exact counted_same (ends _ _) rfl rfl rfl rfl rfl
        | cut gone => obtain ⟨_, h⟩ := ite_some_some h; rw [← Option.some.inj h]; exact counted_same (ends _ _) rfl rfl rfl rfl rfl
      · split at h
        · cases h
        · cases o with
          | ok =>
            obtain ⟨_, h⟩ := ite_some_some h
            rw [← Option.some.inj h]
            unfold u_wrote
            split <;> exact counted_same (get _) rfl rfl rfl rfl rfl
          | err gone => obtain ⟨_, h⟩ := ite_some_some h; rw [← Option.some.inj h]; exact counted_same (ends _ _) rfl rfl rfl rfl rfl
          | cut gone => obtain ⟨_, h⟩ := ite_some_some h; rw [← Option.some.inj h]; exact counted_same (ends _ _) rfl rfl rfl rfl rfl
  | host_packet =>
    simp only [w_step] at h
    obtain ⟨u, hu, rfl⟩ := Option.map_eq_some_iff.mp h
    clear h
    have h := hu
    simp only [u_step, u_host_packet] at h
    split at h
    · cases h
    · rename_i p ps hp
      obtain ⟨_, h⟩ := ite_some_some h
      rw [← Option.some.inj h]
      have hb := i.bus
      have hc := i.count
      rw [hp] at hb hc
      refine ⟨fun q hq => hb q (List.mem_cons_of_mem _ hq), fun q hq => ?_, i.rx, ?_⟩
      · rcases List.mem_append.mp hq with hq | hq
        · exact i.endpoint q hq
        · rw [List.mem_singleton.mp hq]; exact hb p (List.mem_cons_self ..)
      · show x.u.sys.taken + (x.u.ep_out ++ [p]).countP short64 + ps.countP short64 + n = k + x.u.sys.client.tx.countP short64
        rw [List.countP_append, List.countP_singleton]
        rw [List.countP_cons] at hc
        omega
  | dev_read =>
    simp only [w_step] at h
    obtain ⟨u, hu, rfl⟩ := Option.map_eq_some_iff.mp h
    clear h
    have h := hu
    simp only [u_step, u_read] at h
    split at h
    · split at h
      · cases h
      · rename_i p ps hp
        have hb := i.endpoint
        have hc := i.count
        rw [hp] at hb hc
        rw [List.countP_cons] at hc
        obtain ⟨hl0, hl1⟩ := hb p (List.mem_cons_self ..)
        have hb' : ∀ q ∈ ps, 0 < q.length ∧ q.length ≤ 64 := fun q hq => hb q (List.mem_cons_of_mem _ hq)
        have hr : (short64 p = false ∧ ∃ r, rx_step W.U.lost W.U.rxlen x.u.rx p = .more r ∧ (r = .draining ∨ ∃ got, r = .filling got ∧ got.length % 64 = 0)) ∨
            (short64 p = true ∧ ∃ r, rx_step W.U.lost W.U.rxlen x.u.rx p = .done r false) := by
          obtain ⟨q, hq⟩ := hU.buffer
          have hpos := hU.some_buffer
          have sh : p.length ≠ 64 → short64 p = true := fun h => decide_eq_true (by omega)
          have fu : p.length = 64 → short64 p = false := fun h => decide_eq_false (by omega)
          have drain : (short64 p = false ∧ drain_step W.U.lost W.U.rxlen p = .more .draining) ∨
              (short64 p = true ∧ ∃ r, drain_step W.U.lost W.U.rxlen p = .done r false) := by
            unfold drain_step
            rw [if_neg (by omega)]
            by_cases hl : p.length = 64
            · rw [if_pos hl]; exact .inl ⟨fu hl, rfl⟩
            · rw [if_neg hl]; exact .inr ⟨sh hl, none, rfl⟩
          have drain' : (short64 p = false ∧ ∃ r, drain_step W.U.lost W.U.rxlen p = .more r ∧ (r = .draining ∨ ∃ got, r = .filling got ∧ got.length % 64 = 0)) ∨
              (short64 p = true ∧ ∃ r, drain_step W.U.lost W.U.rxlen p = .done r false) :=
            drain.imp (fun h => ⟨h.1, _, h.2, .inl rfl⟩) id
          rcases i.rx with e | ⟨got, e, hg⟩
          · rw [e]; exact drain'
          · rw [e]
            simp only [rx_step]
            by_cases h0 : W.U.rxlen - got.length = 0
            · rw [if_pos h0]; exact drain'
            · rw [if_neg h0, if_neg (by omega)]
              by_cases hl : p.length = 64
              · rw [if_neg (by omega)]
                exact .inl ⟨fu hl, _, rfl, .inr ⟨_, rfl, by rw [List.length_append]; omega⟩⟩
              · rw [if_pos hl]; exact .inr ⟨sh hl, _, rfl⟩
        rcases hr with ⟨hs, r, hr, hrx⟩ | ⟨hs, r, hr⟩
        · rw [hr] at h
          rw [hs, if_neg Bool.false_ne_true] at hc
          cases h
          refine ⟨i.bus, hb', hrx, ?_⟩
          show x.u.sys.taken + ps.countP short64 + x.u.bus_out.countP short64 + n = k + x.u.sys.client.tx.countP short64
          omega
        · rw [hr] at h
          rw [if_pos hs] at hc
          cases r with
          | none =>
            cases h
            refine ⟨i.bus, hb', .inr ⟨[], rfl, rfl⟩, ?_⟩
            show x.u.sys.taken + 1 + ps.countP short64 + x.u.bus_out.countP short64 + n = k + x.u.sys.client.tx.countP short64
            omega
          | some m =>
            simp only at h
            split at h
            · rename_i s hs'
              cases h
              refine ⟨i.bus, hb', .inr ⟨[], rfl, rfl⟩, ?_⟩
              show s.taken + ps.countP short64 + x.u.bus_out.countP short64 + n = k + s.client.tx.countP short64
              rw [(serve_message_taken hs').1, (serve_message_taken hs').2]
              omega
            · cases h
    · cases h
  | flush =>
    simp only [w_step] at h
    obtain ⟨u, hu, rfl⟩ := Option.map_eq_some_iff.mp h
    clear h
    have h := hu
    simp only [u_step] at h
    split at h
    · cases h
    · obtain ⟨_, b, _, rfl⟩ := u_begin_cases h
      exact counted_same i rfl rfl rfl rfl rfl
  | task_reply j v =>
    simp only [w_step] at h
    obtain ⟨u, hu, rfl⟩ := Option.map_eq_some_iff.mp h
    clear h
    have h := hu
    simp only [u_step, u_task_reply] at h
    repeat' split at h
    all_goals first
      | (cases h; done)
      | exact counted_send i h
  | app_publish key seq v =>
    simp only [w_step] at h
    obtain ⟨u, hu, rfl⟩ := Option.map_eq_some_iff.mp h
    clear h
    have h := hu
    simp only [u_step, u_publish] at h
    exact counted_send i h
  | refuse =>
    simp only [w_step] at h
    obtain ⟨u, hu, rfl⟩ := Option.map_eq_some_iff.mp h
    clear h
    have h := hu
    simp only [u_step, u_refuse] at h
    split at h
    · cases h
    · obtain ⟨_, h⟩ := ite_some_some h
      rw [← Option.some.inj h]
      exact counted_same i rfl rfl rfl rfl rfl

theorem counted_run {W : WebCfg V E SC Ctx} (hU : UsbSound W.U) {n k : Nat} {ls : List (ULabel V)} : ∀ {x x' : WebSys V E SC Ctx},
    Counted n k x.u → w_run W ls x = some x' → Counted n k x'.u := by
  induction ls with
  | nil => intro x x' i h; cases h; exact i
  | cons l ls ih =>
    intro x x' i h
    simp only [w_run] at h
    split at h
    · rename_i v hv
      exact ih (counted_step hU i hv) h
    · cases h

end PRpc
