import Verif.Spec.WebSys
import Verif.Lemmas.UsbLive
import Verif.Lemmas.UsbLink
/-! Helper lemmas for C104: what a browser does, as long as messages are of lengths it can deal with, the client over nusb could do. -/

namespace PRpc

open Spec

variable {V E SC Ctx : Type}

/-- A packet that fits is received as over nusb. -/
theorem web_get_eq {len : Nat} {x : WebSys V E SC Ctx} {p : Bytes} (h1 : (x.u.cur ++ p).length ≤ len)
    (h2 : p.length < 64 ∨ ((x.u.cur ++ p).length < 1024 ∧ (x.u.cur ++ p).length < len)) :
    web_get len x p = { x with u := host_get x.u p } := by
  unfold web_get host_get MAX_TRANSFER_SIZE
  rw [if_neg (by omega)]
  by_cases hp : p.length < 64
  · rw [if_pos (.inl hp), if_pos (.inl hp)]
  · obtain h2 | h2 := h2
    · exact absurd h2 hp
    · rw [if_neg (by omega), if_neg (by omega)]

theorem get_cur {u : UsbSys V E SC Ctx} {p : Bytes} {n : Nat} (h : (u.cur ++ p).length ≤ n) : (host_get u p).cur.length ≤ n := by
  unfold host_get
  split
  · exact Nat.zero_le _
  · exact h

theorem web_room_usb {x : WebSys V E SC Ctx} (h : web_room x = true) : decide (x.u.sys.air.length < IN_FLIGHT_REQS) = true := by
  simp only [web_room, Bool.and_eq_true, decide_eq_true_eq] at h
  simp [h.1.2, IN_FLIGHT_REQS]

/-- The packets still to be written are those of the rest of the frame. -/
theorem packet_fits {S : SysCfg V E SC Ctx} {u : UsbSys V E SC Ctx} {w : Sending V} (i : SendInv S u w) (hz : w.zlp = false) {p : Bytes}
    {rest : List Bytes} (h : w.todo = p :: rest) : (u.cur ++ p).length ≤ w.b.length := by
  have hc := i.cur hz
  have hle := i.le
  have hp : p.length ≤ (w.b.drop w.out).length := by
    have e : host_packets (w.b.drop w.out) = p :: rest := i.todo.symm.trans h
    by_cases hn : w.b.drop w.out = []
    · rw [hn] at e
      rw [hn]
      simp [host_packets, chunks64_nil] at e
      rw [← e.1]
      exact Nat.le_refl _
    · unfold host_packets at e
      rw [chunks64_cons hn] at e
      have := (List.cons.inj e).1
      rw [← this, List.length_take]
      omega
  rw [hc, List.length_append, List.length_take]
  rw [List.length_drop] at hp
  omega

theorem web_write {W : WebCfg V E SC Ctx} {x x' : WebSys V E SC Ctx} {o : WriteOut} (inv : UsbInv W.U.S x.u) (hc : x.u.cur.length ≤ W.len)
    (hb : x.babble = false) (hsm : WebSmall W x.u.sys) (h : w_write W x o = some x') :
    u_write x.u o = some x'.u ∧ x'.babble = false ∧ x'.u.cur.length ≤ W.len := by
  unfold w_write at h
  unfold u_write
  cases hs : x.u.sending with
  | none => rw [hs] at h; cases h
  | some w =>
    rw [hs] at h
    have i := inv.send w hs
    have hw : w.b.length < 1024 ∧ w.b.length < W.len := by
      refine hsm w.o i.out w.b ?_
      have e := i.bytes
      rw [frame_bytes_eq] at e
      have e : encOf w.o.frame.hdr ++ W.U.S.enc w.o.frame.body = w.b := by injection e
      rw [← e]
      simp only [IsFrame, List.map_append, encOf_layout]
    simp only at h ⊢
    -- a write that fails
    have fail : ∀ (gone : Bool) (p : Bytes) (w' : Sending V), web_get W.len x p = { x with u := host_get x.u p } →
        (x.u.cur ++ p).length ≤ W.len →
        (if w'.fails_at = some w'.out ∧ (gone = true → web_room x = true) then
          some { (if gone = true then web_get W.len x p else x) with
            u := { (if gone = true then web_get W.len x p else x).u with pending_frame := true, sending := none } }
          else none) = some x' →
        (if w'.fails_at = some w'.out ∧ (gone = true → decide (x.u.sys.air.length < IN_FLIGHT_REQS) = true) then
          some { (if gone = true then host_get x.u p else x.u) with pending_frame := true, sending := none }
          else none) = some x'.u ∧ x'.babble = false ∧ x'.u.cur.length ≤ W.len := by
      intro gone p w' e hp h
      obtain ⟨h1, h2⟩ := ite_some_some h
      rw [if_pos ⟨h1.1, fun g => web_room_usb (h1.2 g)⟩]
      rw [← Option.some.inj h2]
      cases gone with
      | false => exact ⟨rfl, hb, hc⟩
      | true =>
        rw [if_pos rfl, e]
        exact ⟨rfl, hb, get_cur hp⟩
    cases hz : w.zlp with
    | true =>
      simp only [hz, if_true] at h ⊢
      have e : web_get W.len x [] = { x with u := host_get x.u [] } := web_get_eq (by simpa using hc) (.inl (by simp))
      have hp : (x.u.cur ++ []).length ≤ W.len := by simpa using hc
      cases o with
      | ok =>
        obtain ⟨h1, h2⟩ := ite_some_some h
        rw [if_pos (web_room_usb h1), ← Option.some.inj h2, e]
        exact ⟨rfl, hb, get_cur hp⟩
      | err gone => exact fail gone [] w e hp h
      | cut gone => exact fail gone [] w e hp h
    | false =>
      simp only [hz, Bool.false_eq_true, if_false] at h ⊢
      cases ht : w.todo with
      | nil => rw [ht] at h; cases h
      | cons p rest =>
        rw [ht] at h
        have hp := packet_fits i hz ht
        have hp' : (x.u.cur ++ p).length ≤ W.len := by omega
        have e : web_get W.len x p = { x with u := host_get x.u p } := web_get_eq hp' (.inr ⟨by omega, by omega⟩)
        cases o with
        | ok =>
          obtain ⟨h1, h2⟩ := ite_some_some h
          dsimp only
          rw [if_pos ⟨web_room_usb h1.1, h1.2⟩, ← Option.some.inj h2, e]
          refine ⟨rfl, hb, ?_⟩
          have : ∀ (v : UsbSys V E SC Ctx) (w : Sending V), (u_wrote v w).cur = v.cur := by
            intro v w; unfold u_wrote; split <;> rfl
          rw [this]
          exact get_cur hp'
        | err gone => exact fail gone p _ e hp' h
        | cut gone => exact fail gone p _ e hp' h

/-- A step that is not a write grows what has been sent as the same step over nusb does. -/
theorem w_step_grows {W : WebCfg V E SC Ctx} {x x' : WebSys V E SC Ctx} {l : ULabel V} (h : w_step W x l = some x') :
    (∃ y, x'.u.sys.outs = x.u.sys.outs ++ y) ∧ ∃ y, x'.u.sys.client.tx = x.u.sys.client.tx ++ y := by
  have mapped : ∀ {l : ULabel V}, (u_step W.U x.u l).map (fun u => { x with u := u }) = some x' →
      (∃ y, x'.u.sys.outs = x.u.sys.outs ++ y) ∧ ∃ y, x'.u.sys.client.tx = x.u.sys.client.tx ++ y := by
    intro l h
    obtain ⟨u, h1, rfl⟩ := Option.map_eq_some_iff.mp h
    exact u_step_grows h1
  cases l with
  | client l =>
    simp only [w_step, w_client] at h
    split at h
    · split at h
      · cases h
      · rename_i s hs
        cases h
        have : u_step W.U x.u (.client .out_recv) = some { x.u with
            sys := s
            bus_out := x.u.bus_out ++ (s.client.tx.drop x.u.sys.client.tx.length).flatMap host_packets } := by
          simp [u_step, u_client, hs]
        have g := u_step_grows this
        exact g
    · split at h
      · cases h
      · exact mapped (l := .client _) h
    · exact mapped (l := .client _) h
  | dev_write o =>
    have get : ∀ p, (web_get W.len x p).u.sys.outs = x.u.sys.outs ∧ (web_get W.len x p).u.sys.client = x.u.sys.client := by
      intro p
      unfold web_get
      split
      · exact ⟨rfl, rfl⟩
      · split <;> exact ⟨rfl, rfl⟩
    have wr : ∀ (v : UsbSys V E SC Ctx) (w : Sending V), (u_wrote v w).sys = v.sys := by
      intro v w; unfold u_wrote; split <;> rfl
    have same : x'.u.sys.outs = x.u.sys.outs ∧ x'.u.sys.client = x.u.sys.client := by
      simp only [w_step, w_write] at h
      have ends : ∀ (gone : Bool) (p : Bytes), (if gone = true then web_get W.len x p else x).u.sys.outs = x.u.sys.outs ∧
          (if gone = true then web_get W.len x p else x).u.sys.client = x.u.sys.client := by
        intro gone p
        split
        · exact get p
        · exact ⟨rfl, rfl⟩
      split at h
      · cases h
      · split at h
        · cases o with
          | ok => obtain ⟨_, h⟩ := ite_some_some h; rw [← Option.some.inj h]; exact get _
          | err gone => obtain ⟨_, h⟩ := ite_some_some h; rw [← Option.some.inj h]; exact ends _ _
          | cut gone => obtain ⟨_, h⟩ := ite_some_some h; rw [← Option.some.inj h]; exact ends _ _
        · split at h
          · cases h
          · cases o with
            | ok => obtain ⟨_, h⟩ := ite_some_some h; rw [← Option.some.inj h]; simp only [wr]; exact get _
            | err gone => obtain ⟨_, h⟩ := ite_some_some h; rw [← Option.some.inj h]; exact ends _ _
            | cut gone => obtain ⟨_, h⟩ := ite_some_some h; rw [← Option.some.inj h]; exact ends _ _
    exact ⟨⟨[], by rw [same.1, List.append_nil]⟩, [], by rw [same.2, List.append_nil]⟩
  | host_packet => exact mapped h
  | dev_read => exact mapped h
  | flush => exact mapped h
  | task_reply i v => exact mapped h
  | app_publish key seq v => exact mapped h
  | refuse => exact mapped h

theorem cur_same {U : UsbCfg V E SC Ctx} {u u' : UsbSys V E SC Ctx} {l : ULabel V} (hl : ∀ o, l ≠ .dev_write o) (h : u_step U u l = some u') :
    u'.cur = u.cur := by
  have beg : ∀ {s : Sys V E SC Ctx} {o : Out V}, u_begin U u s o = some u' → u'.cur = u.cur := by
    intro s o h
    obtain ⟨_, _, _, rfl⟩ := u_begin_cases h
    rfl
  cases l with
  | dev_write o => exact absurd rfl (hl o)
  | client l =>
    obtain ⟨s, _, h2⟩ := u_client_cases h
    rcases h2 with ⟨_, rfl⟩ | ⟨_, _, rfl⟩ <;> rfl
  | host_packet =>
    simp only [u_step, u_host_packet] at h
    repeat' split at h
    all_goals first
      | (cases h; done)
      | (cases h; rfl)
  | dev_read =>
    simp only [u_step, u_read] at h
    repeat' split at h
    all_goals first
      | (cases h; done)
      | (cases h; rfl)
  | flush =>
    simp only [u_step] at h
    split at h
    · cases h
    · exact beg h
  | task_reply i v =>
    simp only [u_step, u_task_reply, u_send] at h
    repeat' split at h
    all_goals first
      | (cases h; done)
      | exact beg h
  | app_publish key seq v =>
    simp only [u_step, u_publish, u_send] at h
    split at h <;> exact beg h
  | refuse =>
    simp only [u_step, u_refuse] at h
    split at h
    · cases h
    · obtain ⟨_, h⟩ := ite_some_some h
      rw [← Option.some.inj h]

theorem short_packets {l : List Bytes} (h : ∀ b ∈ l, b.length % 64 ≠ 0) : l.flatMap chunks64 = l.flatMap host_packets := by
  induction l with
  | nil => rfl
  | cons b l ih =>
    rw [List.flatMap_cons, List.flatMap_cons, ih fun c hc => h c (List.mem_cons_of_mem _ hc)]
    congr 1
    unfold host_packets
    rw [if_neg (h b (List.mem_cons_self ..)), List.append_nil]

/-- A step of the system with the browser is one of the system with nusb. -/
theorem web_step {W : WebCfg V E SC Ctx} {x x' : WebSys V E SC Ctx} {l : ULabel V} (inv : UsbInv W.U.S x.u) (hc : x.u.cur.length ≤ W.len)
    (hb : x.babble = false) (hsm : WebSmall W x.u.sys) (hsh : WebShort x'.u.sys) (h : w_step W x l = some x') :
    u_step W.U x.u l = some x'.u ∧ x'.babble = false ∧ x'.u.cur.length ≤ W.len := by
  have mapped : ∀ {l : ULabel V}, (∀ o, l ≠ .dev_write o) → (u_step W.U x.u l).map (fun u => { x with u := u }) = some x' →
      u_step W.U x.u l = some x'.u ∧ x'.babble = false ∧ x'.u.cur.length ≤ W.len := by
    intro l hl h
    obtain ⟨u, h1, rfl⟩ := Option.map_eq_some_iff.mp h
    exact ⟨h1, hb, by show u.cur.length ≤ _; rw [cur_same hl h1]; exact hc⟩
  cases l with
  | client l =>
    simp only [w_step, w_client] at h
    split at h
    · split at h
      · cases h
      · rename_i s hs
        cases h
        refine ⟨?_, hb, hc⟩
        simp only [u_step, u_client, hs]
        rw [short_packets fun b hm => hsh b (List.mem_of_mem_drop hm)]
    · split at h
      · cases h
      · exact mapped (l := .client _) (by intro o e; cases e) h
    · exact mapped (l := .client _) (by intro o e; cases e) h
  | dev_write o => exact web_write inv hc hb hsm h
  | host_packet => exact mapped (by intro o e; cases e) h
  | dev_read => exact mapped (by intro o e; cases e) h
  | flush => exact mapped (by intro o e; cases e) h
  | task_reply i v => exact mapped (by intro o e; cases e) h
  | app_publish key seq v => exact mapped (by intro o e; cases e) h
  | refuse => exact mapped (by intro o e; cases e) h

theorem webSmall_small {W : WebCfg V E SC Ctx} {s : Sys V E SC Ctx} (h : WebSmall W s) : Small W.U.S s := fun o ho b hb => (h o ho b hb).1

theorem webSmall_before {W : WebCfg V E SC Ctx} {s s' : Sys V E SC Ctx} (h : WebSmall W s') (hx : ∃ y, s'.outs = s.outs ++ y) : WebSmall W s := by
  obtain ⟨y, hx⟩ := hx
  exact fun o ho => h o (by rw [hx]; exact List.mem_append_left _ ho)

theorem webShort_before {s s' : Sys V E SC Ctx} (h : WebShort s') (hx : ∃ y, s'.client.tx = s.client.tx ++ y) : WebShort s := by
  obtain ⟨y, hx⟩ := hx
  exact fun b hb => h b (by rw [hx]; exact List.mem_append_left _ hb)

theorem w_run_grows {W : WebCfg V E SC Ctx} {ls : List (ULabel V)} : ∀ {x x' : WebSys V E SC Ctx}, w_run W ls x = some x' →
    (∃ y, x'.u.sys.outs = x.u.sys.outs ++ y) ∧ ∃ y, x'.u.sys.client.tx = x.u.sys.client.tx ++ y := by
  induction ls with
  | nil => intro x x' h; cases h; exact ⟨⟨[], by simp⟩, [], by simp⟩
  | cons l ls ih =>
    intro x x' h
    simp only [w_run] at h
    split at h
    · rename_i v hv
      obtain ⟨⟨a, ha⟩, ⟨b, hb⟩⟩ := w_step_grows hv
      obtain ⟨⟨a', ha'⟩, ⟨b', hb'⟩⟩ := ih h
      exact ⟨⟨a ++ a', by rw [ha', ha, List.append_assoc]⟩, ⟨b ++ b', by rw [hb', hb, List.append_assoc]⟩⟩
    · cases h

/-- What holds along a run of the system with the browser. -/
structure WebInv (W : WebCfg V E SC Ctx) (x : WebSys V E SC Ctx) : Prop where
  usb : UsbInv W.U.S x.u
  cur : x.u.cur.length ≤ W.len
  sound : x.babble = false

theorem webInv_new (W : WebCfg V E SC Ctx) (c : Ctx) : WebInv W (WebSys.new c) := ⟨usbInv_new _ c, Nat.zero_le _, rfl⟩

theorem web_one {W : WebCfg V E SC Ctx} (hU : UsbSound W.U) {x x' : WebSys V E SC Ctx} {l : ULabel V} (inv : WebInv W x)
    (hsm : WebSmall W x'.u.sys) (hsh : WebShort x'.u.sys) (h : w_step W x l = some x') :
    WebInv W x' ∧ u_step W.U x.u l = some x'.u := by
  have hsm0 := webSmall_before hsm (w_step_grows h).1
  obtain ⟨h1, h2, h3⟩ := web_step inv.usb inv.cur inv.sound hsm0 hsh h
  exact ⟨⟨(sim_step hU.buffer hU.some_buffer inv.usb (webSmall_small hsm0) h1).1, h3, h2⟩, h1⟩

/-- A run of the system with the browser is one of the system with nusb. -/
theorem web_run {W : WebCfg V E SC Ctx} (hU : UsbSound W.U) {ls : List (ULabel V)} : ∀ {x x' : WebSys V E SC Ctx}, WebInv W x →
    WebSmall W x'.u.sys → WebShort x'.u.sys → w_run W ls x = some x' → WebInv W x' ∧ u_run W.U ls x.u = some x'.u := by
  induction ls with
  | nil => intro x x' i _ _ h; cases h; exact ⟨i, rfl⟩
  | cons l ls ih =>
    intro x x' i hsm hsh h
    simp only [w_run] at h
    split at h
    · rename_i v hv
      have hg := w_run_grows h
      obtain ⟨i1, h1⟩ := web_one hU i (webSmall_before hsm hg.1) (webShort_before hsh hg.2) hv
      obtain ⟨i2, h2⟩ := ih i1 hsm hsh h
      exact ⟨i2, by simp only [u_run, h1]; exact h2⟩
    · cases h

theorem web_own_w_run {W : WebCfg V E SC Ctx} {ls : List (ULabel V)} {x y : WebSys V E SC Ctx} (h : WebOwnRun W x ls y) :
    w_run W ls x = some y := by
  induction h with
  | nil x => rfl
  | cons _ h _ ih => simp only [w_run, h]; exact ih

theorem web_own_run {W : WebCfg V E SC Ctx} (hU : UsbSound W.U) {ls : List (ULabel V)} {x y : WebSys V E SC Ctx} (h : WebOwnRun W x ls y)
    (inv : WebInv W x) (hsm : WebSmall W y.u.sys) (hsh : WebShort y.u.sys) : WebInv W y ∧ UsbOwnRun W.U x.u ls y.u := by
  induction h with
  | nil x => exact ⟨inv, .nil _⟩
  | cons ho h hr ih =>
    have hg := w_run_grows (web_own_w_run hr)
    obtain ⟨i1, h1⟩ := web_one hU inv (webSmall_before hsm hg.1) (webShort_before hsh hg.2) h
    obtain ⟨i2, h2⟩ := ih i1 hsm hsh
    exact ⟨i2, .cons ho h1 h2⟩

/-- If nothing moves with the browser, nothing would with nusb. -/
theorem web_stuck {a : App V E SC Ctx} {W : WebCfg V E SC Ctx} {x : WebSys V E SC Ctx} (inv : WebInv W x) (hl : UsbLive a W.U x.u)
    (ho : Open x.u.sys) (h : WebStuck W x) : UsbStuck W.U x.u := by
  have mapped : ∀ {r : Option (UsbSys V E SC Ctx)}, r.map (fun u => { x with u := u }) = none → r = none := by
    intro r h; exact Option.map_eq_none_iff.mp h
  have other : ∀ {l : Label}, UsbOwn x.u (.client l : ULabel V) → u_client W.U x.u l = none := by
    intro l hown
    have := h _ hown
    simp only [w_step, w_client] at this
    split at this
    · simp only [u_client]
      split at this
      · rename_i e; rw [e]
      · cases this
    · rw [if_neg (by rw [inv.sound]; simp)] at this
      exact mapped this
    · exact mapped this
  have moves : ∀ b, (x.u.sys.air ≠ [] → x.u.sys.air.head? = some b) → step W.U.S.cfg x.u.sys.client (.in_recv (some b)) ≠ none ∧ x.u.sys.air = [] := by
    intro b hb
    rcases in_moves hl.sys.reach ho.1 b with ⟨l, h1, h2, h3, h4⟩ | h4
    · exfalso
      have own : UsbOwn x.u (.client l : ULabel V) := by
        show SysOwn x.u.sys (.client l : SLabel V)
        cases l <;> first | exact h1 | exact absurd rfl (h2 _) | exact absurd rfl (h3 _)
      refine u_client_total (U := W.U) (u := x.u) (l := l) ?_ (.inl (h2 _)) (other own)
      cases hs : step W.U.S.cfg x.u.sys.client l with
      | none => exact absurd hs h4
      | some c => rw [client_step_other (fun b => h3 _) hs]; simp
    · refine ⟨h4, ?_⟩
      cases e : x.u.sys.air with
      | nil => rfl
      | cons b' air =>
        exfalso
        have hb' := hb (by rw [e]; simp)
        rw [e] at hb'
        have hb' : b' = b := Option.some.inj hb'
        subst hb'
        have := other (l := .in_recv (some b')) (by simp [UsbOwn, SysOwn])
        refine u_client_total (U := W.U) (u := x.u) (l := .in_recv (some b')) ?_ (.inl (by simp)) this
        simp only [client_step, e, if_true]
        split
        · simp
        · rename_i e2; exact absurd e2 h4
  obtain ⟨hrecv, hair⟩ : step W.U.S.cfg x.u.sys.client (.in_recv (some (x.u.sys.air.head?.getD []))) ≠ none ∧ x.u.sys.air = [] := by
    refine moves _ fun hne => ?_
    cases e : x.u.sys.air with
    | nil => exact absurd e hne
    | cons b air => rfl
  have hpc : x.u.sys.client.in_pc = .recv := by
    simp only [step, in_recv] at hrecv
    split at hrecv
    · rename_i hh; exact hh.1
    · exact absurd rfl hrecv
  have hroom : web_room x = true := by simp [web_room, inv.sound, hair, hpc]
  intro l hown
  cases l with
  | client l => exact other hown
  | dev_write o =>
    have e : o = .ok := hown
    subst e
    have hw := h _ hown
    simp only [w_step, w_write] at hw
    simp only [u_step, u_write]
    cases hs : x.u.sending with
    | none => rfl
    | some w =>
      rw [hs] at hw
      simp only [hroom, true_and, if_true] at hw ⊢
      cases hz : w.zlp with
      | true => simp [hz] at hw
      | false =>
        simp only [hz, Bool.false_eq_true, if_false] at hw ⊢
        cases ht : w.todo with
        | nil => rfl
        | cons p rest =>
          rw [ht] at hw
          simp only at hw ⊢
          split at hw
          · cases hw
          · rename_i hn
            rw [if_neg fun hh => hn hh.2]
  | host_packet => exact mapped (h _ hown)
  | dev_read => exact mapped (h _ hown)
  | flush => exact mapped (h _ hown)
  | task_reply i v => exact mapped (h _ hown)
  | app_publish key seq v => exact mapped (h _ hown)
  | refuse => exact mapped (h _ hown)

/-- An idle client whose workers have been polled does nothing by itself. -/
theorem idle_own {cfg : Cfg} {s : Client} (hi : Idle s) (h1 : s.in_polled = true) (h2 : s.out_polled = true) (hf : s.woken = [])
    {l : Label} (ho : Own s l) : step cfg s l = none := by
  obtain ⟨⟨a1, a2⟩, ⟨a3, a4⟩, a5, a6, a7⟩ := hi
  have hp : ∀ (p : Nat) (pb : Pub), s.pubs[p]? = some pb → pb.res ≠ none := by
    intro p pb h e
    obtain ⟨r, hr⟩ := a6 pb (List.mem_of_getElem? h)
    rw [e] at hr; cases hr
  cases l <;> simp only [Own] at ho <;> try (rw [a1] at ho; cases ho; done)
  case pub_send p =>
    simp only [step]
    split
    · rename_i pb e; rw [if_neg (hp p pb e)]
    · rfl
  case pub_closed p =>
    simp only [step]
    split
    · rename_i pb e; rw [if_neg fun h => hp p pb e h.1]
    · rfl
  case out_poll => simp [step, out_poll, h2]
  case out_recv => simp [step, out_recv, a3, a4, a2]
  case out_done ok => simp [step, out_done, a3]
  case in_poll => simp [step, in_poll, h1]
  case in_lookup => simp [step, in_lookup, a5]
  case in_full_send => simp [step, in_full_send, a5]
  case in_full_timeout => simp [step, in_full_timeout, a5]
  case in_wake => simp [step, in_wake, a5]
  case in_purge => simp [step, a5]
  all_goals
    rename_i c
    simp only [step]
    cases hc : s.calls[c]? with
    | none => rfl
    | some cl =>
      rcases a7 c cl hc with ⟨r, e⟩ | e | ⟨⟨k, e⟩, _⟩ <;> simp [e, a1, call_take, hf]

/-- The client waits, the device has read every packet there was and waits for the next: nothing moves. -/
theorem web_quiet {W : WebCfg V E SC Ctx} {x : WebSys V E SC Ctx} (hi : Idle x.u.sys.client) (h1 : x.u.sys.client.in_polled = true)
    (h2 : x.u.sys.client.out_polled = true) (hf : x.u.sys.client.woken = []) (hair : x.u.sys.air = []) (hb : x.u.bus_out = [])
    (he : x.u.ep_out = []) (hs : x.u.sending = none) (hp : x.u.sys.pending = []) (ht : x.u.sys.tasks = []) : WebStuck W x := by
  have st : ∀ l, Own x.u.sys.client l → u_client W.U x.u l = none ∧ client_step W.U.S x.u.sys l = none := by
    intro l hl
    have e := idle_own (cfg := W.U.S.cfg) hi h1 h2 hf hl
    have e : client_step W.U.S x.u.sys l = none := by
      unfold client_step
      cases l <;> first | (simp only [Own] at hl; done) | (simp only [e]; done) | (simp only [hair, e]; done)
    exact ⟨by simp only [u_client, e], e⟩
  have ou := hi.out.1
  intro l hl
  cases l with
  | client l =>
    simp only [UsbOwn, SysOwn] at hl
    cases l <;> first
      | (have := st _ hl; simp only [w_step, w_client, this.1, this.2, Option.map_none]; done)
      | skip
    case out_done ok => cases ok <;> simp [w_step, w_client, u_client, client_step, step, out_done, ou]
    case in_recv r =>
      cases r with
      | none => exact absurd rfl hl
      | some b =>
        simp only [w_step, w_client]
        split
        · rfl
        · simp [u_client, client_step, hair]
  | dev_write o => simp only [w_step, w_write, hs]
  | host_packet => simp [w_step, u_step, u_host_packet, hb]
  | dev_read => simp [w_step, u_step, u_read, he]
  | flush => simp [w_step, u_step, hp]
  | task_reply i v => simp [w_step, u_step, u_task_reply, ht]
  | app_publish key seq v => cases hl
  | refuse => cases hl

end PRpc
