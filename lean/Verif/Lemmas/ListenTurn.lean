import Verif.Lemmas.ListenRun
/-! Helper lemmas for C101: one `accel listen`, from its subscription on. -/

namespace PRpc

open Spec Props

variable {E : Type}

/-! ### Publications and readings -/

/-- The acceleration published. -/
def accel_val : WbVal → Acceleration
  | .accel a => a
  | _ => ⟨0, 0, 0⟩

/-- The readings are those published. -/
def SameReadings (ps : List (Publication WbVal)) (ss : List Sensed) : Prop :=
  ps.map (fun p => (p.msg, p.ok)) = ss.map fun s => (.accel s.val, s.ok)

theorem same_vals {ps : List (Publication WbVal)} {ss : List Sensed} (h : SameReadings ps ss) :
    ps.map (fun p => accel_val p.msg) = ss.map (·.val) := by
  have := congrArg (List.map fun x : WbVal × Bool => accel_val x.1) h
  simpa [Function.comp_def, accel_val] using this

theorem same_oks {ps : List (Publication WbVal)} {ss : List Sensed} (h : SameReadings ps ss) : ps.map (·.ok) = ss.map (·.ok) := by
  have := congrArg (List.map fun x : WbVal × Bool => x.2) h
  simpa [Function.comp_def] using this

theorem same_accel {ps : List (Publication WbVal)} {ss : List Sensed} (h : SameReadings ps ss) : ∀ p ∈ ps, ∃ a, p.msg = .accel a := by
  intro p hp
  have : (p.msg, p.ok) ∈ ss.map fun s => ((.accel s.val : WbVal), s.ok) := by rw [← h]; exact List.mem_map.mpr ⟨p, hp, rfl⟩
  obtain ⟨s, _, e⟩ := List.mem_map.mp this
  exact ⟨s.val, (congrArg Prod.fst e).symm⟩

theorem same_succeeded : ∀ {ps : List (Publication WbVal)} {ss : List Sensed}, SameReadings ps ss →
    SameReadings (succeeded ps) (ss.filter (·.ok)) := by
  intro ps
  induction ps with
  | nil =>
    intro ss h
    cases ss with
    | nil => rfl
    | cons s ss => cases h
  | cons p ps ih =>
    intro ss h
    cases ss with
    | nil => cases h
    | cons s ss =>
      have h : (p.msg, p.ok) :: ps.map (fun p => (p.msg, p.ok)) = ((.accel s.val : WbVal), s.ok) :: ss.map (fun s => ((.accel s.val : WbVal), s.ok)) := h
      have h1 := (List.cons.inj h).1
      have h2 : SameReadings ps ss := (List.cons.inj h).2
      have hok : p.ok = s.ok := congrArg Prod.snd h1
      have := ih h2
      cases hs : s.ok with
      | true =>
        rw [hs] at hok
        simp only [SameReadings, succeeded, List.filter_cons, hs, hok, if_true, List.map_cons] at this ⊢
        rw [this]
        rw [hok, hs] at h1
        rw [h1]
      | false =>
        rw [hs] at hok
        simp only [SameReadings, succeeded, List.filter_cons, hs, hok] at this ⊢
        exact this

theorem same_prefix {ps qs : List (Publication WbVal)} {ss : List Sensed} (h : SameReadings ps ss) (hp : qs <+: ps) :
    ∃ ts, ts <+: ss ∧ SameReadings qs ts := by
  obtain ⟨r, rfl⟩ := hp
  have h : (qs ++ r).map (fun p => (p.msg, p.ok)) = _ := h
  rw [List.map_append] at h
  obtain ⟨a, b, rfl, ha, hb⟩ := List.map_eq_append_iff.mp h.symm
  exact ⟨a, List.prefix_append _ _, ha.symm⟩

theorem same_suffix {ps qs : List (Publication WbVal)} {ss : List Sensed} (h : SameReadings ps ss) (hp : qs <:+ ps) :
    ∃ ts, ts <:+ ss ∧ SameReadings qs ts := by
  obtain ⟨r, rfl⟩ := hp
  have h : (r ++ qs).map (fun p => (p.msg, p.ok)) = _ := h
  rw [List.map_append] at h
  obtain ⟨a, b, rfl, ha, hb⟩ := List.map_eq_append_iff.mp h.symm
  exact ⟨b, List.suffix_append _ _, hb.symm⟩

theorem same_append {ps qs : List (Publication WbVal)} {ss ts : List Sensed} (h : SameReadings ps ss) (h' : SameReadings qs ts) :
    SameReadings (ps ++ qs) (ss ++ ts) := by
  simp only [SameReadings] at h h' ⊢
  rw [List.map_append, List.map_append, h, h']

/-- What `accel listen` makes of the frames. -/
def shownOf (fs : List RpcFrame) : List Acceleration := fs.filterMap fun f => from_bytes take_accel f.body

theorem accel_understood {I : WbIcd} {U : UsbCfg WbVal E Unit WbCtx} (S : WbSetup I U) {ps : List (Publication WbVal)}
    (h : ∀ p ∈ ps, ∃ a, p.msg = .accel a) : ∀ p ∈ ps, Understood (from_bytes take_accel) (U.S.enc (.val p.msg)) (accel_val p.msg) := by
  intro p hp
  obtain ⟨a, e⟩ := h p hp
  rw [S.enc, e]
  exact understood_of local_accel (reads_accel a)

theorem shown_these {I : WbIcd} {U : UsbCfg WbVal E Unit WbCtx} (S : WbSetup I U) : ∀ {ps : List (Publication WbVal)} {fs : List RpcFrame},
    (∀ p ∈ ps, ∃ a, p.msg = .accel a) → AreThese U.S.enc fs ps → shownOf fs = ps.map fun p => accel_val p.msg := by
  intro ps
  induction ps with
  | nil =>
    intro fs _ h
    cases fs with
    | nil => rfl
    | cons f fs => cases h
  | cons p ps ih =>
    intro fs ha h
    cases fs with
    | nil => cases h
    | cons f fs =>
      simp only [AreThese, List.map_cons] at h
      have h1 := congrArg Prod.snd (List.cons.inj h).1
      have h1 : f.body = U.S.enc (.val p.msg) := h1
      have hd := (accel_understood S ha p (List.mem_cons_self ..)).1 []
      rw [List.append_nil] at hd
      have := ih (fun p hp => ha p (List.mem_cons_of_mem _ hp)) (List.cons.inj h).2
      simp only [shownOf, List.filterMap_cons, h1, hd, List.map_cons] at this ⊢
      rw [this]

theorem shown_of {I : WbIcd} {U : UsbCfg WbVal E Unit WbCtx} (S : WbSetup I U) {ps : List (Publication WbVal)} {fs : List RpcFrame}
    {ss : List Sensed} (hs : SameReadings ps ss) (h1 : SomeOf U.S fs ps) (h2 : AllOf U.S fs ps) : ShownOf U.S (shownOf fs) ss := by
  have hu := accel_understood S (same_accel hs)
  have h1 := h1.2 _ _ accel_val hu
  have h2' := h2.2 _ _ accel_val hu
  rw [same_vals hs] at h1
  rw [same_vals (same_succeeded hs)] at h2'
  refine ⟨h1, h2', fun hc => ?_⟩
  rw [← same_vals (same_succeeded hs)]
  exact shown_these S (same_accel (same_succeeded hs)) (h2.1 hc)

/-! ### One turn -/

/-- The subscription made in step `y1 → y2`, and the run since. -/
structure LsTurn (I : WbIcd) (U : UsbCfg WbVal E Unit WbCtx) (y0 y1 y2 : LsSys E) (ls1 : List LsLabel) (id : Nat) : Prop where
  start : ∃ c0, y0.repl.usb = UsbSys.new c0
  before : ls_run I U ls1 y0 = some y1
  sub : ls_step I U y1 .subscribed = some y2
  id : y2.sub = some id
  well : LsWell y1
  cap : CapOf I.accel.key 8 y1.repl.usb.sys.client.subs

/-- What has been shown in this turn is what was measured. -/
def TurnFact (U : UsbCfg WbVal E Unit WbCtx) (y1 : LsSys E) (pre now : List Sensed) (shown : List Acceleration) : Prop :=
  ∃ late, late <:+ pre ∧ (UsbCaughtUp y1.repl.usb → ∀ s ∈ late, s.ok = false) ∧ ∃ qs, qs <+: late ++ now ∧ ShownOf U.S shown qs

theorem TurnFact.mono {U : UsbCfg WbVal E Unit WbCtx} {y1 : LsSys E} {pre now : List Sensed} {shown : List Acceleration}
    (h : TurnFact U y1 pre now shown) (more : List Sensed) : TurnFact U y1 pre (now ++ more) shown := by
  obtain ⟨late, h1, h2, qs, h3, h4⟩ := h
  exact ⟨late, h1, h2, qs, h3.trans ⟨more, by rw [List.append_assoc]⟩, h4⟩

theorem subscribed_ok {I : WbIcd} {U : UsbCfg WbVal E Unit WbCtx} {y y' : LsSys E} (w : LsWell y) (h : ls_step I U y .subscribed = some y') {id : Nat}
    (hid : y'.sub = some id) : ∃ ms range dur, y.repl.pc = .subscribing ms range dur ∧
      u_step U y.repl.usb (.client (.sub_multi I.accel.key 8)) = some y'.repl.usb ∧
      (subscribe_multi_inner y.repl.usb.sys.client.subs I.accel.key 8).1 = .Ok id ∧
      y'.repl.pc = .calling (.start_accelerometer ms range) (.listen dur) ∧ y'.repl.term = y.repl.term := by
  obtain ⟨us, hm⟩ := ls_moves h
  cases hm with
  | sub_ok ms range dur u i hp hu hi =>
    cases hid
    exact ⟨ms, range, dur, hp, hu, hi, rfl, rfl⟩
  | sub_fail ms range dur u hp hu =>
    have := w.sub (by rw [hp]; nofun)
    rw [hp] at this
    have hid : y.sub = some id := hid
    rw [hid] at this
    cases this

/-- Where a turn stands. -/
structure TurnState (I : WbIcd) (U : UsbCfg WbVal E Unit WbCtx) (y2 y : LsSys E) (id : Nat) (us : List (ULabel WbVal)) : Prop where
  sub : y.sub = some id
  pc : y.repl.pc.listens = true
  healthy : Healthy 8 y.repl.usb.sys.client.subs id
  shown : latest y.repl.term = shownOf (receivedMulti U.S.cfg id (usbClientSteps us) y2.repl.usb.sys.client)

theorem turn_setup {I : WbIcd} {U : UsbCfg WbVal E Unit WbCtx} (S : WbSetup I U) {y0 y1 y2 y : LsSys E} {ls1 ls2 : List LsLabel} {id : Nat}
    (t : LsTurn I U y0 y1 y2 ls1 id) {us : List (ULabel WbVal)} (ht : LsTrace I U y2 y ls2 us) :
    ∃ c0 us1, u_run U us1 (UsbSys.new c0) = some y1.repl.usb ∧
      SameReadings (usbPublications U I.accel.key us1 (UsbSys.new c0)) (sensed I U ls1 y0) ∧
      u_step U y1.repl.usb (.client (.sub_multi I.accel.key 8)) = some y2.repl.usb ∧
      (subscribe_multi_inner y1.repl.usb.sys.client.subs I.accel.key 8).1 = .Ok id ∧
      (∀ k ∈ us1 ++ .client (.sub_multi I.accel.key 8) :: us, UsbUsed (wb_full E I) k) ∧
      ∀ k ∈ usbClientSteps (us1 ++ .client (.sub_multi I.accel.key 8) :: us), ToDeclared (wb_full E I) k := by
  obtain ⟨c0, hc0⟩ := t.start
  obtain ⟨us1, ht1⟩ := ls_trace S t.before
  obtain ⟨ms, range, dur, hp, hu, hi, _⟩ := subscribed_ok t.well t.sub t.id
  have hrun1 := ht1.run
  have hp1 : SameReadings _ _ := ht1.pubs
  rw [hc0] at hrun1 hp1
  refine ⟨c0, us1, hrun1, hp1, hu, hi, ?_, ?_⟩
  · intro k hk
    rcases List.mem_append.mp hk with h | h
    · exact ht1.used k h
    · rcases List.mem_cons.mp h with rfl | h
      · trivial
      · exact ht.used k h
  · intro k hk
    rw [usbClientSteps_at] at hk
    rcases List.mem_append.mp hk with h | h
    · exact ht1.decl k h
    · rcases List.mem_cons.mp h with rfl | h
      · exact listens_declared (show WbListens I _ by simp [WbListens])
      · exact ht.decl k h

theorem same_none {ps : List (Publication WbVal)} {ss : List Sensed} (h : SameReadings ps ss) (h0 : succeeded ps = []) : ∀ s ∈ ss, s.ok = false := by
  intro s hs
  have h1 := same_succeeded h
  rw [h0] at h1
  have h2 : ss.filter (·.ok) = [] := by
    cases hl : ss.filter (·.ok) with
    | nil => rfl
    | cons a l => rw [hl] at h1; cases h1
  have := List.filter_eq_nil_iff.mp h2 s hs
  simpa using this

theorem turn_fact {I : WbIcd} {U : UsbCfg WbVal E Unit WbCtx} (S : WbSetup I U) {y0 y1 y2 y : LsSys E} {ls1 ls2 : List LsLabel} {id : Nat}
    (t : LsTurn I U y0 y1 y2 ls1 id) {us : List (ULabel WbVal)} (ht : LsTrace I U y2 y ls2 us) {r : BRx}
    (hr : y.repl.usb.sys.client.subs.brxs[id]? = some r) (hal : r.alive = true) (hlost : r.lost = 0) :
    TurnFact U y1 (sensed I U ls1 y0) (sensed I U ls2 y2) (shownOf (receivedMulti U.S.cfg id (usbClientSteps us) y2.repl.usb.sys.client)) := by
  obtain ⟨c0, us1, hrun1, hp1, hu, hi, hused, hdecl⟩ := turn_setup S t ht
  obtain ⟨late, r', hlate, hr', _, hng⟩ := usb_no_gaps_of S.sound S.ctx (.first _) hrun1 hu ht.run hused (wb_small S.enc S.size _) hdecl (id := id) ⟨rfl, hi⟩
  have : r' = r := Option.some.inj (hr'.symm.trans hr)
  subst this
  obtain ⟨qs, hqs, hsome, hall⟩ := hng hal hlost _ (List.prefix_append _ _)
  obtain ⟨lateS, hl1, hl2⟩ := same_suffix hp1 hlate.last
  have hp2 : SameReadings _ _ := ht.pubs
  obtain ⟨qsS, hq1, hq2⟩ := same_prefix (same_append hl2 hp2) hqs
  exact ⟨lateS, hl1, fun hc => same_none hl2 (hlate.none hc), qsS, hq1, shown_of S hq2 hsome hall⟩

theorem received_none {cfg : Cfg} {id : Nat} {s : Client} {l : Label} (h : l ≠ .recv_multi id) : receivedMulti cfg id [l] s = [] := by
  cases l with
  | recv_multi i =>
    have : i ≠ id := fun e => h (by rw [e])
    simp only [receivedMulti, if_neg this]
    split <;> rfl
  | _ => simp only [receivedMulti]; split <;> rfl

/-- A step of the rest of the system during a turn. -/
theorem turn_other {U : UsbCfg WbVal E Unit WbCtx} {u u' : UsbSys WbVal E Unit WbCtx} {k : ULabel WbVal} {id : Nat}
    (h : u_step U u k = some u') (h1 : k ≠ .client (.recv_multi id)) (h2 : k ≠ .client (.drop_multi id))
    (hh : Healthy 8 u.sys.client.subs id) : Healthy 8 u'.sys.client.subs id ∧
      ∀ s, receivedMulti U.S.cfg id (usbClientSteps [k]) s = [] := by
  rcases u_step_client h with ⟨k', rfl, hk⟩ | ⟨hn, e⟩
  · exact ⟨healthy_other hk hh (fun e => h1 (by rw [e])) (fun e => h2 (by rw [e])), fun s => received_none (fun e => h1 (by rw [e]))⟩
  · refine ⟨by rw [e]; exact hh, fun s => ?_⟩
    cases k with
    | client l => exact absurd rfl (hn l)
    | _ => rfl

/-- At its end. -/
def TurnOver (y : LsSys E) : Prop := y.repl.pc = .panicked ∨ (y.repl.pc = .reading ∧ y.sub = none)

theorem turn_over {I : WbIcd} {U : UsbCfg WbVal E Unit WbCtx} {y y' : LsSys E} {l : LsLabel} {us : List (ULabel WbVal)}
    (h : LsMove I U y l y' us) (hl : LsLabel.isLine l = false) (ho : TurnOver y) : TurnOver y' ∧ y'.repl.term = y.repl.term := by
  have no : ∀ {P : Prop}, y.repl.pc ≠ .panicked → y.repl.pc ≠ .reading → P := fun h1 h2 => by
    rcases ho with e | ⟨e, _⟩
    · exact absurd e h1
    · exact absurd e h2
  cases h with
  | sys k pc u acc ix ha hp hu hv =>
    rcases allows_cases hp with ⟨m, kk, e1, e2, e3⟩ | ⟨e1, _⟩
    · exact no (by rw [e1]; nofun) (by rw [e1]; nofun)
    · subst e1
      exact ⟨ho, rfl⟩
  | line l hp => cases hl
  | returned m c k cl r hp hc hr hn => exact no (by rw [hp]; nofun) (by rw [hp]; nofun)
  | stopped m c cl r id u hp hc hr hq hi hu => exact no (by rw [hp]; nofun) (by rw [hp]; nofun)
  | sub_ok ms range dur u id hp hu hid => exact no (by rw [hp]; nofun) (by rw [hp]; nofun)
  | sub_fail ms range dur u hp hu => exact no (by rw [hp]; nofun) (by rw [hp]; nofun)
  | report_sub ok hp => exact no (by rw [hp]; nofun) (by rw [hp]; nofun)
  | clock n dur pc hp hq => exact no (by rw [hp]; nofun) (by rw [hp]; nofun)
  | got dur id u f a hp hi hu hf ha => exact no (by rw [hp]; nofun) (by rw [hp]; nofun)
  | skip dur id u f hp hi hu hf ha => exact no (by rw [hp]; nofun) (by rw [hp]; nofun)
  | lost dur id u r hp hi hu hf ha => exact no (by rw [hp]; nofun) (by rw [hp]; nofun)
  | reported r pc ps hp hq hn => exact no (by rw [hp]; nofun) (by rw [hp]; nofun)
  | acc l acc hw hf => exact ⟨ho, rfl⟩
  | reply t u s hh ht hp hn hu => exact ⟨ho, rfl⟩
  | publish t a u s hh ht hp hn hu hok => exact ⟨ho, rfl⟩
  | sent t s acc l ht hs' hl hf => exact ⟨ho, rfl⟩

/-- One step of a turn: it ends, or goes on; and what is shown changes only when a message is received. -/
theorem turn_step {I : WbIcd} {U : UsbCfg WbVal E Unit WbCtx} {y2 y y' : LsSys E} {l : LsLabel} {us vs : List (ULabel WbVal)} {id : Nat}
    (h : LsMove I U y l y' vs) (hl : LsLabel.isLine l = false) (hus : u_run U us y2.repl.usb = some y.repl.usb) (t : TurnState I U y2 y id us) :
    (TurnOver y' ∧ latest y'.repl.term = latest y.repl.term) ∨
    (TurnState I U y2 y' id (us ++ vs) ∧ (latest y'.repl.term = latest y.repl.term ∨
      ∃ r, y'.repl.usb.sys.client.subs.brxs[id]? = some r ∧ r.alive = true ∧ r.lost = 0)) := by
  have hcl := usb_client_run hus
  have recd : ∀ ks, receivedMulti U.S.cfg id (usbClientSteps (us ++ ks)) y2.repl.usb.sys.client =
      receivedMulti U.S.cfg id (usbClientSteps us) y2.repl.usb.sys.client ++ receivedMulti U.S.cfg id (usbClientSteps ks) y.repl.usb.sys.client := by
    intro ks
    rw [usbClientSteps_append, receivedMulti_append hcl]
  have same : ∀ {k : ULabel WbVal} {y' : LsSys E}, u_step U y.repl.usb k = some y'.repl.usb → k ≠ .client (.recv_multi id) → k ≠ .client (.drop_multi id) →
      y'.sub = some id → y'.repl.pc.listens = true → latest y'.repl.term = latest y.repl.term → TurnState I U y2 y' id (us ++ [k]) := by
    intro k y' h h1 h2 h3 h4 h5
    obtain ⟨h6, h7⟩ := turn_other h h1 h2 t.healthy
    exact ⟨h3, h4, h6, by rw [recd, h7, List.append_nil, h5]; exact t.shown⟩
  have quiet : ∀ {y' : LsSys E}, y'.repl.usb = y.repl.usb →
      y'.sub = some id → y'.repl.pc.listens = true → latest y'.repl.term = latest y.repl.term → TurnState I U y2 y' id (us ++ []) := by
    intro y' h h3 h4 h5
    exact ⟨h3, h4, by rw [h]; exact t.healthy, by rw [List.append_nil, h5]; exact t.shown⟩
  have no : ∀ {P : Prop}, y.repl.pc.listens = false → P := fun h => by
    have := t.pc
    rw [h] at this
    cases this
  have frame : ∀ {u : UsbSys WbVal E Unit WbCtx} {f : RpcFrame}, u_step U y.repl.usb (.client (.recv_multi id)) = some u →
      (multi_recv y.repl.usb.sys.client.subs id).1 = some (.Ok f) → Healthy 8 u.sys.client.subs id ∧
        receivedMulti U.S.cfg id (usbClientSteps [(.client (.recv_multi id) : ULabel WbVal)]) y.repl.usb.sys.client = [f] ∧
        ∃ r, u.sys.client.subs.brxs[id]? = some r ∧ r.alive = true ∧ r.lost = 0 := by
    intro u f hu hf
    rcases u_step_client hu with ⟨k', e, hk⟩ | ⟨hn, _⟩
    · cases e
      have hs : u.sys.client.subs = (multi_recv y.repl.usb.sys.client.subs id).2 := by
        have hk := Option.some.inj hk
        rw [← hk]
      rw [hs]
      refine ⟨healthy_recv t.healthy hf, ?_, ?_⟩
      · simp only [usbClientSteps, receivedMulti, hk, if_true, hf]
      · obtain ⟨r, h1, h2, h3, h4, h5, h6⟩ := t.healthy.here
        simp only [multi_recv, h1] at hf ⊢
        split at hf
        · cases hf
        · rename_i hm
          rw [if_neg hm]
          split at hf
          · exact ⟨_, set_get_self h1 _, h2, show r.lost = 0 by omega⟩
          · split at hf <;> cases hf
    · exact absurd rfl (hn _)
  cases h with
  | sys k pc u acc ix ha hp hu hv =>
    have h1 : k ≠ .client (.recv_multi id) := by
      rintro rfl
      simp [ls_allows, t.sub] at ha
    have h2 : k ≠ .client (.drop_multi id) := by
      rintro rfl
      simp [ls_allows, t.sub] at ha
    refine .inr ⟨same hu h1 h2 t.sub ?_ rfl, .inl rfl⟩
    rcases allows_cases hp with ⟨m, kk, e1, e2, e3⟩ | ⟨e1, _⟩
    · subst e3
      have := t.pc
      rw [e1] at this
      exact this
    · subst e1
      exact t.pc
  | line l hp => cases hl
  | returned m c k cl r hp hc hr hn =>
    obtain ⟨h1, h2, h3⟩ := returned_pc k (wb_result m r)
    have hk := t.pc
    rw [hp] at hk
    rcases h3 with h3 | ⟨dur, h3, h4⟩ | ⟨h3, h4⟩ | ⟨h3, h4⟩
    · exact .inl ⟨.inl h3, latest_printed h1 _⟩
    · exact .inr ⟨quiet rfl t.sub (by show ReplPc.listens (repl_returned k _).2 = true; rw [h4]; rfl) (latest_printed h1 _), .inl (latest_printed h1 _)⟩
    · exact absurd h4 (hn id t.sub h3)
    · have hk : k.listens = true := hk
      rw [h3] at hk
      cases hk
  | stopped m c cl r id' u hp hc hr hq hi hu => exact .inl ⟨.inr ⟨rfl, rfl⟩, latest_printed (returned_pc _ _).1 _⟩
  | sub_ok ms range dur u id hp hu hid => exact no (by rw [hp]; rfl)
  | sub_fail ms range dur u hp hu => exact no (by rw [hp]; rfl)
  | report_sub ok hp => exact no (by rw [hp]; rfl)
  | clock n dur pc hp hq =>
    refine .inr ⟨quiet rfl t.sub ?_ rfl, .inl rfl⟩
    rcases hq with rfl | rfl <;> rfl
  | got dur id' u f a hp hi hu hf ha =>
    have : id' = id := Option.some.inj (hi.symm.trans t.sub)
    subst this
    obtain ⟨h1, h2, h3⟩ := frame hu hf
    refine .inr ⟨⟨t.sub, rfl, h1, ?_⟩, .inr h3⟩
    rw [recd, h2, latest_acc, t.shown, shownOf, shownOf, List.filterMap_append]
    simp only [List.filterMap_cons, ha, List.filterMap_nil]
  | skip dur id' u f hp hi hu hf ha =>
    have : id' = id := Option.some.inj (hi.symm.trans t.sub)
    subst this
    obtain ⟨h1, h2, h3⟩ := frame hu hf
    refine .inr ⟨⟨t.sub, t.pc, h1, ?_⟩, .inl rfl⟩
    rw [recd, h2, t.shown, shownOf, shownOf, List.filterMap_append]
    simp only [List.filterMap_cons, ha, List.filterMap_nil, List.append_nil]
  | lost dur id' u r hp hi hu hf ha => exact .inl ⟨.inl rfl, rfl⟩
  | reported r pc ps hp hq hn => exact no (by rw [hp]; rfl)
  | acc l acc hw hf => exact .inr ⟨quiet rfl t.sub t.pc rfl, .inl rfl⟩
  | reply t' u s hh ht hp hn hu => exact .inr ⟨same hu nofun nofun t.sub t.pc rfl, .inl rfl⟩
  | publish t' a u s hh ht hp hn hu hok => exact .inr ⟨same hu nofun nofun t.sub t.pc rfl, .inl rfl⟩
  | sent t' s acc l ht hs' hl hf => exact .inr ⟨quiet rfl t.sub t.pc rfl, .inl rfl⟩

theorem turn_run {I : WbIcd} {U : UsbCfg WbVal E Unit WbCtx} (S : WbSetup I U) {y0 y1 y2 y : LsSys E} {ls1 ls2 : List LsLabel} {id : Nat}
    (t : LsTurn I U y0 y1 y2 ls1 id) (h : ls_run I U ls2 y2 = some y) (hl : ∀ l ∈ ls2, LsLabel.isLine l = false) :
    TurnFact U y1 (sensed I U ls1 y0) (sensed I U ls2 y2) (latest y.repl.term) ∧
    ∃ us, LsTrace I U y2 y ls2 us ∧ (TurnState I U y2 y id us ∨ TurnOver y) := by
  revert hl
  refine ls_induct (P := fun ls2 y => (∀ l ∈ ls2, LsLabel.isLine l = false) →
    TurnFact U y1 (sensed I U ls1 y0) (sensed I U ls2 y2) (latest y.repl.term) ∧
    ∃ us, LsTrace I U y2 y ls2 us ∧ (TurnState I U y2 y id us ∨ TurnOver y)) ?_ ?_ h
  · intro _
    obtain ⟨ms, range, dur, hp, hu, hi, hq, hterm⟩ := subscribed_ok t.well t.sub t.id
    have hz : latest y2.repl.term = [] := by rw [hterm]; exact t.well.none _ _ _ hp
    have hh : Healthy 8 y2.repl.usb.sys.client.subs id := by
      rcases u_step_client hu with ⟨k', e, hk⟩ | ⟨hn, _⟩
      · cases e
        exact healthy_starts_at (d := 8) t.cap hi hk
      · exact absurd rfl (hn _)
    refine ⟨?_, [], LsTrace.nil I U y2, .inl ⟨t.id, by rw [hq]; rfl, hh, hz⟩⟩
    rw [hz]
    exact ⟨[], List.nil_suffix, fun _ _ h => (by cases h), [], List.nil_prefix, List.Sublist.refl _, List.Sublist.refl _, fun _ => rfl⟩
  · intro ls y l y' hr ih hs hl
    obtain ⟨fact, us, htr, hst⟩ := ih (fun k hk => hl k (List.mem_append_left _ hk))
    have hl := hl l (List.mem_append_right _ (List.mem_singleton_self _))
    obtain ⟨vs, hm⟩ := ls_moves hs
    have htr' := LsTrace.trans hr htr (ls_move_trace S hs hm)
    have hmono : latest y'.repl.term = latest y.repl.term →
        TurnFact U y1 (sensed I U ls1 y0) (sensed I U (ls ++ [l]) y2) (latest y'.repl.term) := by
      intro e
      rw [e, sensed_append hr]
      exact fact.mono _
    rcases hst with hst | hst
    · rcases turn_step hm hl htr.run hst with ⟨h1, h2⟩ | ⟨h1, h2⟩
      · exact ⟨hmono h2, _, htr', .inr h1⟩
      · refine ⟨?_, _, htr', .inl h1⟩
        rcases h2 with h2 | ⟨r, g1, g2, g3⟩
        · exact hmono h2
        · rw [h1.shown]
          exact turn_fact S t htr' g1 g2 g3
    · obtain ⟨h1, h2⟩ := turn_over hm hl hst
      exact ⟨hmono (by rw [h2]), _, htr', .inr h1⟩

/-! ### All of them -/

theorem turn_all {I : WbIcd} {U : UsbCfg WbVal E Unit WbCtx} (S : WbSetup I U) {y0 y1 y2 y : LsSys E} {ls1 ls2 : List LsLabel} {id : Nat}
    (t : LsTurn I U y0 y1 y2 ls1 id) {us : List (ULabel WbVal)} (ht : LsTrace I U y2 y ls2 us) (st : TurnState I U y2 y id us)
    (hw : (multi_recv y.repl.usb.sys.client.subs id).1 = none) (hq : UsbCaughtUp y.repl.usb) :
    ∃ late, late <:+ sensed I U ls1 y0 ∧ (UsbCaughtUp y1.repl.usb → ∀ s ∈ late, s.ok = false) ∧
      ShownOf U.S (latest y.repl.term) (late ++ sensed I U ls2 y2) := by
  obtain ⟨c0, us1, hrun1, hp1, hu, hi, hused, hdecl⟩ := turn_setup S t ht
  obtain ⟨late, r, hlate, hr, hsome, hall⟩ := usb_multi_of S.sound S.ctx (.first _) hrun1 hu ht.run hused (wb_small S.enc S.size _) (id := id) ⟨rfl, hi⟩
  obtain ⟨r', h1, h2, h3, _⟩ := st.healthy.here
  have : r' = r := Option.some.inj (h1.symm.trans hr)
  subst this
  have hz : r'.missed = 0 ∧ r'.pending = [] := by
    simp only [multi_recv, hr] at hw
    split at hw
    · cases hw
    · split at hw
      · cases hw
      · rename_i hm hpd
        exact ⟨by omega, hpd⟩
  have hA := (hall hdecl).2 h2 (by omega) hq
  rw [hz.2, List.append_nil] at hA hsome
  obtain ⟨lateS, hl1, hl2⟩ := same_suffix hp1 hlate.last
  refine ⟨lateS, hl1, fun hc => same_none hl2 (hlate.none hc), ?_⟩
  rw [st.shown]
  exact shown_of S (same_append hl2 ht.pubs) hsome hA

/-! ### Every turn begins somewhere -/

theorem ls_turns {I : WbIcd} {U : UsbCfg WbVal E Unit WbCtx} (S : WbSetup I U) {id : BitVec 64} {held : Nat → Bool} {ls : List LsLabel}
    {y : LsSys E} (h : ls_run I U ls (LsSys.start id held) = some y) :
    (latest y.repl.term = [] ∧ y.sub = none) ∨ ∃ ls1 y1 y2 ls2 i, ls = ls1 ++ .subscribed :: ls2 ∧
      LsTurn I U (LsSys.start id held) y1 y2 ls1 i ∧ ls_run I U ls2 y2 = some y ∧ ∀ l ∈ ls2, LsLabel.isLine l = false := by
  refine ls_induct (P := fun ls y => (latest y.repl.term = [] ∧ y.sub = none) ∨ ∃ ls1 y1 y2 ls2 i, ls = ls1 ++ .subscribed :: ls2 ∧
      LsTurn I U (LsSys.start id held) y1 y2 ls1 i ∧ ls_run I U ls2 y2 = some y ∧ ∀ l ∈ ls2, LsLabel.isLine l = false) (.inl ⟨rfl, rfl⟩) ?_ h
  intro ls y l y' hr ih hs
  have w := ls_well hr
  obtain ⟨vs, hm⟩ := ls_moves hs
  by_cases hl : LsLabel.isLine l = true
  · cases hm with
    | line l hp =>
      have := w.sub (by rw [hp]; nofun)
      rw [hp] at this
      exact .inl ⟨latest_typed (line_pc l).2 _ _, Option.isNone_iff_eq_none.mp (by simpa [ReplPc.listens] using this)⟩
    | _ => cases hl
  · have hl : LsLabel.isLine l = false := by simpa using hl
    rcases ih with ⟨h1, h2⟩ | ⟨ls1, y1, y2, ls2, i, e, t, hr2, hn⟩
    · cases hm with
      | sys k pc u acc ix ha hp hu hv => exact .inl ⟨h1, h2⟩
      | line l hp => cases hl
      | returned m c k cl r hp hc hq hn => exact .inl ⟨(latest_printed (returned_pc _ _).1 _).trans h1, h2⟩
      | stopped m c cl r id u hp hc hq hz hi hu => rw [h2] at hi; cases hi
      | sub_ok ms range dur u i hp hu hid =>
        obtain ⟨us, ht⟩ := ls_trace S hr
        exact .inr ⟨ls, y, _, [], i, rfl, ⟨⟨_, rfl⟩, hr, hs, rfl, w, ls_caps ht (fun b hb => by cases hb)⟩, rfl, fun l h => by cases h⟩
      | sub_fail ms range dur u hp hu => exact .inl ⟨h1, h2⟩
      | report_sub ok hp => exact .inl ⟨h1, h2⟩
      | clock n dur pc hp hq => exact .inl ⟨h1, h2⟩
      | got dur id u f a hp hi hu hf ha => rw [h2] at hi; cases hi
      | skip dur id u f hp hi hu hf ha => rw [h2] at hi; cases hi
      | lost dur id u r hp hi hu hf ha => rw [h2] at hi; cases hi
      | reported r pc ps hp hq hn => exact .inl ⟨(latest_printed hn _).trans h1, h2⟩
      | acc l acc hw hf => exact .inl ⟨h1, h2⟩
      | reply t u s hh ht hp hn hu => exact .inl ⟨h1, h2⟩
      | publish t a u s hh ht hp hn hu hok => exact .inl ⟨h1, h2⟩
      | sent t s acc l ht hs' hl hf => exact .inl ⟨h1, h2⟩
    · refine .inr ⟨ls1, y1, y2, ls2 ++ [l], i, by rw [e, List.append_assoc]; rfl, t, ls_run_append hr2 (ls_run_one hs), ?_⟩
      intro k hk
      rcases List.mem_append.mp hk with h | h
      · exact hn k h
      · rw [List.mem_singleton.mp h]; exact hl

theorem turn_of {I : WbIcd} {U : UsbCfg WbVal E Unit WbCtx} (S : WbSetup I U) {uid : BitVec 64} {held : Nat → Bool} {ls1 : List LsLabel}
    {y1 y2 : LsSys E} {id : Nat} (h1 : ls_run I U ls1 (LsSys.start uid held) = some y1) (h2 : ls_step I U y1 .subscribed = some y2)
    (hid : y2.sub = some id) : LsTurn I U (LsSys.start uid held) y1 y2 ls1 id := by
  obtain ⟨us, ht⟩ := ls_trace S h1
  exact ⟨⟨_, rfl⟩, h1, h2, hid, ls_well h1, ls_caps ht (fun b hb => by cases hb)⟩

theorem sensed_sub {I : WbIcd} {U : UsbCfg WbVal E Unit WbCtx} {y0 y1 y2 : LsSys E} {ls1 ls2 : List LsLabel} (h1 : ls_run I U ls1 y0 = some y1)
    (h2 : ls_step I U y1 .subscribed = some y2) : sensed I U (ls1 ++ .subscribed :: ls2) y0 = sensed I U ls1 y0 ++ sensed I U ls2 y2 := by
  rw [sensed_append h1]
  simp only [sensed, h2, sensedIn, List.nil_append]

/-! ### The sensor -/

/-- What has been measured and not yet published. -/
def unsent (y : LsSys E) : List Acceleration :=
  match y.acc.task, y.send with
  | some t, none =>
    match t.pc with
    | .publishing a => [a]
    | _ => []
  | _, _ => []

/-- A send is under way only where the task waits for it. -/
def SendWell (y : LsSys E) : Prop := y.send.isSome = true → ∃ t, y.acc.task = some t ∧ (t.pc = .replying ∨ ∃ a, t.pc = .publishing a)

theorem unsent_le (y : LsSys E) : (unsent y).length ≤ 1 := by
  unfold unsent
  split
  · split <;> simp
  · simp

theorem measured_cons (l : LsLabel) (ls : List LsLabel) : measured (l :: ls) = measured [l] ++ measured ls := by
  cases l with
  | acc k =>
    cases k with
    | acc_sampled a => cases a <;> rfl
    | _ => rfl
  | _ => rfl

theorem measured_append (ls ks : List LsLabel) : measured (ls ++ ks) = measured ls ++ measured ks := by
  induction ls with
  | nil => rfl
  | cons l ls ih => rw [List.cons_append, measured_cons, ih, measured_cons l ls, List.append_assoc]

theorem served_task {acc acc' : Fw} {ix ix' : Nat} {u u' : UsbSys WbVal E Unit WbCtx} (h : ls_served acc ix u u' = some (acc', ix')) :
    acc'.task = acc.task ∨ (acc.task = none ∧ ∃ t, acc'.task = some t ∧ t.pc = .spawned) := by
  simp only [ls_served] at h
  split at h
  · rename_i t ok _ _
    split at h
    · rename_i hok
      split at h
      · rename_i rqst e1 e2
        cases h
        have hn : acc.task = none := Option.isNone_iff_eq_none.mp hok.symm
        exact .inr ⟨hn, ⟨t.hdr, rqst, 0#8, .spawned⟩, by simp only [start_handler, hn], rfl⟩
      · cases h; exact .inl rfl
    · cases h
  · split at h
    · cases h; exact .inl rfl
    · split at h
      · cases h
        simp only [accelerometer_stop_handler]
        split <;> exact .inl rfl
      · cases h

theorem sensor_step {I : WbIcd} {U : UsbCfg WbVal E Unit WbCtx} {y y' : LsSys E} {l : LsLabel} {us : List (ULabel WbVal)}
    (h : LsMove I U y l y' us) (w : SendWell y) (hs : ls_step I U y l = some y') :
    SendWell y' ∧ unsent y ++ measured [l] = (sensed I U [l] y).map (·.val) ++ unsent y' := by
  have hse : sensed I U [l] y = sensedIn y y' l := by simp only [sensed, hs, List.append_nil]
  rw [hse]
  have keep : ∀ {y' : LsSys E}, y'.acc.task = y.acc.task → y'.send = y.send → SendWell y' ∧ unsent y = unsent y' := by
    intro y' h1 h2
    refine ⟨fun h => ?_, ?_⟩
    · rw [h2] at h
      rw [h1]
      exact w h
    · simp only [unsent, h1, h2]
  cases h with
  | sys k pc u acc ix ha hp hu hv =>
    rcases served_task hv with e | ⟨e1, t, e2, e3⟩
    · obtain ⟨h1, h2⟩ := keep (y' := { y with repl := { y.repl with usb := u, pc := pc }, acc := acc, ix := ix }) e rfl
      exact ⟨h1, by rw [h2]; exact List.append_nil _⟩
    · have hn : y.send = none := by
        cases hs : y.send with
        | none => rfl
        | some s =>
          obtain ⟨t, ht, _⟩ := w (by rw [hs]; rfl)
          rw [e1] at ht
          cases ht
      refine ⟨fun h => ?_, ?_⟩
      · have h : y.send.isSome = true := h
        rw [hn] at h
        cases h
      · simp only [unsent, e1, e2, e3, hn]
        rfl
  | acc k acc hw hf =>
    have hn : ∀ {t : AccTask}, y.acc.task = some t → t.pc ≠ .replying → (∀ a, t.pc ≠ .publishing a) → y.send = none := by
      intro t ht h1 h2
      cases hs : y.send with
      | none => rfl
      | some s =>
        obtain ⟨t', ht', hq⟩ := w (by rw [hs]; rfl)
        rw [ht] at ht'
        cases ht'
        rcases hq with e | ⟨a, e⟩
        · exact absurd e h1
        · exact absurd e (h2 a)
    have idle : ∀ {acc : Fw}, y.send = none → SendWell { y with acc := acc } := by
      intro acc hn h
      have h : y.send.isSome = true := h
      rw [hn] at h
      cases h
    simp only [fw_step] at hf
    split at hf
    · cases hf
    · cases k with
      | acc_run =>
        simp only at hf
        split at hf
        · rename_i t ht
          simp only [acc_step] at hf
          split at hf
          · rename_i hp
            split at hf
            · cases hf
            · cases hf
              have hn := hn ht (by rw [hp]; nofun) (by rw [hp]; nofun)
              refine ⟨idle hn, ?_⟩
              simp only [unsent, ht, hp, hn]
              rfl
          · cases hf
        · cases hf
      | acc_ranged ok =>
        simp only at hf
        split at hf
        · rename_i t ht
          simp only [acc_step] at hf
          split at hf
          · rename_i hp
            have hn := hn ht (by rw [hp]; nofun) (by rw [hp]; nofun)
            split at hf <;> cases hf
            · refine ⟨idle hn, ?_⟩
              simp only [unsent, ht, hp, hn, acc_check]
              split <;> rfl
            · refine ⟨idle hn, ?_⟩
              simp only [unsent, ht, hp, hn, Fw.note]
              rfl
          · cases hf
        · cases hf
      | acc_tick =>
        simp only at hf
        split at hf
        · rename_i t ht
          simp only [acc_step] at hf
          split at hf
          · rename_i hp
            have hn := hn ht (by rw [hp]; nofun) (by rw [hp]; nofun)
            cases hf
            refine ⟨idle hn, ?_⟩
            simp only [unsent, ht, hp, hn]
            rfl
          · cases hf
        · cases hf
      | acc_sampled a =>
        simp only at hf
        split at hf
        · rename_i t ht
          simp only [acc_step] at hf
          split at hf
          · rename_i a hp
            have hn := hn ht (by rw [hp]; nofun) (by rw [hp]; nofun)
            cases hf
            refine ⟨idle hn, ?_⟩
            simp only [unsent, ht, hp, hn]
            rfl
          · rename_i hp
            have hn := hn ht (by rw [hp]; nofun) (by rw [hp]; nofun)
            cases hf
            refine ⟨idle hn, ?_⟩
            simp only [unsent, ht, hp, hn, Fw.note]
            rfl
          · cases hf
        · cases hf
      | _ => cases hw
  | reply t u s hh ht hp hn hu =>
    refine ⟨fun _ => ⟨t, ht, .inl hp⟩, ?_⟩
    simp only [unsent, ht, hp, hn]
    rfl
  | publish t a u s hh ht hp hn hu hok =>
    refine ⟨fun _ => ⟨t, ht, .inr ⟨a, hp⟩⟩, ?_⟩
    simp only [unsent, ht, hp, hn, sensedIn]
    rfl
  | sent t s acc k ht hs' hk hf =>
    refine ⟨fun h => (by cases h), ?_⟩
    simp only [fw_step] at hf
    split at hf
    · cases hf
    · rcases hk with ⟨hp, rfl⟩ | ⟨a, hp, rfl⟩
      · simp only [ht, acc_step, hp, Fw.note] at hf
        split at hf <;>
        · cases hf
          simp only [unsent, ht, hs', sensedIn]
          rfl
      · simp only [ht, acc_step, hp, Fw.note, acc_check, acc_end] at hf
        split at hf
        · split at hf <;>
          · cases hf
            simp only [unsent, ht, hs', sensedIn]
            rfl
        · cases hf
          simp only [unsent, ht, hs', sensedIn]
          rfl
  | _ =>
    refine ⟨(keep rfl rfl).1, ?_⟩
    exact (List.append_nil _).trans (keep rfl rfl).2

theorem sensor_run {I : WbIcd} {U : UsbCfg WbVal E Unit WbCtx} {id : BitVec 64} {held : Nat → Bool} {ls : List LsLabel} {y : LsSys E}
    (h : ls_run I U ls (LsSys.start id held) = some y) :
    SendWell y ∧ measured ls = (sensed I U ls (LsSys.start id held)).map (·.val) ++ unsent y := by
  refine ls_induct (P := fun ls y => SendWell y ∧ measured ls = (sensed I U ls (LsSys.start id held)).map (·.val) ++ unsent y)
    ⟨fun h => (by cases h), rfl⟩ ?_ h
  rintro ls y l y' hr ⟨w, e⟩ hs
  obtain ⟨vs, hm⟩ := ls_moves hs
  obtain ⟨w', e'⟩ := sensor_step hm w hs
  refine ⟨w', ?_⟩
  rw [measured_append, e, sensed_append hr, List.map_append, List.append_assoc, List.append_assoc, e']

end PRpc
