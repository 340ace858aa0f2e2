import Verif.Lemmas.Listen
/-! Helper lemmas for C101: runs of `accel listen`. -/

namespace PRpc

open Spec Props

variable {E : Type}

/-! ### Runs -/

theorem ls_run_cons {I : WbIcd} {U : UsbCfg WbVal E Unit WbCtx} {l : LsLabel} {ls : List LsLabel} {y y' : LsSys E}
    (h : ls_run I U (l :: ls) y = some y') : ∃ y1, ls_step I U y l = some y1 ∧ ls_run I U ls y1 = some y' := by
  simp only [ls_run] at h
  split at h
  · rename_i y1 hs
    exact ⟨y1, hs, h⟩
  · cases h

theorem ls_run_append {I : WbIcd} {U : UsbCfg WbVal E Unit WbCtx} {ls2 : List LsLabel} : ∀ {ls1 : List LsLabel}
    {y y1 y2 : LsSys E}, ls_run I U ls1 y = some y1 → ls_run I U ls2 y1 = some y2 → ls_run I U (ls1 ++ ls2) y = some y2 := by
  intro ls1
  induction ls1 with
  | nil => intro y y1 y2 h h'; cases h; exact h'
  | cons l ls ih =>
    intro y y1 y2 h h'
    obtain ⟨z, hs, hr⟩ := ls_run_cons h
    simp only [List.cons_append, ls_run, hs]
    exact ih hr h'

theorem ls_run_one {I : WbIcd} {U : UsbCfg WbVal E Unit WbCtx} {l : LsLabel} {y y' : LsSys E} (h : ls_step I U y l = some y') :
    ls_run I U [l] y = some y' := by simp only [ls_run, h]

/-- Induction on runs, at their end. -/
theorem ls_induct {I : WbIcd} {U : UsbCfg WbVal E Unit WbCtx} {y0 : LsSys E} {P : List LsLabel → LsSys E → Prop} (h0 : P [] y0)
    (hs : ∀ ls y l y', ls_run I U ls y0 = some y → P ls y → ls_step I U y l = some y' → P (ls ++ [l]) y') {ls : List LsLabel} {y : LsSys E}
    (h : ls_run I U ls y0 = some y) : P ls y := by
  have aux : ∀ (ls2 ls1 : List LsLabel) (y1 y : LsSys E), ls_run I U ls1 y0 = some y1 → P ls1 y1 → ls_run I U ls2 y1 = some y → P (ls1 ++ ls2) y := by
    intro ls2
    induction ls2 with
    | nil => intro ls1 y1 y _ hp h; cases h; rw [List.append_nil]; exact hp
    | cons l ls ih =>
      intro ls1 y1 y hr hp h
      obtain ⟨z, h1, h2⟩ := ls_run_cons h
      have := ih (ls1 ++ [l]) z y (ls_run_append hr (ls_run_one h1)) (hs ls1 y1 l z hr hp h1) h2
      rw [List.append_assoc] at this
      exact this
  exact aux ls [] y0 y rfl h0 h

theorem sensed_append {I : WbIcd} {U : UsbCfg WbVal E Unit WbCtx} {ls2 : List LsLabel} : ∀ {ls1 : List LsLabel} {y y1 : LsSys E},
    ls_run I U ls1 y = some y1 → sensed I U (ls1 ++ ls2) y = sensed I U ls1 y ++ sensed I U ls2 y1 := by
  intro ls1
  induction ls1 with
  | nil => intro y y1 h; cases h; rfl
  | cons l ls ih =>
    intro y y1 h
    obtain ⟨z, hs, hr⟩ := ls_run_cons h
    simp only [List.cons_append, sensed, hs, ih hr, List.append_assoc]

/-- A run as steps of the client, the cable and the server. -/
structure LsTrace (I : WbIcd) (U : UsbCfg WbVal E Unit WbCtx) (y y' : LsSys E) (ls : List LsLabel) (us : List (ULabel WbVal)) : Prop where
  run : u_run U us y.repl.usb = some y'.repl.usb
  uses : ∀ l ∈ us, WbUses I l ∧ WbListens I l
  depth : ∀ d, .client (.sub_multi I.accel.key d) ∈ us → d = 8
  pubs : (usbPublications U I.accel.key us y.repl.usb).map (fun p => (p.msg, p.ok)) = (sensed I U ls y).map fun s => (.accel s.val, s.ok)

theorem LsTrace.nil (I : WbIcd) (U : UsbCfg WbVal E Unit WbCtx) (y : LsSys E) : LsTrace I U y y [] [] := ⟨rfl, nofun, nofun, rfl⟩

theorem LsTrace.trans {I : WbIcd} {U : UsbCfg WbVal E Unit WbCtx} {y y1 y2 : LsSys E} {ls ks : List LsLabel} {us vs : List (ULabel WbVal)}
    (hr : ls_run I U ls y = some y1) (h1 : LsTrace I U y y1 ls us) (h2 : LsTrace I U y1 y2 ks vs) : LsTrace I U y y2 (ls ++ ks) (us ++ vs) where
  run := u_run_append h1.run h2.run
  uses := fun l hl => (List.mem_append.mp hl).elim (h1.uses l) (h2.uses l)
  depth := fun l hl => (List.mem_append.mp hl).elim (h1.depth l) (h2.depth l)
  pubs := by rw [usbPublications_append h1.run, sensed_append hr, List.map_append, List.map_append, h1.pubs, h2.pubs]

theorem accel_ne_schemas {I : WbIcd} {n : Nat} (ha : WbApart I n) : I.accel.key ≠ I.std.schema_topic := by
  intro e
  exact ha.answers 11 9 (by simp) (by simp) (by decide) (by show short n I.accel.key = short n I.std.schema_topic; rw [e])

theorem WbSetup.ctx {I : WbIcd} {U : UsbCfg WbVal E Unit WbCtx} (h : WbSetup I U) : TopicCtx (wb_full E I) U.S I.accel.key where
  disp := wb_dispatches h.disp h.apart
  decl := wb_declared E I _
  apart := wb_keysApart (by rw [h.kkind]; exact h.apart)
  topic := ⟨⟨_, List.mem_cons_of_mem _ (List.mem_cons_of_mem _ (List.mem_cons_self ..)), rfl⟩, accel_ne_schemas h.apart, fun t ht => by cases ht⟩
  err := (wb_error_apart (E := E) (by rw [h.kkind]; exact h.apart)).2 _ (List.mem_cons_of_mem _ (List.mem_cons_of_mem _ (List.mem_cons_self ..)))

theorem listens_declared {I : WbIcd} {k : Label} (h : WbListens I (.client k)) : ToDeclared (wb_full E I) k := by
  have aux : ∀ key, key ∈ [I.std.schema_topic, I.std.logging_topic, I.accel.key] → ∃ t ∈ (wb_full E I).topic_out_list.topics, t.key = key := by
    intro key hk
    rcases List.mem_cons.mp hk with rfl | hk
    · exact ⟨_, List.mem_cons_self .., rfl⟩
    · rcases List.mem_cons.mp hk with rfl | hk
      · exact ⟨_, List.mem_cons_of_mem _ (List.mem_cons_self ..), rfl⟩
      · rcases List.mem_cons.mp hk with rfl | hk
        · exact ⟨_, List.mem_cons_of_mem _ (List.mem_cons_of_mem _ (List.mem_cons_self ..)), rfl⟩
        · cases hk
  cases k with
  | sub_excl key _ => exact aux key h
  | sub_repl key _ => exact aux key h
  | sub_multi key _ => exact aux key h
  | _ => trivial

theorem mem_usbClientSteps {V : Type} {k : Label} : ∀ {us : List (ULabel V)}, k ∈ usbClientSteps us → .client k ∈ us := by
  intro us
  induction us with
  | nil => intro h; cases h
  | cons u us ih =>
    cases u with
    | client l =>
      intro h
      rcases List.mem_cons.mp h with rfl | h
      · exact List.mem_cons_self ..
      · exact List.mem_cons_of_mem _ (ih h)
    | _ => intro h; exact List.mem_cons_of_mem _ (ih h)

theorem LsTrace.used {I : WbIcd} {U : UsbCfg WbVal E Unit WbCtx} {y y' : LsSys E} {ls : List LsLabel} {us : List (ULabel WbVal)}
    (h : LsTrace I U y y' ls us) : ∀ l ∈ us, UsbUsed (wb_full E I) l := fun l hl => wb_used (h.uses l hl).1

theorem LsTrace.decl {I : WbIcd} {U : UsbCfg WbVal E Unit WbCtx} {y y' : LsSys E} {ls : List LsLabel} {us : List (ULabel WbVal)}
    (h : LsTrace I U y y' ls us) : ∀ k ∈ usbClientSteps us, ToDeclared (wb_full E I) k :=
  fun _ hk => listens_declared (h.uses _ (mem_usbClientSteps hk)).2

theorem ls_move_trace {I : WbIcd} {U : UsbCfg WbVal E Unit WbCtx} (S : WbSetup I U) {y y' : LsSys E} {l : LsLabel} {us : List (ULabel WbVal)}
    (hs : ls_step I U y l = some y') (h : LsMove I U y l y' us) : LsTrace I U y y' [l] us := by
  have one : ∀ {k : ULabel WbVal} {u : UsbSys WbVal E Unit WbCtx}, u_step U y.repl.usb k = some u → u_run U [k] y.repl.usb = some u := by
    intro k u h; simp only [u_run, h]
  have nopub : ∀ {k : ULabel WbVal}, (∀ key seq v, k ≠ .app_publish key seq v) → usbPublications U I.accel.key [k] y.repl.usb = [] := by
    intro k hk
    cases k with
    | app_publish key seq v => exact absurd rfl (hk key seq v)
    | _ => simp only [usbPublications]; split <;> rfl
  have nosense : l ≠ .publish → sensed I U [l] y = [] := by
    intro hl
    simp only [sensed, hs, List.append_nil]
    cases l with
    | publish => exact absurd rfl hl
    | _ => rfl
  have none : us = [] → l ≠ .publish → y'.repl.usb = y.repl.usb → LsTrace I U y y' [l] us := by
    intro e hl hu
    subst e
    exact ⟨congrArg some hu.symm, nofun, nofun, by rw [nosense hl]; rfl⟩
  have single : ∀ {k : ULabel WbVal}, us = [k] → u_step U y.repl.usb k = some y'.repl.usb → WbUses I k → WbListens I k →
      (∀ d, k = .client (.sub_multi I.accel.key d) → d = 8) → (∀ key seq v, k ≠ .app_publish key seq v) → l ≠ .publish →
      LsTrace I U y y' [l] us := by
    intro k e hu h1 h2 h3 h4 hl
    subst e
    refine ⟨one hu, fun j hj => ?_, fun d hd => h3 d (List.mem_singleton.mp hd).symm, by rw [nosense hl, nopub h4]; rfl⟩
    rw [List.mem_singleton.mp hj]
    exact ⟨h1, h2⟩
  cases h with
  | sys k pc u acc ix ha hp hu hv =>
    have hk : (∀ d, k = .client (.sub_multi I.accel.key d) → d = 8) := by
      rintro d rfl
      simp only [ls_allows, decide_eq_true_eq] at ha
      exact absurd ha (accel_ne_schemas S.apart)
    have hn : ∀ key seq v, k ≠ .app_publish key seq v := by
      rintro key seq v rfl
      cases ha
    rcases allows_cases hp with ⟨m, kk, e1, e2, e3⟩ | ⟨e1, e2, e3, _⟩
    · exact single rfl hu (by rw [e2]; exact ⟨m, rfl, rfl, rfl⟩) (by rw [e2]; trivial) hk hn nofun
    · exact single rfl hu e2 e3 hk hn nofun
  | line l hp => exact none rfl nofun rfl
  | returned m c k cl r hp hc hr hn => exact none rfl nofun rfl
  | stopped m c cl r id u hp hc hr hq hi hu => exact single rfl hu trivial trivial nofun nofun nofun
  | sub_ok ms range dur u id hp hu hid =>
    exact single rfl hu trivial (by simp [WbListens]) (fun d e => by cases e; rfl) nofun nofun
  | sub_fail ms range dur u hp hu =>
    exact single rfl hu trivial (by simp [WbListens]) (fun d e => by cases e; rfl) nofun nofun
  | report_sub ok hp => exact none rfl nofun rfl
  | clock n dur pc hp hq => exact none rfl nofun rfl
  | got dur id u f a hp hi hu hf ha => exact single rfl hu trivial trivial nofun nofun nofun
  | skip dur id u f hp hi hu hf ha => exact single rfl hu trivial trivial nofun nofun nofun
  | lost dur id u r hp hi hu hf ha => exact single rfl hu trivial trivial nofun nofun nofun
  | reported r pc ps hp hq hn => exact none rfl nofun rfl
  | acc l acc hw hf => exact none rfl nofun rfl
  | reply t u s hh ht hp hn hu => exact single rfl hu trivial trivial nofun nofun nofun
  | publish t a u s hh ht hp hn hu hok =>
    refine ⟨one hu, ?_, ?_, ?_⟩
    · intro j hj
      rw [List.mem_singleton.mp hj]
      exact ⟨⟨rfl, a, rfl⟩, trivial⟩
    · intro d hd
      cases List.mem_singleton.mp hd
    · simp only [usbPublications, if_true, hu, sensed, hs, sensedIn, ht, hp, List.map_cons, List.map_nil, List.append_nil, hok]
  | sent t s acc l ht hs' hl hf => exact none rfl nofun rfl

theorem ls_trace {I : WbIcd} {U : UsbCfg WbVal E Unit WbCtx} (S : WbSetup I U) {y0 y : LsSys E} {ls : List LsLabel}
    (h : ls_run I U ls y0 = some y) : ∃ us, LsTrace I U y0 y ls us := by
  refine ls_induct (P := fun ls y => ∃ us, LsTrace I U y0 y ls us) ⟨[], LsTrace.nil I U y0⟩ ?_ h
  rintro ls y l y' hr ⟨us, ht⟩ hs
  obtain ⟨vs, hm⟩ := ls_moves hs
  exact ⟨us ++ vs, LsTrace.trans hr ht (ls_move_trace S hs hm)⟩

/-! ### Where the program is -/

/-- `accel listen` holds its subscription. -/
def ReplCont.listens : ReplCont → Bool
  | .listen _ => true
  | .listened => true
  | _ => false

/-- As above. -/
def ReplPc.listens : ReplPc → Bool
  | .calling _ k => k.listens
  | .waiting _ _ k => k.listens
  | .listening _ => true
  | .receiving _ => true
  | _ => false

theorem again_pc (ps : List Printed) : (again ps).2.listens = false ∧ ((∀ a, Printed.acc a ∉ ps) → ∀ a, Printed.acc a ∉ (again ps).1) :=
  ⟨rfl, fun h a ha => by
    rcases List.mem_append.mp ha with ha | ha
    · exact h a ha
    · cases List.mem_singleton.mp ha⟩

theorem line_pc (line : List Char) : (repl_line line).2.listens = false ∧ ∀ a, Printed.acc a ∉ (repl_line line).1 := by
  unfold repl_line
  repeat' split
  all_goals try unfold arm_ping
  all_goals try unfold arm_rgball
  all_goals try unfold arm_start
  all_goals try unfold arm_rgb
  all_goals try unfold arm_listen
  all_goals (repeat' split)
  all_goals first
    | exact ⟨rfl, (again_pc _).2 (by simp)⟩
    | exact ⟨rfl, fun a h => by cases h⟩

theorem returned_pc (k : ReplCont) (o : WbOut) : (∀ a, Printed.acc a ∉ (repl_returned k o).1) ∧ (∀ ms r d, (repl_returned k o).2 ≠ .subscribing ms r d) ∧
    ((repl_returned k o).2 = .panicked ∨ (∃ dur, k = .listen dur ∧ (repl_returned k o).2 = .listening dur) ∨
      (k = .listened ∧ (repl_returned k o).2 = .reading) ∨ (k.listens = false ∧ (repl_returned k o).2.listens = false)) := by
  have pan : ∀ P : Prop, P → (∀ a, Printed.acc a ∉ ([] : List Printed)) ∧ P := fun _ h => ⟨(by simp), h⟩
  have pr : ∀ (p : Printed) (P : Prop), (∀ a, Printed.acc a ≠ p) → P → (∀ a, Printed.acc a ∉ [p]) ∧ P :=
    fun p _ h1 h2 => ⟨fun a h => h1 a (List.mem_singleton.mp h), h2⟩
  have ag : ∀ (ps : List Printed) (P : Prop), (∀ a, Printed.acc a ∉ ps) → P → (∀ a, Printed.acc a ∉ (again ps).1) ∧ P :=
    fun ps _ h1 h2 => ⟨(again_pc ps).2 h1, h2⟩
  cases k with
  | hello => cases o with
    | num n => exact pr (.got n) _ nofun ⟨nofun, .inr (.inr (.inr ⟨rfl, rfl⟩))⟩
    | _ => exact pan _ ⟨nofun, .inl rfl⟩
  | uid => cases o with
    | id n => exact ag _ _ (by simp) ⟨nofun, .inr (.inr (.inr ⟨rfl, rfl⟩))⟩
    | _ => exact pan _ ⟨nofun, .inl rfl⟩
  | pinged => cases o with
    | num n => exact ag _ _ (by simp) ⟨nofun, .inr (.inr (.inr ⟨rfl, rfl⟩))⟩
    | _ => exact pan _ ⟨nofun, .inl rfl⟩
  | colour => cases o with
    | unit => exact ag _ _ (by simp) ⟨nofun, .inr (.inr (.inr ⟨rfl, rfl⟩))⟩
    | _ => exact pan _ ⟨nofun, .inl rfl⟩
  | listen dur => cases o with
    | unit => exact pr .started _ nofun ⟨nofun, .inr (.inl ⟨dur, rfl, rfl⟩)⟩
    | _ => exact pan _ ⟨nofun, .inl rfl⟩
  | listened => cases o with
    | busy b => exact ag _ _ (by simp) ⟨nofun, .inr (.inr (.inl ⟨rfl, rfl⟩))⟩
    | _ => exact pan _ ⟨nofun, .inl rfl⟩
  | started => cases o with
    | unit => exact ag _ _ (by simp) ⟨nofun, .inr (.inr (.inr ⟨rfl, rfl⟩))⟩
    | _ => exact pan _ ⟨nofun, .inl rfl⟩
  | stopped => cases o with
    | busy b => exact ag _ _ (by simp) ⟨nofun, .inr (.inr (.inr ⟨rfl, rfl⟩))⟩
    | _ => exact pan _ ⟨nofun, .inl rfl⟩
  | schema => cases o with
    | report r => exact pan _ ⟨nofun, .inr (.inr (.inr ⟨rfl, rfl⟩))⟩
    | _ => exact pan _ ⟨nofun, .inl rfl⟩

theorem latest_printed {ps : List Printed} (h : ∀ a, Printed.acc a ∉ ps) (term : List Term) : latest (term ++ ps.map .printed) = latest term := by
  rw [latest, List.foldl_append]
  show List.foldl _ (latest term) _ = _
  generalize latest term = x
  induction ps with
  | nil => rfl
  | cons p ps ih =>
    simp only [List.map_cons, List.foldl_cons]
    cases p with
    | acc a => exact absurd (List.mem_cons_self ..) (h a)
    | _ => exact ih (fun a ha => h a (List.mem_cons_of_mem _ ha))

theorem latest_typed {ps : List Printed} (h : ∀ a, Printed.acc a ∉ ps) (term : List Term) (l : List Char) :
    latest (term ++ .typed l :: ps.map .printed) = [] := by
  have := latest_printed h (term ++ [.typed l])
  rw [List.append_assoc] at this
  refine this.trans ?_
  rw [latest, List.foldl_append]
  rfl

theorem latest_acc (term : List Term) (a : Acceleration) : latest (term ++ [.printed (.acc a)]) = latest term ++ [a] := by
  rw [latest, List.foldl_append]
  rfl

/-- What is known of the program at any time. -/
structure LsWell (y : LsSys E) : Prop where
  sub : y.repl.pc ≠ .panicked → y.sub.isSome = y.repl.pc.listens
  none : ∀ ms r d, y.repl.pc = .subscribing ms r d → latest y.repl.term = []

theorem ls_well_start (id : BitVec 64) (held : Nat → Bool) : LsWell (LsSys.start (E := E) id held) := ⟨fun _ => rfl, fun _ _ _ _ => rfl⟩

theorem ls_well_step {I : WbIcd} {U : UsbCfg WbVal E Unit WbCtx} {y y' : LsSys E} {l : LsLabel} {us : List (ULabel WbVal)}
    (h : LsMove I U y l y' us) (w : LsWell y) : LsWell y' := by
  cases h with
  | sys k pc u acc ix ha hp hu hv =>
    rcases allows_cases hp with ⟨m, kk, e1, e2, e3⟩ | ⟨e1, _⟩
    · subst e3
      refine ⟨fun _ => ?_, fun ms r d e => by cases e⟩
      have := w.sub (by rw [e1]; nofun)
      rw [e1] at this
      exact this
    · subst e1
      exact ⟨w.sub, w.none⟩
  | line l hp =>
    have hs := w.sub (by rw [hp]; nofun)
    rw [hp] at hs
    refine ⟨fun _ => ?_, fun ms r d e => latest_typed (line_pc l).2 _ _⟩
    exact hs.trans (line_pc l).1.symm
  | returned m c k cl r hp hc hr hn =>
    obtain ⟨_, h2, h3⟩ := returned_pc k (wb_result m r)
    have hs := w.sub (by rw [hp]; nofun)
    rw [hp] at hs
    refine ⟨fun hq => ?_, fun ms r d e => absurd e (h2 ms r d)⟩
    rcases h3 with h3 | ⟨dur, h3, h4⟩ | ⟨h3, h4⟩ | ⟨h3, h4⟩
    · exact absurd h3 hq
    · subst h3
      exact hs.trans (by show _ = ReplPc.listens (repl_returned _ _).2; rw [h4]; rfl)
    · subst h3
      obtain ⟨i, hi⟩ := Option.isSome_iff_exists.mp hs
      exact absurd h4 (hn i hi rfl)
    · exact hs.trans (h3.trans h4.symm)
  | stopped m c cl r id u hp hc hr hq hi hu => exact ⟨fun _ => rfl, fun ms r d e => by cases e⟩
  | sub_ok ms range dur u id hp hu hid => exact ⟨fun _ => rfl, fun ms r d e => by cases e⟩
  | sub_fail ms range dur u hp hu => exact ⟨fun h => absurd rfl h, fun ms r d e => by cases e⟩
  | report_sub ok hp =>
    have hs := w.sub (by rw [hp]; nofun)
    rw [hp] at hs
    cases ok with
    | true => exact ⟨fun _ => hs, fun ms r d e => by cases e⟩
    | false => exact ⟨fun h => absurd rfl h, fun ms r d e => by cases e⟩
  | clock n dur pc hp hq =>
    have hs := w.sub (by rw [hp]; nofun)
    rw [hp] at hs
    rcases hq with rfl | rfl <;> exact ⟨fun _ => hs, fun ms r d e => by cases e⟩
  | got dur id u f a hp hi hu hf ha =>
    have hs := w.sub (by rw [hp]; nofun)
    rw [hp] at hs
    exact ⟨fun _ => hs, fun ms r d e => by cases e⟩
  | skip dur id u f hp hi hu hf ha => exact ⟨w.sub, w.none⟩
  | lost dur id u r hp hi hu hf ha => exact ⟨fun h => absurd rfl h, fun ms r d e => by cases e⟩
  | reported r pc ps hp hq hn =>
    have hs := w.sub (by rw [hp]; nofun)
    rw [hp] at hs
    rcases hq with rfl | rfl
    · exact ⟨fun _ => hs, fun ms r d e => by cases e⟩
    · exact ⟨fun h => absurd rfl h, fun ms r d e => by cases e⟩
  | acc l acc hw hf => exact ⟨w.sub, w.none⟩
  | reply t u s hh ht hp hn hu => exact ⟨w.sub, w.none⟩
  | publish t a u s hh ht hp hn hu hok => exact ⟨w.sub, w.none⟩
  | sent t s acc l ht hs' hl hf => exact ⟨w.sub, w.none⟩

theorem ls_well {I : WbIcd} {U : UsbCfg WbVal E Unit WbCtx} {id : BitVec 64} {held : Nat → Bool} {ls : List LsLabel} {y : LsSys E}
    (h : ls_run I U ls (LsSys.start id held) = some y) : LsWell y := by
  refine ls_induct (P := fun _ y => LsWell y) (ls_well_start id held) ?_ h
  intro ls y l y' _ w hs
  obtain ⟨vs, hm⟩ := ls_moves hs
  exact ls_well_step hm w

theorem ls_caps {I : WbIcd} {U : UsbCfg WbVal E Unit WbCtx} {y0 y : LsSys E} {ls : List LsLabel} {us : List (ULabel WbVal)}
    (h : LsTrace I U y0 y ls us) (h0 : CapOf I.accel.key 8 y0.repl.usb.sys.client.subs) : CapOf I.accel.key 8 y.repl.usb.sys.client.subs := by
  have aux : ∀ (us : List (ULabel WbVal)) (u u' : UsbSys WbVal E Unit WbCtx), u_run U us u = some u' →
      (∀ d, .client (.sub_multi I.accel.key d) ∈ us → d = 8) → CapOf I.accel.key 8 u.sys.client.subs → CapOf I.accel.key 8 u'.sys.client.subs := by
    intro us
    induction us with
    | nil => intro u u' h _ hc; cases h; exact hc
    | cons k us ih =>
      intro u u' h hd hc
      simp only [u_run] at h
      split at h
      · rename_i u1 h1
        refine ih u1 u' h (fun d hm => hd d (List.mem_cons_of_mem _ hm)) ?_
        rcases u_step_client h1 with ⟨k', rfl, hk⟩ | ⟨_, e⟩
        · refine capOf_step hk (fun d e => ?_) hc
          have := hd d (by rw [e]; exact List.mem_cons_self ..)
          subst this
          rfl
        · rw [e]; exact hc
      · cases h
  exact aux us _ _ h.run h.depth h0

end PRpc
