import Verif.Lemmas.ReplText
import Verif.Props.Workbook
/-! Helper lemmas for C93: one call at a time. -/

namespace PRpc
open Spec

variable {E : Type}

/-! ### What steps do to the calls -/

theorem core_done {cfg : Cfg} {a b : Core} (hs : CoreStep cfg a b) {c : Nat} {cl : Call} {r : CallRes} (hc : a.calls[c]? = some cl)
    (hp : cl.phase = .done r) : b.calls[c]? = some cl := by
  have rep : ∀ {cs : List Call} {c' : Nat} {cl' x : Call}, cs[c]? = some cl → cs[c']? = some cl' → (∀ r, cl'.phase ≠ .done r) →
      (cs.set c' x)[c]? = some cl := by
    intro cs c' cl' x e1 e2 e3
    by_cases e : c = c'
    · subst e
      have := Option.some.inj (e2.symm.trans e1)
      subst this
      exact absurd hp (e3 r)
    · exact ((set_get e2 _ _).trans (if_neg e)).trans e1
  cases hs with
  | skip => exact hc
  | add m' w cs sn cl' hb => exact append_get hc _
  | kind m' w cs sn c' cl' k' hc' hq => exact rep hc hc' fun _ e => by rw [hq] at e; cases e
  | regOk m' w cs sn c' cl' k' hc' hq hd => exact rep hc hc' fun _ e => by rw [hq] at e; cases e
  | dupOk m' w cs sn c' cl' k' hc' hq hd => exact rep hc hc' fun _ e => by rw [hq] at e; cases e
  | regErr m' w cs sn c' cl' k' hc' hq hd => exact rep hc hc' fun _ e => by rw [hq] at e; cases e
  | sent m' w cs sn c' cl' k' hc' hq => exact rep hc hc' fun _ e => by rw [hq] at e; cases e
  | finish m' w cs sn c' cl' p hc' hq hr => exact rep hc hc' hq
  | take m' w cs sn c' cl' k' err v hc' hq hv hid => exact rep hc hc' fun _ e => by rw [hq] at e; cases e
  | wake => exact hc
  | nowake => exact hc

/-- What a step of the system does to the client. -/
theorem u_step_client {V SC Ctx : Type} {U : UsbCfg V E SC Ctx} {u u' : UsbSys V E SC Ctx} {l : ULabel V} (h : u_step U u l = some u') :
    (∃ l', l = .client l' ∧ step U.S.cfg u.sys.client l' = some u'.sys.client) ∨
    ((∀ l', l ≠ .client l') ∧ u'.sys.client = u.sys.client) := by
  have beg : ∀ {s : Sys V E SC Ctx} {o : Out V}, s.client = u.sys.client → u_begin U u s o = some u' → u'.sys.client = u.sys.client := by
    intro s o e h
    unfold u_begin at h
    split at h
    · cases h
    · split at h
      · cases h
      · cases h
        exact e
  have snd : ∀ {src : Src} {r : Option E × St V E SC Ctx} {f : Frame V}, u_send U u src r f = some u' → u'.sys.client = u.sys.client := by
    intro src r f h
    unfold u_send at h
    split at h
    · exact beg (s := { u.sys with srv := r.2 }) rfl h
    · exact beg (s := { u.sys with srv := r.2 }) rfl h
  have got : ∀ (v : UsbSys V E SC Ctx) (p : Bytes), (host_get v p).sys.client = v.sys.client := by
    intro v p
    unfold host_get
    split <;> rfl
  cases l with
  | client l =>
    refine .inl ⟨l, rfl, ?_⟩
    obtain ⟨s, hs, hu⟩ := u_client_cases h
    obtain ⟨c, hc, hcl⟩ := client_step_cases hs
    have hsys : u'.sys = s := by rcases hu with ⟨_, rfl⟩ | ⟨_, _, rfl⟩ <;> rfl
    rw [hsys, hc]
    rcases hcl with ⟨_, _, _, _, rfl⟩ | ⟨_, rfl⟩ <;> rfl
  | host_packet =>
    refine .inr ⟨fun _ => nofun, ?_⟩
    simp only [u_step, u_host_packet] at h
    repeat' split at h
    all_goals first
      | (cases h; done)
      | (cases h; rfl)
  | dev_read =>
    refine .inr ⟨fun _ => nofun, ?_⟩
    simp only [u_step, u_read] at h
    split at h
    · split at h
      · cases h
      · split at h
        · cases h; rfl
        · split at h
          · rename_i hs
            obtain ⟨_, _, rfl, _⟩ := serve_message_some hs
            cases h
            rfl
          · cases h
        · cases h; rfl
    · cases h
  | flush =>
    refine .inr ⟨fun _ => nofun, ?_⟩
    simp only [u_step] at h
    split at h
    · cases h
    · rename_i rest _
      exact beg (s := { u.sys with pending := rest }) rfl h
  | task_reply i v =>
    refine .inr ⟨fun _ => nofun, ?_⟩
    simp only [u_step, u_task_reply] at h
    repeat' split at h
    all_goals first
      | (cases h; done)
      | exact snd h
  | app_publish key seq v => exact .inr ⟨fun _ => nofun, snd h⟩
  | dev_write o =>
    refine .inr ⟨fun _ => nofun, ?_⟩
    simp only [u_step, u_write, u_wrote] at h
    repeat' split at h
    all_goals first
      | (cases h; done)
      | (cases h; exact got u _)
      | (cases h; split <;> exact got u _)
      | (cases h; rfl)
  | refuse =>
    refine .inr ⟨fun _ => nofun, ?_⟩
    simp only [u_step, u_refuse] at h
    repeat' split at h
    all_goals first
      | (cases h; done)
      | (cases h; rfl)

theorem u_step_done {V SC Ctx : Type} {U : UsbCfg V E SC Ctx} {u u' : UsbSys V E SC Ctx} {l : ULabel V} (h : u_step U u l = some u')
    {c : Nat} {cl : Call} {r : CallRes} (hc : u.sys.client.calls[c]? = some cl) (hp : cl.phase = .done r) :
    u'.sys.client.calls[c]? = some cl := by
  rcases u_step_client h with ⟨l', rfl, hs⟩ | ⟨_, e⟩
  · exact core_done (step_core hs) hc hp
  · rw [e]; exact hc

/-- Only the beginning of a call makes one. -/
theorem u_step_same {V SC Ctx : Type} {U : UsbCfg V E SC Ctx} {u u' : UsbSys V E SC Ctx} {l : ULabel V} (h : u_step U u l = some u')
    (h1 : ∀ req resp body, l ≠ .client (.call_begin req resp body)) (h2 : ∀ rqst resp, l ≠ .client (.call_begin_raw rqst resp)) :
    u'.sys.client.calls.map Call.sig = u.sys.client.calls.map Call.sig := by
  rcases u_step_client h with ⟨l', rfl, hs⟩ | ⟨_, e⟩
  · rcases coreStep_sig (step_core hs) with e | ⟨x, e, _⟩
    · exact e
    · exfalso
      have e : u'.sys.client.calls = u.sys.client.calls ++ [x] := e
      have hl := congrArg List.length e
      simp only [List.length_append, List.length_singleton] at hl
      obtain ⟨cl, hc⟩ : ∃ cl, u'.sys.client.calls[u.sys.client.calls.length]? = some cl := ⟨_, List.getElem?_eq_getElem (by omega)⟩
      rcases step_sig hs hc with ⟨cl0, h0, _⟩ | ⟨req, resp, body, rfl, _⟩ | ⟨rqst, resp, rfl, _⟩
      · have := getElem?_lt h0; omega
      · exact h1 _ _ _ rfl
      · exact h2 _ _ rfl
  · rw [e]

theorem u_step_begin {V SC Ctx : Type} {U : UsbCfg V E SC Ctx} {u u' : UsbSys V E SC Ctx} {req resp : Key} {body : Bytes}
    (h : u_step U u (.client (.call_begin req resp body)) = some u') :
    ∃ cl, u'.sys.client.calls = u.sys.client.calls ++ [cl] ∧ cl.rqst.header.key = .Key8 req ∧ cl.resp_key = resp ∧ cl.rqst.body = body := by
  rcases u_step_client h with ⟨l', e, hs⟩ | ⟨hn, _⟩
  · cases e
    simp only [step] at hs
    split at hs
    · have hs := Option.some.inj hs
      rw [← hs]
      exact ⟨_, rfl, rfl, rfl, rfl⟩
    · cases hs
  · exact absurd rfl (hn _)

theorem made_same {I : WbIcd} {s s' : Sys WbVal E Unit WbCtx} {ms : List WbMethod} (h : Made I s ms)
    (e : s'.client.calls.map Call.sig = s.client.calls.map Call.sig) : Made I s' ms := by
  have hl := congrArg List.length e
  simp only [List.length_map] at hl
  refine ⟨by rw [h.len, hl], fun c cl m hc hm => ?_⟩
  have h1 : (s'.client.calls.map Call.sig)[c]? = some cl.sig := by rw [List.getElem?_map, hc]; rfl
  rw [e, List.getElem?_map, Option.map_eq_some_iff] at h1
  obtain ⟨cl0, a, b⟩ := h1
  obtain ⟨k1, k2, k3⟩ := h.call c cl0 m a hm
  simp only [Call.sig, Prod.mk.injEq] at b
  rw [← b.1, ← b.2.1]
  exact ⟨k1, k2, k3⟩

theorem made_more {I : WbIcd} {s s' : Sys WbVal E Unit WbCtx} {ms : List WbMethod} (h : Made I s ms) {cl : Call} {m : WbMethod}
    (e : s'.client.calls = s.client.calls ++ [cl]) (h1 : cl.rqst.header.key = .Key8 (m.req I)) (h2 : cl.resp_key = m.resp I)
    (h3 : cl.rqst.body = m.body) : Made I s' (ms ++ [m]) := by
  refine ⟨by rw [e, List.length_append, List.length_append, h.len]; rfl, fun c cl' m' hc hm => ?_⟩
  rw [e] at hc
  rcases append_get_cases hc with hc | ⟨e', rfl⟩
  · have : ms[c]? = some m' := by
      have := getElem?_lt hc
      rw [List.getElem?_append_left (by rw [h.len]; exact this)] at hm
      exact hm
    exact h.call c cl' m' hc this
  · rw [e', ← h.len, List.getElem?_append_right (Nat.le_refl _), Nat.sub_self] at hm
    cases hm
    exact ⟨h1, h2, h3⟩

/-! ### Lists -/

theorem increasing_eq : ∀ {l l' : List Nat}, l.Pairwise (· < ·) → l'.Pairwise (· < ·) → (∀ x, x ∈ l ↔ x ∈ l') → l = l' := by
  intro l
  induction l with
  | nil =>
    intro l' _ _ h
    cases l' with
    | nil => rfl
    | cons x xs => exact absurd ((h x).mpr (List.mem_cons_self ..)) (by simp)
  | cons x xs ih =>
    intro l' h h' hm
    cases l' with
    | nil => exact absurd ((hm x).mp (List.mem_cons_self ..)) (by simp)
    | cons y ys =>
      rw [List.pairwise_cons] at h h'
      have hxy : x = y := by
        rcases List.mem_cons.mp ((hm x).mp (List.mem_cons_self ..)) with e | a
        · exact e
        · rcases List.mem_cons.mp ((hm y).mpr (List.mem_cons_self ..)) with e | b
          · exact e.symm
          · have := h'.1 x a
            have := h.1 y b
            omega
      subst hxy
      rw [ih h.2 h'.2]
      intro z
      have := hm z
      rw [List.mem_cons, List.mem_cons] at this
      constructor
      · intro hz
        rcases this.mp (.inr hz) with rfl | k
        · exact absurd (h.1 _ hz) (Nat.lt_irrefl _)
        · exact k
      · intro hz
        rcases this.mpr (.inr hz) with rfl | k
        · exact absurd (h'.1 _ hz) (Nat.lt_irrefl _)
        · exact k

theorem range_increasing (n : Nat) : (List.range n).Pairwise (· < ·) := List.pairwise_lt_range

/-- An order without repetitions in which the smaller ones always come first is increasing. -/
theorem increasing_of : ∀ {l : List Nat}, l.Nodup → (∀ c c', c' ∈ l → c < c' → c ∈ l → Before l c c') → l.Pairwise (· < ·) := by
  intro l
  induction l with
  | nil => intro _ _; exact List.Pairwise.nil
  | cons x xs ih =>
    intro hnd h
    rw [List.nodup_cons] at hnd
    have inner : ∀ {c c' : Nat}, c ∈ xs → Before (x :: xs) c c' → Before xs c c' ∧ c' ∈ xs := by
      rintro c c' hc ⟨pre, mid, post, e⟩
      cases pre with
      | nil =>
        simp only [List.nil_append, List.cons_append, List.cons.injEq] at e
        rw [← e.1] at hc
        exact absurd hc hnd.1
      | cons p pre =>
        simp only [List.cons_append, List.cons.injEq] at e
        exact ⟨⟨pre, mid, post, e.2⟩, by rw [e.2]; simp⟩
    rw [List.pairwise_cons]
    refine ⟨fun y hy => ?_, ih hnd.2 fun c c' h1 h2 h3 =>
      (inner h3 (h c c' (List.mem_cons_of_mem _ h1) h2 (List.mem_cons_of_mem _ h3))).1⟩
    rcases Nat.lt_or_ge x y with h1 | h1
    · exact h1
    · have hne : y ≠ x := fun e => hnd.1 (e ▸ hy)
      exact absurd (inner hy (h y x (List.mem_cons_self ..) (by omega) (List.mem_cons_of_mem _ hy))).2 hnd.1

theorem prefix_range {n c : Nat} {pre post : List Nat} (h : List.range n = pre ++ c :: post) : pre = List.range c := by
  have hlen := congrArg List.length h
  simp only [List.length_range, List.length_append, List.length_cons] at hlen
  have h1 : (List.range n)[pre.length]? = some c := by rw [h]; simp
  rw [List.getElem?_range (by omega)] at h1
  have hc := Option.some.inj h1
  have h2 : (List.range n).take pre.length = pre := by rw [h]; simp
  rw [← h2, List.take_range, ← hc]
  congr 1
  omega

theorem boardAfter_range (ms : List WbMethod) (b : Board) (k : Nat) : boardAfter ms b (List.range k) = (ms.take k).foldl Board.after b := by
  unfold boardAfter
  congr 1
  induction k with
  | zero => simp
  | succ k ih =>
    rw [List.range_succ, List.filterMap_append, ih]
    by_cases hk : k < ms.length
    · rw [List.take_succ_eq_append_getElem hk]
      simp [List.getElem?_eq_getElem hk]
    · rw [List.take_of_length_le (by omega), List.take_of_length_le (by omega)]
      simp [List.getElem?_eq_none (Nat.le_of_not_lt hk)]

end PRpc
