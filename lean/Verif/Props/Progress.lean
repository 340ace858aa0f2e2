import Verif.Lemmas.ClientProgress
import Verif.Props.Drop
/-!
C66: nothing gets stuck inside a client.  `Own`, `OwnRun`, `Stuck`, `Idle` and `Over` are defined in `Verif.Spec.Progress`.
-/

namespace PRpc.Props

open PRpc PRpc.Spec

set_option synthInstance.maxSize 1000

/-- C66: however the steps are scheduled, a client left to itself takes no more than this many of them. -/
theorem c66_work_is_bounded {cfg : Cfg} {s s' : Client} {ls : List Label} (h : OwnRun cfg s ls s') :
    ls.length ≤ 7 * s.calls.length + 3 * s.pubs.length + 2 * s.outq.length + 13 := by
  have h1 := ownRun_rank h
  have h2 := rank_le s
  omega

/-- C66: a client that can do nothing more by itself is idle if it is open: everything submitted was handed to the transport,
everything received was delivered and the only thing waited for is the other side; if it is closed everything has ended.  With
an outgoing queue of depth 0 no client can be made (`tokio::sync::mpsc::channel` panics). -/
theorem c66_nothing_stuck {cfg : Cfg} {s : Client} (hd : 0 < cfg.outgoing_depth) (hr : Reachable cfg s) (h : Stuck cfg s) :
    (s.stopped = false → Idle s) ∧ (s.stopped = true → Over s) := by
  have hx := fun e => c38_no_silent_worker_exit hr e
  have hpurge : s.in_pc ≠ .purge := fun e => by
    have := h .in_purge trivial
    simp [step, e] at this
  -- the calls of an open or closed client
  have hcalls : ∀ (c : Nat) (cl : Call), s.calls[c]? = some cl → (s.out_pc = .exited ∨ s.outq.length < cfg.outgoing_depth) →
      (∃ r, cl.phase = .done r) ∨ cl.phase = .dropped ∨
        ((∃ k, cl.phase = .waiting k) ∧ s.stopped = false ∧ ∀ w ∈ s.woken, w.id.call ≠ c) := by
    intro c cl hc hq
    cases hp : cl.phase with
    | done r => exact .inl ⟨r, rfl⟩
    | dropped => exact .inr (.inl rfl)
    | begun =>
      have := h (.call_kind c) trivial
      simp [step, hc, hp] at this
    | kinded k =>
      have := h (.call_reg_ok c) trivial
      simp [step, hc, hp] at this
    | half k =>
      have := h (.call_reg_err c) trivial
      simp [step, hc, hp] at this
    | registered k =>
      have := h (.call_send c) trivial
      rcases hq with hq | hq
      · simp [step, hc, hp, call_send, Client.out_open, hq] at this
      · simp only [step, hc, hp, call_send, hq, if_true] at this
        split at this <;> cases this
    | waiting k =>
      refine .inr (.inr ⟨⟨k, rfl⟩, ?_, fun w hw e => ?_⟩)
      · cases hs : s.stopped with
        | false => rfl
        | true =>
          have := h (.call_closed c) trivial
          simp [step, hc, hp, hs] at this
      · obtain ⟨⟨wc, we⟩, wf, wi⟩ := w
        have e : c = wc := e.symm
        subst e
        have hf : (s.woken.find? fun w => w.id = (⟨c, we⟩ : WaitId)) ≠ none := by
          intro hn
          have := List.find?_eq_none.mp hn _ hw
          simp at this
        cases we with
        | false =>
          have := h (.call_ok c) trivial
          simp only [step, hc, hp, call_take] at this
          split at this
          · rename_i e; exact hf e
          · cases this
        | true =>
          have := h (.call_err c) trivial
          simp only [step, hc, hp, call_take] at this
          split at this
          · rename_i e; exact hf e
          · cases this
  have hpubs : (s.out_pc = .exited ∨ s.outq.length < cfg.outgoing_depth) → ∀ p ∈ s.pubs, ∃ r, p.res = some r := by
    intro hq pb hpb
    obtain ⟨p, hp⟩ := List.mem_iff_getElem?.mp hpb
    cases hres : pb.res with
    | some r => exact ⟨r, rfl⟩
    | none =>
      have := h (.pub_send p) trivial
      rcases hq with hq | hq
      · simp [step, hp, hres, pub_send, Client.out_open, hq] at this
      · simp only [step, hp, hres, pub_send, hq, if_true] at this
        split at this <;> cases this
  refine ⟨fun hs => ?_, fun hs => ?_⟩
  · have ho : s.out_pc ≠ .exited := fun e => by have := hx (.inl e); rw [hs] at this; cases this
    have hi : s.in_pc ≠ .exited := fun e => by have := hx (.inr e); rw [hs] at this; cases this
    have hop : s.out_polled = true := by
      cases e : s.out_polled with
      | true => rfl
      | false =>
        have := h .out_poll trivial
        simp [step, out_poll, ho, e, hs] at this
    have hip : s.in_polled = true := by
      cases e : s.in_polled with
      | true => rfl
      | false =>
        have := h .in_poll trivial
        simp [step, in_poll, hi, hpurge, e, hs] at this
    have ho2 : s.out_pc = .recv := by
      cases e : s.out_pc with
      | recv => rfl
      | exited => exact absurd e ho
      | sending b =>
        have := h (.out_done true) trivial
        simp [step, out_done, e, hop] at this
    have hq : s.outq = [] ∧ s.handles = true := by
      have := h .out_recv trivial
      cases e : s.outq with
      | cons f q =>
        obtain ⟨b, hb, _⟩ := to_bytes_frame f
        simp [step, out_recv, ho2, hop, e, hb] at this
      | nil =>
        cases hh : s.handles with
        | true => exact ⟨rfl, rfl⟩
        | false => simp [step, out_recv, ho2, hop, e, hh] at this
    have hlt : s.out_pc = .exited ∨ s.outq.length < cfg.outgoing_depth := .inr (by rw [hq.1]; exact hd)
    refine ⟨⟨hs, hq.2⟩, ⟨ho2, hq.1⟩, ?_, hpubs hlt, fun c cl hc => ?_⟩
    · cases e : s.in_pc with
      | recv => rfl
      | exited => exact absurd e hi
      | purge => exact absurd e hpurge
      | lookup f =>
        have := h .in_lookup trivial
        simp only [step, in_lookup, e, hip] at this
        split at this <;> cases this
      | full f id rm =>
        have := h .in_full_timeout trivial
        simp [step, in_full_timeout, e, hip] at this
      | wake f =>
        have := h (.in_wake none) trivial
        simp only [step, in_wake, e, hip] at this
        split at this
        · rename_i hany
          obtain ⟨x, hx, hx2⟩ := List.any_eq_true.mp hany
          have := h (.in_wake (some x.1)) trivial
          simp only [step, in_wake, e, hip] at this
          split at this
          · cases this
          · rename_i hna
            exact absurd (List.any_eq_true.mpr ⟨x, hx, by simp [hx2]⟩) hna
        · cases this
    · rcases hcalls c cl hc hlt with h | h | ⟨h1, _, h2⟩
      · exact .inl h
      · exact .inr (.inl h)
      · exact .inr (.inr ⟨h1, h2⟩)
  · have hop : s.out_polled = false := by
      cases e : s.out_polled with
      | false => rfl
      | true =>
        have := h .out_yield hs
        simp [step, e] at this
    have hip : s.in_polled = false := by
      cases e : s.in_polled with
      | false => rfl
      | true =>
        have := h .in_yield hs
        simp [step, e] at this
    have ho : s.out_pc = .exited := by
      refine Classical.byContradiction fun e => ?_
      have := h .out_poll trivial
      simp [step, out_poll, hop, e, hs] at this
    have hi : s.in_pc = .exited := by
      refine Classical.byContradiction fun e => ?_
      have := h .in_poll trivial
      simp [step, in_poll, hip, e, hs, hpurge] at this
    refine ⟨hs, ho, hi, hpubs (.inl ho), fun cl hcl => ?_⟩
    obtain ⟨c, hc⟩ := List.mem_iff_getElem?.mp hcl
    rcases hcalls c cl hc (.inl ho) with h | h | ⟨_, h, _⟩
    · exact .inl h
    · exact .inr h
    · rw [hs] at h; cases h

/-- C66: every client left to itself becomes idle or over: from every reachable state the steps of its own lead there. -/
theorem c66_comes_to_rest {cfg : Cfg} {s : Client} (hd : 0 < cfg.outgoing_depth) (hr : Reachable cfg s) :
    ∃ ls s', OwnRun cfg s ls s' ∧ Stuck cfg s' ∧ (Idle s' ∨ Over s') := by
  obtain ⟨ls, s', h1, h2⟩ := ownRun_to_stuck (cfg := cfg) s.rank s (Nat.le_refl _)
  obtain ⟨ls0, h0⟩ := hr
  have hr' : Reachable cfg s' := ⟨ls0 ++ ls, by rw [run_append, h0, Option.bind_some]; exact ownRun_run h1⟩
  have := c66_nothing_stuck hd hr' h2
  cases hs : s'.stopped with
  | false => exact ⟨ls, s', h1, h2, .inl (this.1 hs)⟩
  | true => exact ⟨ls, s', h1, h2, .inr (this.2 hs)⟩

/-- C66: in an idle client every frame accepted by the outgoing queue was handed to the transport. -/
theorem c66_idle_sent_everything {cfg : Cfg} {s : Client} (hr : Reachable cfg s) (h : Idle s) :
    s.tx.length = s.enq.length ∧ ∀ (i : Nat) f, s.enq[i]? = some f → ∃ b, s.tx[i]? = some b ∧ IsFrame b f.header f.body := by
  obtain ⟨h1, h2, h3⟩ := c48_submission_order hr
  have h3 := h3 (by rw [h.out.1]; simp)
  rw [h.out.2] at h3
  have h4 := congrArg List.length h3
  rw [List.length_drop, List.length_nil] at h4
  refine ⟨by omega, fun i f hf => ?_⟩
  have hi : i < s.tx.length := by
    have := (List.getElem?_eq_some_iff.mp hf).1
    omega
  obtain ⟨g, hg1, hg2⟩ := h2 i _ (List.getElem?_eq_getElem hi)
  rw [hf] at hg1; cases hg1
  exact ⟨_, List.getElem?_eq_getElem hi, hg2⟩

/-! ### An example -/

/-- A call whose request is being transmitted, one half registered, one just begun, a publication under way, and a full
subscription the receive worker waits for. -/
def exBusy : List Label :=
  [.sub_excl (cKey 5) 1, .in_poll, .in_recv (some [0x00, 5, 1, 42]), .in_lookup, .in_recv (some [0x00, 5, 2, 43]), .in_lookup] ++
    startCall 0 1 2 [7] ++ [.out_poll, .out_recv] ++
    [.call_begin (cKey 1) (cKey 2) [8], .call_kind 1, .call_reg_ok 1, .call_begin (cKey 3) (cKey 4) [9],
      .pub_begin ⟨⟨.Key8 (cKey 6), .Seq4 0⟩, [44]⟩]

/-- Steps of the client's own that bring it to rest. -/
def exSettle : List Label :=
  [.call_reg_err 1, .pub_send 0, .call_kind 2, .in_full_timeout, .call_send 1, .call_reg_ok 2, .out_done true, .out_recv,
    .call_reg_err 2, .out_done true, .call_send 2, .out_recv, .out_done true, .out_recv, .out_done true]

theorem ownRun_of {cfg : Cfg} {ls : List Label} : ∀ {s s' : Client}, (∀ l ∈ ls, ∀ t, Own t l) → run cfg ls s = some s' →
    OwnRun cfg s ls s' := by
  induction ls with
  | nil => intro s s' _ h; cases h; exact .nil _
  | cons l ls ih =>
    intro s s' ho h
    simp only [run] at h
    split at h
    · rename_i t ht
      exact .cons (ho l (by simp) s) ht (ih (fun l hl => ho l (List.mem_cons_of_mem _ hl)) h)
    · cases h

/-- The hypotheses of the theorems above are met: a reachable client with work to do, a run of its own steps, the rest. -/
theorem exBusy_settles : ∃ s s', run exCfg exBusy Client.new = some s ∧ OwnRun exCfg s exSettle s' ∧ s'.tx.length = 4 ∧
    s'.calls.map Call.phase = [.waiting .Key8, .waiting .Key8, .waiting .Key8] ∧ s'.outq = [] ∧ s'.in_pc = .recv := by
  have h : ((run exCfg exBusy Client.new).bind (run exCfg exSettle)).map (fun s => (s.tx.length, s.calls.map Call.phase, s.outq, s.in_pc)) =
      some (4, [.waiting .Key8, .waiting .Key8, .waiting .Key8], [], .recv) := by decide +kernel
  obtain ⟨s', e1, e2⟩ := Option.map_eq_some_iff.mp h
  obtain ⟨s, e3, e4⟩ := Option.bind_eq_some_iff.mp e1
  simp only [Prod.mk.injEq] at e2
  refine ⟨s, s', e3, ownRun_of ?_ e4, e2.1, e2.2.1, e2.2.2.1, e2.2.2.2⟩
  intro l hl t
  simp only [exSettle, List.mem_cons, List.not_mem_nil, or_false] at hl
  rcases hl with rfl | rfl | rfl | rfl | rfl | rfl | rfl | rfl | rfl | rfl | rfl | rfl | rfl | rfl | rfl <;> trivial

example : (run exCfg exBusy Client.new).map (fun s => (s.in_pc, s.out_pc, s.calls.length, s.pubs.length)) =
    some (.full ⟨⟨.Key1 ⟨5⟩, .Seq1 2⟩, [43]⟩ 0 false, .sending [0xE0, 0, 0, 0, 0, 0, 0, 0, 1, 0, 0, 0, 0, 7], 3, 1) := by decide +kernel

/-- There is a stuck client that is not trivial: the one the example comes to. -/
example : ∃ s, Reachable exCfg s ∧ Stuck exCfg s ∧ (Idle s ∨ Over s) := by
  obtain ⟨s, s', h1, _⟩ := exBusy_settles
  obtain ⟨ls, t, h3, h4, h5⟩ := c66_comes_to_rest (cfg := exCfg) (by decide) ⟨_, h1⟩
  exact ⟨t, ⟨exBusy ++ ls, by rw [run_append, h1, Option.bind_some]; exact ownRun_run h3⟩, h4, h5⟩

end PRpc.Props
