import Verif.Lemmas.ClientDrop
import Verif.Props.SubEnd
/-!
C65: dropping a client.  `s.enq` are the frames ever accepted by the outgoing queue (`c48_success_means_accepted`), `s.tx` the
byte strings handed to the transport, `Label.out_done true` says that the transport reported success.
-/

namespace PRpc.Props

open PRpc PRpc.Spec

set_option synthInstance.maxSize 1000

/-- Nothing closed the client but the dropping of its handles: no explicit close, no transport error. -/
def OnlyDropped (ls : List Label) : Prop := .close ∉ ls ∧ .out_done false ∉ ls ∧ .in_recv none ∉ ls

theorem quiet_of {ls : List Label} (h : OnlyDropped ls) : ∀ l ∈ ls, l.quiet = true := by
  intro l hl
  cases l with
  | close => exact absurd hl h.1
  | out_done ok => cases ok with
    | false => exact absurd hl h.2.1
    | true => rfl
  | in_recv r => cases r with
    | none => exact absurd hl h.2.2
    | some b => rfl
  | _ => rfl

theorem drop_inv {cfg : Cfg} (ls : List Label) (s : Client) (h : run cfg ls Client.new = some s)
    (hq : ∀ l ∈ ls, l.quiet = true) :
    (s.stopped = false → ls.count (.out_done true) + s.out_pc.busy = s.tx.length) ∧
    (s.stopped = true → s.out_pc = .exited ∧ s.enq.length = s.tx.length ∧ ls.count (.out_done true) = s.tx.length) := by
  induction ls using snoc_induct generalizing s with
  | nil => cases h; exact ⟨fun _ => rfl, fun h => by cases h⟩
  | snoc ls l ih =>
    rw [run_append] at h
    cases e : run cfg ls Client.new with
    | none => rw [e] at h; cases h
    | some t =>
      rw [e] at h
      have hst : step cfg t l = some s := by
        simp only [Option.bind_some, run] at h
        split at h
        · rename_i u hu'; cases h; exact hu'
        · cases h
      have hl := hq l (by simp)
      obtain ⟨i1, i2⟩ := ih t e (fun l hl => hq l (List.mem_append.mpr (.inl hl)))
      rw [List.count_append, List.count_singleton]
      cases hs : t.stopped with
      | true =>
        obtain ⟨j1, j2, j3⟩ := i2 hs
        obtain ⟨k1, k2, k3⟩ := step_outExited hst j1
        have hs' := step_stopped hst hs
        refine ⟨fun h => (by rw [hs'] at h; cases h), fun _ => ⟨k1, by rw [k2, k3]; exact j2, ?_⟩⟩
        have hne : l ≠ .out_done true := by
          rintro rfl
          simp [step, out_done, j1] at hst
        rw [if_neg (by simpa using hne), k2]; exact j3
      | false =>
        have hd := step_done hst hs hl
        have hc := i1 hs
        have hb : (l == Label.out_done true) = decide (l = .out_done true) := rfl
        refine ⟨fun _ => ?_, fun hs' => ?_⟩
        · simp only [beq_iff_eq]
          omega
        · rcases step_quiet hst hl hs with h | ⟨h1, h2, h3, h4, h5⟩
          · rw [h] at hs'; cases hs'
          · have hco := (c48_submission_order ⟨ls, e⟩)
            have hz := hco.2.2 (by rw [h2]; simp)
            rw [h1] at hz
            have hz := congrArg List.length hz
            rw [List.length_drop, List.length_nil] at hz
            rw [h2, h3] at hd
            rw [h2] at hc
            simp only [OutPc.busy] at hd hc
            refine ⟨h3, by rw [h4, h5]; omega, ?_⟩
            simp only [beq_iff_eq]
            omega

/-- C65: if nothing closes a client but the dropping of its handles, its workers stop only after every frame accepted by
the outgoing queue was handed to the transport, which reported success for each. -/
theorem c65_dropped_client_drains {cfg : Cfg} {ls : List Label} {s : Client} (h : run cfg ls Client.new = some s)
    (hq : OnlyDropped ls) (hs : s.out_pc = .exited ∨ s.in_pc = .exited) :
    s.tx.length = s.enq.length ∧ ls.count (.out_done true) = s.enq.length ∧
    ∀ (i : Nat) f, s.enq[i]? = some f → ∃ b, s.tx[i]? = some b ∧ IsFrame b f.header f.body := by
  obtain ⟨h1, h2, h3⟩ := (drop_inv ls s h (quiet_of hq)).2 (c38_no_silent_worker_exit ⟨ls, h⟩ hs)
  refine ⟨h2.symm, h3.trans h2.symm, fun i f hf => ?_⟩
  have hi : i < s.tx.length := by rw [← h2]; exact (List.getElem?_eq_some_iff.mp hf).1
  obtain ⟨g, hg1, hg2⟩ := (c48_submission_order ⟨ls, h⟩).2.1 i _ (List.getElem?_eq_getElem hi)
  rw [hf] at hg1; cases hg1
  exact ⟨_, List.getElem?_eq_getElem hi, hg2⟩

/-- A publication is accepted, then the handle is dropped; the workers end. -/
def exDropped : List Label :=
  [.pub_begin ⟨⟨.Key8 (cKey 5), .Seq4 0⟩, [42]⟩, .pub_send 0, .drop_handles, .out_poll, .out_recv, .out_done true, .out_recv,
    .in_poll, .in_purge]

example : (run exCfg exDropped Client.new).map (fun s => (s.out_pc, s.in_pc, s.enq.length, s.tx.length)) =
    some (.exited, .exited, 1, 1) ∧ OnlyDropped exDropped := by
  refine ⟨by decide +kernel, ?_⟩
  unfold OnlyDropped; decide +kernel

/-- The transmit worker empties its queue and ends. -/
theorem drain_out {cfg : Cfg} (q : List RpcFrame) : ∀ (s : Client), s.outq = q → s.out_pc = .recv → s.out_polled = true → s.handles = false →
    ∃ ls s', run cfg ls s = some s' ∧ (∀ l ∈ ls, l = .out_recv ∨ l = .out_done true) ∧ s'.out_pc = .exited ∧ s'.stopped = true ∧
      s'.enq = s.enq := by
  induction q with
  | nil =>
    intro s h1 h2 h3 h4
    refine ⟨[.out_recv], { s with out_pc := .exited, out_polled := false, stopped := true }, ?_, by simp, rfl, rfl, rfl⟩
    simp [run, step, out_recv, h1, h2, h3, h4]
  | cons f q ih =>
    intro s h1 h2 h3 h4
    obtain ⟨b, hb, _⟩ := to_bytes_frame f
    obtain ⟨ls, s', g1, g2, g3, g4, g5⟩ := ih { s with outq := q, out_pc := .recv, tx := s.tx ++ [b] } rfl rfl h3 h4
    refine ⟨.out_recv :: .out_done true :: ls, s', ?_, ?_, g3, g4, g5⟩
    · have e1 : step cfg s .out_recv = some { s with outq := q, out_pc := .sending b, tx := s.tx ++ [b] } := by
        simp [step, out_recv, h1, h2, h3, hb]
      have e2 : step cfg { s with outq := q, out_pc := .sending b, tx := s.tx ++ [b] } (.out_done true) =
          some { s with outq := q, out_pc := .recv, tx := s.tx ++ [b] } := by
        simp [step, out_done, h3]
      simp only [run, e1, e2]
      exact g1
    · intro l hl
      rcases List.mem_cons.mp hl with rfl | hl
      · exact .inl rfl
      · rcases List.mem_cons.mp hl with rfl | hl
        · exact .inr rfl
        · exact g2 l hl

/-- The steps the workers take by being polled, with the transport accepting what it is given. -/
def WorkerLabel (l : Label) : Prop :=
  l = .out_poll ∨ l = .out_recv ∨ l = .out_done true ∨ l = .in_poll ∨ l = .in_yield ∨ l = .in_purge

/-- C65: after the last handle of an open client was dropped the workers get to their end by being polled, as long as the
transport accepts what it is given; then (`c65_dropped_client_drains`) everything accepted was transmitted, and
(`c63_end_is_seen`) every subscription sees its end. -/
theorem c65_dropped_client_ends {cfg : Cfg} {s : Client} (hr : Reachable cfg s) (hs : s.stopped = false) (hh : s.handles = false) :
    ∃ ls s', run cfg ls s = some s' ∧ (∀ l ∈ ls, WorkerLabel l) ∧ s'.out_pc = .exited ∧ s'.in_pc = .exited := by
  have hx : s.out_pc ≠ .exited := by
    intro h
    have := c38_no_silent_worker_exit hr (.inl h)
    rw [hs] at this; cases this
  -- get the transmit worker polled
  obtain ⟨l1, s1, a1, a2, a3, a4, a5, a6⟩ : ∃ ls s1, run cfg ls s = some s1 ∧ (∀ l ∈ ls, WorkerLabel l) ∧ s1.out_polled = true ∧
      s1.handles = false ∧ s1.out_pc = s.out_pc ∧ s1.stopped = false := by
    cases hp : s.out_polled with
    | true => exact ⟨[], s, rfl, by simp, hp, hh, rfl, hs⟩
    | false =>
      refine ⟨[.out_poll], { s with out_polled := true }, ?_, by simp [WorkerLabel], rfl, hh, rfl, hs⟩
      simp [run, step, out_poll, hp, hx, hs]
  -- finish the send in progress
  obtain ⟨l2, s2, b1, b2, b3, b4, b5⟩ : ∃ ls s2, run cfg ls s1 = some s2 ∧ (∀ l ∈ ls, WorkerLabel l) ∧ s2.out_polled = true ∧
      s2.handles = false ∧ s2.out_pc = .recv := by
    cases hp : s1.out_pc with
    | recv => exact ⟨[], s1, rfl, by simp, a3, a4, hp⟩
    | exited => rw [a5] at hp; exact absurd hp hx
    | sending b =>
      refine ⟨[.out_done true], { s1 with out_pc := .recv }, ?_, by simp [WorkerLabel], a3, a4, rfl⟩
      simp [run, step, out_done, hp, a3]
  obtain ⟨l3, s3, c1, c2, c3, c4, _⟩ := drain_out (cfg := cfg) s2.outq s2 rfl b5 b3 b4
  obtain ⟨s4, d1, d2, d3⟩ := run_inExit (cfg := cfg) c4
  refine ⟨l1 ++ (l2 ++ (l3 ++ inExit s3)), s4, ?_, ?_, by rw [d3]; exact c3, d2⟩
  · rw [run_append, a1, Option.bind_some, run_append, b1, Option.bind_some, run_append, c1, Option.bind_some]
    exact d1
  · intro l hl
    rcases List.mem_append.mp hl with h | hl
    · exact a2 l h
    · rcases List.mem_append.mp hl with h | hl
      · exact b2 l h
      · rcases List.mem_append.mp hl with h | hl
        · rcases c2 l h with rfl | rfl
          · exact .inr (.inl rfl)
          · exact .inr (.inr (.inl rfl))
        · rw [inExit] at hl
          unfold WorkerLabel
          split at hl
          · cases hl
          · split at hl
            · simp at hl; simp [hl]
            · split at hl
              · simp at hl; rcases hl with h | h | h <;> simp [h]
              · simp at hl; rcases hl with h | h <;> simp [h]

example : (run exCfg (exDropped.take 3) Client.new).map (fun s => (s.stopped, s.handles, s.outq.length)) =
    some (false, false, 1) := by decide +kernel

/-- C65: dropping the last handle of an open client is always possible, and the workers get to their end from there, with
everything accepted transmitted; nothing new is accepted. -/
theorem c65_dropping_ends {cfg : Cfg} {s : Client} (hr : Reachable cfg s) (hs : s.stopped = false) :
    ∃ s1 ls s', step cfg s .drop_handles = some s1 ∧ (∀ req resp body, step cfg s1 (.call_begin req resp body) = none) ∧
      (∀ f, step cfg s1 (.pub_begin f) = none) ∧ run cfg ls s1 = some s' ∧ (∀ l ∈ ls, WorkerLabel l) ∧
      s'.out_pc = .exited ∧ s'.in_pc = .exited := by
  have h1 : step cfg s .drop_handles = some { s with handles := false } := rfl
  obtain ⟨ls, s', g1, g2, g3, g4⟩ := c65_dropped_client_ends (reachable_step hr h1) (show ({ s with handles := false } : Client).stopped = false from hs) rfl
  exact ⟨_, ls, s', h1, fun _ _ _ => by simp [step], fun _ => by simp [step], g1, g2, g3, g4⟩

example : (run exCfg (exDropped.take 2) Client.new).map (fun s => (s.stopped, s.handles, s.outq.length)) =
    some (false, true, 1) := by decide +kernel

/-- With an explicit close instead, a publication that returned `Ok` may never be transmitted. -/
theorem c65_close_discards : ∃ (ls : List Label) (s : Client), run exCfg ls Client.new = some s ∧ s.out_pc = .exited ∧
    (∃ pb, s.pubs[0]? = some pb ∧ pb.res = some true) ∧ s.enq.length = 1 ∧ s.tx = [] := by
  refine ⟨[.pub_begin ⟨⟨.Key8 (cKey 5), .Seq4 0⟩, [42]⟩, .pub_send 0, .close, .out_poll], ?_⟩
  have hx : (run exCfg [.pub_begin ⟨⟨.Key8 (cKey 5), .Seq4 0⟩, [42]⟩, .pub_send 0, .close, .out_poll] Client.new).map
      (fun s => (s.out_pc, s.pubs[0]?.map Pub.res, s.enq.length, s.tx)) = some (.exited, some (some true), 1, []) := by decide +kernel
  obtain ⟨s, e1, e2⟩ := Option.map_eq_some_iff.mp hx
  simp only [Prod.mk.injEq] at e2
  obtain ⟨pb, p1, p2⟩ := Option.map_eq_some_iff.mp e2.2.1
  exact ⟨s, e1, e2.1, ⟨pb, p1, p2⟩, e2.2.2.1, e2.2.2.2⟩

end PRpc.Props
