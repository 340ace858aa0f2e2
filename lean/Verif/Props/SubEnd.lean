import Verif.Props.Lag
/-!
C63 and C64: when a subscription ends, and what a typed subscription returns.
-/

namespace PRpc.Props

open PRpc PRpc.Spec

set_option synthInstance.maxSize 1000

/-! ### C63: subscriptions end only for a reason -/

/-- The full statement of C63: an exclusive subscription that was not dropped reports its end only if a later subscription
to the same topic replaced it or the receive worker is ending; a multi-subscription only in the latter case. -/
def C63Full (cfg : Cfg) : Prop := ∀ s, Reachable cfg s →
  (∀ id c, s.subs.chans[id]? = some c → c.rx_alive = true → (sub_recv s.subs id).1 = some none →
    (∃ (j : Nat) (cj : Chan), id < j ∧ s.subs.chans[j]? = some cj ∧ cj.key = c.key) ∨ s.in_pc = .purge ∨ s.in_pc = .exited) ∧
  (∀ id r, s.subs.brxs[id]? = some r → r.alive = true → (multi_recv s.subs id).1 = some .IoClosed →
    s.in_pc = .purge ∨ s.in_pc = .exited)

/-- Two topics whose keys agree in their 1-byte form; the subscription to the first is dropped, then a message arrives. -/
def exUnrelated : List Label :=
  [.sub_excl (cKey 5) 4, .sub_excl ⟨5, 0, 0, 0, 0, 0, 0, 0⟩ 4, .drop_excl 0, .in_poll, .in_recv (some [0x00, 5, 1, 42]),
    .in_lookup]

/-- The same with multi-subscriptions. -/
def exUnrelatedM : List Label :=
  [.sub_multi (cKey 5) 4, .sub_multi ⟨5, 0, 0, 0, 0, 0, 0, 0⟩ 4, .drop_multi 0, .in_poll, .in_recv (some [0x00, 5, 1, 42]),
    .in_lookup]

/-- C63 is false of the code: dropping a subscription can end one to another topic whose short key agrees. -/
theorem c63_ends_for_a_reason_false : ¬ C63Full exCfg := by
  intro h
  have hx : (run exCfg exUnrelated Client.new).map (fun s => (s.subs.chans[1]?, s.subs.chans[2]?, s.subs.chans.length,
      (sub_recv s.subs 1).1, s.in_pc)) =
      some (some ⟨⟨5, 0, 0, 0, 0, 0, 0, 0⟩, 4, [], true, 0, [], false⟩, none, 2, some none, .recv) := by decide +kernel
  obtain ⟨s, e1, e2⟩ := Option.map_eq_some_iff.mp hx
  simp only [Prod.mk.injEq] at e2
  obtain ⟨e2, _, e4, e5, e6⟩ := e2
  rcases (h s ⟨_, e1⟩).1 1 _ e2 rfl e5 with ⟨j, cj, h1, h2, _⟩ | h | h
  · have := (List.getElem?_eq_some_iff.mp h2).1
    omega
  · rw [e6] at h; cases h
  · rw [e6] at h; cases h

/-- It is false of multi-subscriptions too. -/
theorem c63_multi_ends_for_a_reason_false : ∃ s r, Reachable exCfg s ∧ s.subs.brxs[1]? = some r ∧ r.alive = true ∧
    (multi_recv s.subs 1).1 = some .IoClosed ∧ s.in_pc = .recv := by
  have hx : (run exCfg exUnrelatedM Client.new).map (fun s => (s.subs.brxs[1]?, (multi_recv s.subs 1).1, s.in_pc)) =
      some (some ⟨1, [], 0, true, ⟨5, 0, 0, 0, 0, 0, 0, 0⟩, 0, [], 0⟩, some .IoClosed, .recv) := by decide +kernel
  obtain ⟨s, e1, e2⟩ := Option.map_eq_some_iff.mp hx
  simp only [Prod.mk.injEq] at e2
  exact ⟨s, _, ⟨_, e1⟩, e2.1, rfl, e2.2.1, e2.2.2⟩

theorem over_of {p : InPc} (h : p.over = true) : p = .purge ∨ p = .exited := by
  cases p with
  | purge => exact .inl rfl
  | exited => exact .inr rfl
  | _ => cases h

/-- C63, exclusive subscriptions, when no arriving frame is of two subscribed topics.  Missing: topics whose short keys
agree. -/
theorem c63_ends_for_a_reason_partial {cfg : Cfg} {s : Client} {id : Nat} {c : Chan} (hr : Reachable cfg s)
    (hc : s.subs.chans[id]? = some c) (ha : c.rx_alive = true) (hn : NoShared s) (he : (sub_recv s.subs id).1 = some none) :
    (∃ (j : Nat) (cj : Chan), id < j ∧ s.subs.chans[j]? = some cj ∧ cj.key = c.key) ∨ s.in_pc = .purge ∨ s.in_pc = .exited := by
  cases ho : s.in_pc.over with
  | true => exact .inr (over_of ho)
  | false =>
    rcases reachable_regInv hr (noCol_of_noShared hn) ho id c hc ha with h | h
    · exact .inl h
    · have h : (c.key, id) ∈ s.subs.exclusive_list := h
      have hany : s.subs.exclusive_list.any (fun e => e.2 == id) = true := List.any_eq_true.mpr ⟨_, h, by simp⟩
      simp only [sub_recv, hc] at he
      split at he
      · cases he
      · rw [if_pos hany] at he; cases he

/-- C63, multi-subscriptions, when no arriving frame is of two topics with multi-subscriptions. -/
theorem c63_multi_ends_for_a_reason_partial {cfg : Cfg} {s : Client} {id : Nat} {r : BRx} (hr : Reachable cfg s)
    (hc : s.subs.brxs[id]? = some r) (ha : r.alive = true) (hn : NoSharedMulti s)
    (he : (multi_recv s.subs id).1 = some .IoClosed) : s.in_pc = .purge ∨ s.in_pc = .exited := by
  cases ho : s.in_pc.over with
  | true => exact over_of ho
  | false =>
    have h : (r.key, r.chan) ∈ s.subs.broadcast_list :=
      (reachable_bcinv hr).2.reg (noColB_of hn) ho r (List.mem_iff_getElem?.mpr ⟨id, hc⟩) ha
    have hany : s.subs.broadcast_list.any (fun e => e.2 == r.chan) = true := List.any_eq_true.mpr ⟨_, h, by simp⟩
    simp only [multi_recv, hc] at he
    split at he
    · cases he
    · split at he
      · cases he
      · simp only [hany, if_true] at he; cases he

/-- A subscription replaced by a second one to the same topic; the first is at its end. -/
def exReplaced : List Label :=
  [.sub_repl (cKey 5) 4, .sub_multi (cKey 6) 2, .sub_repl (cKey 5) 4, .in_poll, .in_recv (some [0x00, 5, 1, 42]), .in_lookup]

example : ∃ s c, Reachable exCfg s ∧ s.subs.chans[0]? = some c ∧ c.rx_alive = true ∧ NoShared s ∧
    (sub_recv s.subs 0).1 = some none := by
  have hx : (run exCfg exReplaced Client.new).map (fun s => (s.subs.chans, s.subs.arrived, (sub_recv s.subs 0).1)) =
      some ([⟨cKey 5, 4, [], true, 0, [], false⟩, ⟨cKey 5, 4, [⟨⟨.Key1 ⟨5⟩, .Seq1 1⟩, [42]⟩], true, 0, [], false⟩],
        [⟨⟨.Key1 ⟨5⟩, .Seq1 1⟩, [42]⟩], some none) := by decide +kernel
  obtain ⟨s, e1, e2⟩ := Option.map_eq_some_iff.mp hx
  simp only [Prod.mk.injEq] at e2
  refine ⟨s, _, ⟨_, e1⟩, by rw [e2.1]; rfl, rfl, ?_, e2.2.2⟩
  unfold NoShared; rw [e2.1, e2.2.1]; decide +kernel

/-- A multi-subscription after the transport failed. -/
def exClosedMulti : List Label := [.sub_multi (cKey 6) 2, .in_poll, .in_recv none, .in_purge]

example : ∃ s r, Reachable exCfg s ∧ s.subs.brxs[0]? = some r ∧ r.alive = true ∧ NoSharedMulti s ∧
    (multi_recv s.subs 0).1 = some .IoClosed := by
  have hx : (run exCfg exClosedMulti Client.new).map (fun s => (s.subs.brxs[0]?, s.subs.arrived, (multi_recv s.subs 0).1)) =
      some (some ⟨0, [], 0, true, cKey 6, 0, [], 0⟩, [], some .IoClosed) := by decide +kernel
  obtain ⟨s, e1, e2⟩ := Option.map_eq_some_iff.mp hx
  simp only [Prod.mk.injEq] at e2
  refine ⟨s, _, ⟨_, e1⟩, e2.1, rfl, ?_, e2.2.2⟩
  intro f hf; rw [e2.2.1] at hf; cases hf

/-- C63, the other direction: once the receive worker has ended, every receive returns (a queued message, a `Lagged`, or the
end); none waits for ever. -/
theorem c63_end_is_seen {cfg : Cfg} {s : Client} (hr : Reachable cfg s) (he : s.in_pc = .exited) (id : Nat) :
    (id < s.subs.chans.length → (sub_recv s.subs id).1 ≠ none) ∧ (id < s.subs.brxs.length → (multi_recv s.subs id).1 ≠ none) := by
  have inv := reachable_purgeInv hr
  obtain ⟨h1, h2⟩ := inv.empty (inv.iff.mpr he)
  refine ⟨fun hl => ?_, fun hl => ?_⟩
  · simp only [sub_recv, List.getElem?_eq_getElem hl]
    split
    · simp
    · simp [h1]
  · simp only [multi_recv, List.getElem?_eq_getElem hl]
    split
    · simp
    · split
      · simp
      · simp [h2]

example : (run exCfg exClosedMulti Client.new).map (fun s => (s.in_pc, s.subs.brxs.length)) = some (.exited, 1) := by decide +kernel

/-! ### C64: typed subscriptions -/

/-- The message a typed receive returned, if it returned one. -/
def message {M : Type} : Option (Option M) → List M
  | some (some m) => [m]
  | _ => []

/-- The same for a multi-subscription. -/
def messageMulti {M : Type} : Option (TypedMultiRes M) → List M
  | some (.Ok m) => [m]
  | _ => []

/-- C64: one typed receive is some number of raw receives of which exactly the last may decode; the messages returned are
the raw ones that decode, and it returns one if any message that decodes is queued.  It never ends the subscription because
of an undecodable message: it reports the end only if a raw receive does. -/
theorem c64_typed_receive {M : Type} (decode : Bytes → Option M) {cfg : Cfg} (n : Nat) : ∀ {s : Client} {id : Nat} {c : Chan},
    s.subs.chans[id]? = some c → c.queue.length < n →
    ∃ k s', run cfg (List.replicate k (.recv_excl id)) s = some s' ∧ s'.subs = (sub_recv_typed decode id n s.subs).2 ∧
      (received cfg id (List.replicate k (.recv_excl id)) s).filterMap (fun f => decode f.body) =
        message (sub_recv_typed decode id n s.subs).1 ∧
      (∀ m ∈ message (sub_recv_typed decode id n s.subs).1,
        ∃ f ∈ (received cfg id (List.replicate k (.recv_excl id)) s).getLast?, decode f.body = some m) ∧
      ((∃ f ∈ c.queue, decode f.body ≠ none) → message (sub_recv_typed decode id n s.subs).1 ≠ []) ∧
      ((∀ f ∈ c.queue, decode f.body = none) → (sub_recv s'.subs id).1 = (sub_recv_typed decode id n s.subs).1.map fun _ => none) := by
  induction n with
  | zero => intro s id c _ h; omega
  | succ n ih =>
    intro s id c hc hl
    cases hq : c.queue with
    | nil =>
      have hr : (sub_recv s.subs id).2 = s.subs ∧ ((sub_recv s.subs id).1 = none ∨ (sub_recv s.subs id).1 = some none) := by
        simp only [sub_recv, hc, hq]; split <;> simp
      obtain ⟨h2, h1⟩ := hr
      refine ⟨0, s, rfl, ?_, ?_, ?_, ?_, ?_⟩
      · rw [sub_recv_typed]
        generalize hg : sub_recv s.subs id = g at h1 h2
        obtain ⟨g1, g2⟩ := g
        rcases h1 with rfl | rfl <;> exact h2.symm
      · rw [sub_recv_typed]
        generalize hg : sub_recv s.subs id = g at h1 h2
        obtain ⟨g1, g2⟩ := g
        rcases h1 with rfl | rfl <;> rfl
      · intro m hm
        exfalso; revert hm
        rw [sub_recv_typed]
        generalize hg : sub_recv s.subs id = g at h1 h2
        obtain ⟨g1, g2⟩ := g
        rcases h1 with rfl | rfl <;> exact List.not_mem_nil
      · rintro ⟨f, hf, _⟩; cases hf
      · intro _
        rw [sub_recv_typed]
        generalize hg : sub_recv s.subs id = g at h1 h2
        obtain ⟨g1, g2⟩ := g
        rcases h1 with rfl | rfl <;> rfl
    | cons f q =>
      have hr : sub_recv s.subs id = (some (some f), { s.subs with chans := s.subs.chans.set id { c with queue := q, got := c.got ++ [f] } }) := by
        simp only [sub_recv, hc, hq]
      have hst : step cfg s (.recv_excl id) = some { s with subs := (sub_recv s.subs id).2 } := rfl
      have hrec : ∀ ls, received cfg id (.recv_excl id :: ls) s =
          f :: received cfg id ls { s with subs := (sub_recv s.subs id).2 } := by
        intro ls
        simp only [received, hst, hr, if_true]
      cases hd : decode f.body with
      | some m =>
        refine ⟨1, { s with subs := (sub_recv s.subs id).2 }, rfl, ?_, ?_, ?_, ?_, ?_⟩
        · simp only [sub_recv_typed, hr, hd]
        · rw [show List.replicate 1 (Label.recv_excl id) = [.recv_excl id] from rfl, hrec]
          simp [sub_recv_typed, hr, hd, received, message]
        · rw [show List.replicate 1 (Label.recv_excl id) = [.recv_excl id] from rfl, hrec]
          simp [sub_recv_typed, hr, hd, received, message]
        · intro _; simp [sub_recv_typed, hr, hd, message]
        · intro h; rw [h f (by simp)] at hd; cases hd
      | none =>
        have hc' : ({ s with subs := (sub_recv s.subs id).2 } : Client).subs.chans[id]? =
            some { c with queue := q, got := c.got ++ [f] } := by
          rw [hr]; exact set_get_self hc _
        obtain ⟨k, s', h1, h2, h3, h3', h4, h5⟩ := ih hc' (by simp [hq] at hl; simpa using hl)
        have hty : sub_recv_typed decode id (n + 1) s.subs = sub_recv_typed decode id n (sub_recv s.subs id).2 := by
          rw [sub_recv_typed]; simp only [hr, hd]
        refine ⟨k + 1, s', ?_, ?_, ?_, ?_, ?_, ?_⟩
        · rw [List.replicate_succ, run, hst]; exact h1
        · rw [hty]; exact h2
        · rw [List.replicate_succ, hrec, List.filterMap_cons, hd, hty]; exact h3
        · intro m hm
          rw [hty] at hm
          obtain ⟨g, hg, hgd⟩ := h3' m hm
          refine ⟨g, ?_, hgd⟩
          rw [List.replicate_succ, hrec, List.getLast?_cons, Option.mem_def.mp hg]
          rfl
        · rintro ⟨g, hg, hgd⟩
          rw [hty]
          refine h4 ⟨g, ?_, hgd⟩
          rcases List.mem_cons.mp hg with rfl | hg
          · exact absurd hd hgd
          · exact hg
        · intro h
          rw [hty]
          exact h5 fun g hg => h g (List.mem_cons_of_mem _ hg)

/-- Two messages of which only the second decodes (as one byte below 50). -/
def exTyped : List Label :=
  [.sub_repl (cKey 5) 4, .sub_multi (cKey 5) 4, .in_poll, .in_recv (some [0x00, 5, 1, 99]), .in_lookup,
    .in_recv (some [0x00, 5, 2, 42]), .in_lookup]

/-- A decoder for the example. -/
def exSmall : Bytes → Option Byte
  | [b] => if b.toNat < 50 then some b else none
  | _ => none

example : (run exCfg exTyped Client.new).map (fun s => (s.subs.chans[0]?.map (fun c => c.queue.length),
      (sub_recv_typed exSmall 0 3 s.subs).1, s.subs.brxs[0]?.map (fun r => r.pending.length),
      (multi_recv_typed exSmall 0 3 s.subs).1)) = some (some 2, some (some 42), some 2, some (.Ok 42)) := by
  decide +kernel

/-- C64 for multi-subscriptions: as above; a receive that has lost messages says so first. -/
theorem c64_typed_multi_receive {M : Type} (decode : Bytes → Option M) {cfg : Cfg} (n : Nat) : ∀ {s : Client} {id : Nat} {r : BRx},
    s.subs.brxs[id]? = some r → r.pending.length < n →
    ∃ k s', run cfg (List.replicate k (.recv_multi id)) s = some s' ∧ s'.subs = (multi_recv_typed decode id n s.subs).2 ∧
      (receivedMulti cfg id (List.replicate k (.recv_multi id)) s).filterMap (fun f => decode f.body) =
        messageMulti (multi_recv_typed decode id n s.subs).1 ∧
      (∀ m ∈ messageMulti (multi_recv_typed decode id n s.subs).1,
        ∃ f ∈ (receivedMulti cfg id (List.replicate k (.recv_multi id)) s).getLast?, decode f.body = some m) ∧
      (0 < r.missed → (multi_recv_typed decode id n s.subs).1 = some (.Lagged r.missed)) ∧
      (r.missed = 0 → (∃ f ∈ r.pending, decode f.body ≠ none) → messageMulti (multi_recv_typed decode id n s.subs).1 ≠ []) ∧
      (r.missed = 0 → (∀ f ∈ r.pending, decode f.body = none) →
        ((multi_recv_typed decode id n s.subs).1 = none ∧ (multi_recv s'.subs id).1 = none) ∨
        ((multi_recv_typed decode id n s.subs).1 = some .IoClosed ∧ (multi_recv s'.subs id).1 = some .IoClosed)) := by
  induction n with
  | zero => intro s id r _ h; omega
  | succ n ih =>
    intro s id r hc hl
    by_cases hm : 0 < r.missed
    · have hr : multi_recv s.subs id = (some (.Lagged r.missed), { s.subs with brxs := s.subs.brxs.set id { r with missed := 0 } }) := by
        simp only [multi_recv, hc, hm, if_true]
      have hst : step cfg s (.recv_multi id) = some { s with subs := (multi_recv s.subs id).2 } := rfl
      refine ⟨1, { s with subs := (multi_recv s.subs id).2 }, rfl, ?_, ?_, ?_, ?_, fun h => by omega, fun h => by omega⟩
      · simp only [multi_recv_typed, hr]
      · simp [List.replicate, receivedMulti, multi_recv_typed, hr, messageMulti, step]
      · simp [multi_recv_typed, hr, messageMulti]
      · intro _; simp only [multi_recv_typed, hr]
    · cases hq : r.pending with
      | nil =>
        have hr : (multi_recv s.subs id).2 = s.subs ∧
            ((multi_recv s.subs id).1 = none ∨ (multi_recv s.subs id).1 = some .IoClosed) := by
          simp only [multi_recv, hc, hm, hq, if_false]; split <;> simp
        obtain ⟨h2, h1⟩ := hr
        have hty : (multi_recv_typed decode id (n + 1) s.subs).2 = s.subs ∧
            ((multi_recv s.subs id).1 = none ∧ (multi_recv_typed decode id (n + 1) s.subs).1 = none ∨
             (multi_recv s.subs id).1 = some .IoClosed ∧ (multi_recv_typed decode id (n + 1) s.subs).1 = some .IoClosed) := by
          rw [multi_recv_typed]
          generalize hg : multi_recv s.subs id = g at h1 h2
          obtain ⟨g1, g2⟩ := g
          rcases h1 with rfl | rfl
          · exact ⟨h2, .inl ⟨rfl, rfl⟩⟩
          · exact ⟨h2, .inr ⟨rfl, rfl⟩⟩
        obtain ⟨t2, t1⟩ := hty
        refine ⟨0, s, rfl, t2.symm, ?_, ?_, fun h => absurd h hm, fun _ => ?_, fun _ _ => ?_⟩
        · rcases t1 with ⟨_, t1⟩ | ⟨_, t1⟩ <;> (rw [t1]; rfl)
        · rcases t1 with ⟨_, t1⟩ | ⟨_, t1⟩ <;> (rw [t1]; intro m hm; cases hm)
        · rintro ⟨f, hf, _⟩; cases hf
        · rcases t1 with ⟨t0, t1⟩ | ⟨t0, t1⟩
          · exact .inl ⟨t1, t0⟩
          · exact .inr ⟨t1, t0⟩
      | cons f q =>
        have hr : multi_recv s.subs id = (some (.Ok f), { s.subs with brxs := s.subs.brxs.set id { r with pending := q, got := r.got ++ [f] } }) := by
          simp only [multi_recv, hc, hm, hq, if_false]
        have hst : step cfg s (.recv_multi id) = some { s with subs := (multi_recv s.subs id).2 } := rfl
        have hrec : ∀ ls, receivedMulti cfg id (.recv_multi id :: ls) s =
            f :: receivedMulti cfg id ls { s with subs := (multi_recv s.subs id).2 } := by
          intro ls
          simp only [receivedMulti, hst, hr, if_true]
        cases hd : decode f.body with
        | some m =>
          refine ⟨1, { s with subs := (multi_recv s.subs id).2 }, rfl, ?_, ?_, ?_, fun h => absurd h hm, ?_, ?_⟩
          · simp only [multi_recv_typed, hr, hd]
          · rw [show List.replicate 1 (Label.recv_multi id) = [.recv_multi id] from rfl, hrec]
            simp [multi_recv_typed, hr, hd, receivedMulti, messageMulti]
          · rw [show List.replicate 1 (Label.recv_multi id) = [.recv_multi id] from rfl, hrec]
            simp [multi_recv_typed, hr, hd, receivedMulti, messageMulti]
          · intro _ _; simp [multi_recv_typed, hr, hd, messageMulti]
          · intro _ h; rw [h f (by simp)] at hd; cases hd
        | none =>
          have hc' : ({ s with subs := (multi_recv s.subs id).2 } : Client).subs.brxs[id]? =
              some { r with pending := q, got := r.got ++ [f] } := by
            rw [hr]; exact set_get_self hc _
          obtain ⟨k, s', h1, h2, h3, h3', h4, h5, h6⟩ := ih hc' (by simp [hq] at hl; simpa using hl)
          have hty : multi_recv_typed decode id (n + 1) s.subs = multi_recv_typed decode id n (multi_recv s.subs id).2 := by
            rw [multi_recv_typed]; simp only [hr, hd]
          refine ⟨k + 1, s', ?_, ?_, ?_, ?_, fun h => absurd h hm, ?_, ?_⟩
          · rw [List.replicate_succ, run, hst]; exact h1
          · rw [hty]; exact h2
          · rw [List.replicate_succ, hrec, List.filterMap_cons, hd, hty]; exact h3
          · intro m hm
            rw [hty] at hm
            obtain ⟨g, hg, hgd⟩ := h3' m hm
            refine ⟨g, ?_, hgd⟩
            rw [List.replicate_succ, hrec, List.getLast?_cons, Option.mem_def.mp hg]
            rfl
          · rintro h0 ⟨g, hg, hgd⟩
            rw [hty]
            refine h5 h0 ⟨g, ?_, hgd⟩
            rcases List.mem_cons.mp hg with rfl | hg
            · exact absurd hd hgd
            · exact hg
          · intro h0 h
            rw [hty]
            exact h6 h0 fun g hg => h g (List.mem_cons_of_mem _ hg)

/-- Three messages for a queue of two, the last two of which do not decode. -/
def exTypedLag : List Label :=
  [.sub_multi (cKey 5) 2, .in_poll, .in_recv (some [0x00, 5, 1, 42]), .in_lookup, .in_recv (some [0x00, 5, 2, 98]), .in_lookup,
    .in_recv (some [0x00, 5, 3, 99]), .in_lookup]

example : (run exCfg exTypedLag Client.new).map (fun s => (s.subs.brxs[0]?.map (fun r => (r.missed, r.pending.length)),
      (multi_recv_typed exSmall 0 3 s.subs).1, (multi_recv_typed exSmall 0 3 (multi_recv_typed exSmall 0 3 s.subs).2).1)) =
      some (some (1, 2), some (.Lagged 1), none) := by
  decide +kernel

end PRpc.Props
