import Verif.Lemmas.ClientLag
import Verif.Props.ClientSubs
/-!
C62: whether a multi-subscription loses messages.
-/

namespace PRpc.Props

open Spec

/-- Along the whole run at most `d` messages of topic `key`, counted from position `since` of what arrived, were waiting to
be received on multi-subscription `id`. -/
def NeverBehind (cfg : Cfg) (id : Nat) (key : Key) (since d : Nat) (ls : List Label) : Prop :=
  ∀ as bs t, ls = as ++ bs → run cfg as Client.new = some t →
    (topicPart key since t.subs.arrived).length ≤ (receivedMulti cfg id as Client.new).length + d

/-- The subscription `id` was made by asking for depth `d` on topic `key`: the label, and the number of messages that had
arrived by then. -/
def MadeWith (cfg : Cfg) (id : Nat) (key : Key) (d since : Nat) (ls : List Label) : Prop :=
  ∃ as bs t t', ls = as ++ .sub_multi key d :: bs ∧ run cfg as Client.new = some t ∧
    step cfg t (.sub_multi key d) = some t' ∧ t.subs.brxs.length = id ∧ t'.subs.brxs.length = id + 1 ∧
    t.subs.arrived.length = since

/-- The full statement of C62: a subscription made with depth `d` is not told that it lagged as long as it never had more
than `d` messages to take. -/
def C62Full (cfg : Cfg) : Prop := ∀ (ls : List Label) (s : Client) (id : Nat) (key : Key) (d since : Nat),
  run cfg ls Client.new = some s → MadeWith cfg id key d since ls → NeverBehind cfg id key since d ls →
    ∀ n, (multi_recv s.subs id).1 ≠ some (.Lagged n)

/-- The first subscriber asks for one message, the second for four; two messages arrive. -/
def exLag : List Label :=
  [.sub_multi (cKey 6) 1, .sub_multi (cKey 6) 4, .in_poll, .in_recv (some [0x00, 6, 1, 43]), .in_lookup,
    .in_recv (some [0x00, 6, 2, 44]), .in_lookup]

theorem neverBehind_of {cfg : Cfg} {id : Nat} {key : Key} {since d : Nat} {ls : List Label}
    (h : along cfg (fun as t => decide ((topicPart key since t.subs.arrived).length ≤
      (receivedMulti cfg id as Client.new).length + d)) [] ls Client.new = true) : NeverBehind cfg id key since d ls := by
  intro as bs t e hr
  simpa using along_spec ls [] Client.new h as bs t e hr

theorem exLag_made : MadeWith exCfg 1 (cKey 6) 4 0 exLag := by
  have h : (run exCfg (exLag.take 1) Client.new).map (fun t => (t.subs.brxs.length, t.subs.arrived.length,
      (step exCfg t (.sub_multi (cKey 6) 4)).map fun t' => t'.subs.brxs.length)) = some (1, 0, some 2) := by decide +kernel
  obtain ⟨t, e1, e2⟩ := Option.map_eq_some_iff.mp h
  simp only [Prod.mk.injEq] at e2
  obtain ⟨h1, h2, h3⟩ := e2
  obtain ⟨t', e3, h4⟩ := Option.map_eq_some_iff.mp h3
  exact ⟨exLag.take 1, exLag.drop 2, t, t', rfl, e1, e3, h1, h4, h2⟩

/-- C62 is false of the code: the depth asked for counts only for the first subscriber of a topic; the second, who asked
for four messages, lags after two. -/
theorem c62_depth_honoured_false : ¬ C62Full exCfg := by
  intro h
  have hx : (run exCfg exLag Client.new).map (fun s => (multi_recv s.subs 1).1) = some (some (.Lagged 1)) := by decide +kernel
  obtain ⟨s, e1, e2⟩ := Option.map_eq_some_iff.mp hx
  exact h exLag s 1 (cKey 6) 4 0 e1 exLag_made (neverBehind_of (by decide +kernel)) 1 e2

/-- C62 when every multi-subscription to the topic asked for at least `d`: a subscription that never had more than `d`
messages to take has lost none, is not told that it lagged, and has received or will receive every message of the topic
since it was made (the last part if no frame is of two subscribed topics).  Missing: topics of which some subscriber asked
for less, where the depth of the first counts. -/
theorem c62_depth_honoured_partial {cfg : Cfg} {ls : List Label} {s : Client} {id : Nat} {r : BRx} {d : Nat}
    (h : run cfg ls Client.new = some s) (hr : s.subs.brxs[id]? = some r) (hd : ∀ n, Label.sub_multi r.key n ∈ ls → d ≤ n)
    (hu : NeverBehind cfg id r.key r.since d ls) :
    r.lost = 0 ∧ (∀ n, (multi_recv s.subs id).1 ≠ some (.Lagged n)) ∧
    (r.alive = true → NoSharedMulti s →
      receivedMulti cfg id ls Client.new ++ r.pending = topicPart r.key r.since s.subs.arrived) := by
  have h0 : r.lost = 0 := (lost_zero ls s h hd (fun as bs t e hrun => by
    rw [topicFrames_eq]; exact hu as bs t e hrun)).2 r hr rfl rfl
  refine ⟨h0, fun n hn => ?_, fun ha hs => (c40_multi_all_accounted_partial h hr ha hs).2 h0⟩
  have hm : r.missed = 0 := by
    have := (reachable_bcinv ⟨ls, h⟩).1.miss r (List.mem_iff_getElem?.mpr ⟨id, hr⟩)
    omega
  simp only [multi_recv, hr, hm, Nat.lt_irrefl, if_false] at hn
  split at hn
  · cases hn
  · split at hn <;> cases hn

/-- Two subscribers asking for 3 and 2; two messages arrive and neither has read. -/
def exNoLag : List Label :=
  [.sub_multi (cKey 6) 3, .sub_multi (cKey 6) 2, .in_poll, .in_recv (some [0x00, 6, 1, 43]), .in_lookup,
    .in_recv (some [0x00, 6, 2, 44]), .in_lookup]

example : ∃ s r, run exCfg exNoLag Client.new = some s ∧ s.subs.brxs[1]? = some r ∧ r.alive = true ∧
    (∀ n, Label.sub_multi r.key n ∈ exNoLag → 2 ≤ n) ∧ NeverBehind exCfg 1 r.key r.since 2 exNoLag := by
  have hx : (run exCfg exNoLag Client.new).map (fun s => s.subs.brxs[1]?) =
      some (some ⟨0, [⟨⟨.Key1 ⟨6⟩, .Seq1 1⟩, [43]⟩, ⟨⟨.Key1 ⟨6⟩, .Seq1 2⟩, [44]⟩], 0, true, cKey 6, 0, [], 0⟩) := by decide +kernel
  obtain ⟨s, e1, e2⟩ := Option.map_eq_some_iff.mp hx
  refine ⟨s, _, e1, e2, rfl, ?_, neverBehind_of (by decide +kernel)⟩
  intro n hn
  simp [exNoLag] at hn
  omega

end PRpc.Props
