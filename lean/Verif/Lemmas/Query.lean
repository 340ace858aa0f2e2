import Verif.Spec.Query
import Verif.Props.SubEnd
import Verif.Props.SchemaReport
/-!
Helper lemmas about the collecting task of `get_schema_report`.
-/

namespace PRpc

open Spec Props

theorem try_send_brxs (s : Subs) (i : Nat) (f : RpcFrame) : (try_send s i f).2.brxs = s.brxs := by
  obtain ⟨c, e⟩ := try_send_bc s i f
  rw [e]

theorem retain_brxs (s : Subs) (k : VarKey) (a b : Bool) : (retain_subs s k a b).brxs = s.brxs := by
  simp only [retain_subs]; (repeat' split) <;> rfl

theorem note_dropped_brxs (s : Subs) (i : Nat) : (note_dropped s i).brxs = s.brxs := by
  simp only [note_dropped]; split <;> rfl

theorem step_brx_alive {cfg : Cfg} {s s' : Client} {l : Label} (h : step cfg s l = some s') {id : Nat} {r : BRx}
    (hl : l ≠ .drop_multi id) (hr : s.subs.brxs[id]? = some r) :
    ∃ r', s'.subs.brxs[id]? = some r' ∧ r'.alive = r.alive := by
  have same : s'.subs.brxs = s.subs.brxs → ∃ r', s'.subs.brxs[id]? = some r' ∧ r'.alive = r.alive :=
    fun e => ⟨r, by rw [e]; exact hr, rfl⟩
  have hset : ∀ (j : Nat) (y z : BRx), s.subs.brxs[j]? = some y → z.alive = y.alive →
      ∃ r', (s.subs.brxs.set j z)[id]? = some r' ∧ r'.alive = r.alive := by
    intro j y z hy hz
    by_cases e : id = j
    · subst e
      rw [hr] at hy; cases hy
      exact ⟨z, set_get_self hr z, hz⟩
    · exact ⟨r, by rw [set_get_ne _ e]; exact hr, rfl⟩
  cases l with
  | in_lookup =>
    have harr : ∃ f, s'.subs.arrived = s.subs.arrived ++ [f] := by
      simp only [step, in_lookup] at h
      split at h
      · rename_i f hp hpol
        have ha := lookup_arrived cfg.zero s.subs f
        revert h ha
        generalize subs_lookup cfg.zero s.subs f = x
        obtain ⟨r1, r2⟩ := x
        intro h ha
        refine ⟨f, ?_⟩
        cases r1 <;> simp only [after_lookup] at h <;> cases h <;> exact ha
      · cases h
    obtain ⟨f, harr⟩ := harr
    have hb := step_bc h
    have key : ∀ e e', BStep e e' → e'.arr = e.arr ++ [f] → e.rx[id]? = some r → ∃ r', e'.rx[id]? = some r' ∧ r'.alive = r.alive := by
      intro e e' hb ha hr
      cases hb with
      | arriveNone a x c r f' h => exact ⟨_, hr, rfl⟩
      | arriveDead a x c r f' k b h hl => exact ⟨_, hr, rfl⟩
      | arriveWait a x c r f' k b h hl => exact ⟨_, hr, rfl⟩
      | arriveOk a x c r0 f' k b h hl =>
        simp only at hr
        cases hc : onChan b r with
        | true => exact ⟨r.push (c.getD b 1) f', by simp only [List.getElem?_map, hr, Option.map_some, hc, if_true], (push_fields _ _ _).2.1⟩
        | false => exact ⟨r, by simp only [List.getElem?_map, hr, Option.map_some, hc, Bool.false_eq_true, if_false], rfl⟩
      | _ => simp at ha
    exact key _ _ hb harr hr
  | recv_multi j =>
    simp only [step] at h
    cases h
    simp only [multi_recv]
    split
    · exact ⟨r, hr, rfl⟩
    · rename_i y hy
      split
      · exact hset j y _ hy rfl
      · split
        · exact hset j y _ hy rfl
        · split <;> exact ⟨r, hr, rfl⟩
  | drop_multi j =>
    simp only [step] at h
    cases h
    simp only [multi_drop]
    split
    · exact ⟨r, hr, rfl⟩
    · rw [set_get_ne _ (fun e => hl (by rw [e]))]
      exact ⟨r, hr, rfl⟩
  | sub_multi key depth =>
    simp only [step] at h
    split at h
    · cases h
      have hlt : id < s.subs.brxs.length := (List.getElem?_eq_some_iff.mp hr).1
      simp only [subscribe_multi_inner]
      repeat' split
      all_goals first
        | exact ⟨r, hr, rfl⟩
        | exact ⟨r, by rw [List.getElem?_append_left hlt]; exact hr, rfl⟩
    · cases h
  | in_full_send =>
    simp only [step, in_full_send] at h
    refine same ?_
    split at h
    · rename_i f i rm hp hpol
      have ha := try_send_brxs s.subs i f
      revert h ha
      generalize try_send s.subs i f = x
      obtain ⟨r1, r2⟩ := x
      intro h ha
      simp only at ha
      cases r1 <;> simp only [after_lookup] at h <;> cases h <;> simp [ha, retain_brxs]
    · cases h
  | in_full_timeout =>
    simp only [step, in_full_timeout, after_lookup] at h
    refine same ?_
    split at h
    · cases h; simp [retain_brxs, note_dropped_brxs]
    · cases h
  | _ =>
    simp only [step, send_resp_begin, call_reg_ok, call_reg_err, call_send, call_take, publish_raw_begin, pub_send,
      out_poll, out_recv, out_done, in_poll, in_recv, in_wake, Client.set_phase, Client.drop_waits, subs_purge, sub_drop,
      sub_recv, subscribe_inner, subscribe_inner_exclusive] at h
    repeat' split at h
    all_goals first
      | (cases h; done)
      | (cases h; exact same rfl)
      | (cases h; split <;> exact same rfl)
      | (cases h; (repeat' split) <;> exact same rfl)

theorem roomy_client {cfg : Cfg} {s s' : Client} {l : Label} {key : Key} {d : Nat} (h : step cfg s l = some s')
    (hr : Reachable cfg s) (inv : Roomy key d s.bc) (hd : ∀ n, l = .sub_multi key n → d ≤ n) : Roomy key d s'.bc := by
  refine roomy_step (step_bc h) (reachable_bcinv hr).1 inv fun n h1 h2 => ?_
  have h1 : s'.subs.bchans = s.subs.bchans ++ [n] := h1
  have h2 : s'.subs.broadcast_list = s.subs.broadcast_list ++ [(key, s.subs.bchans.length)] := h2
  rcases step_caps h with hcp | ⟨key', depth, rfl, hcp, hbl⟩
  · rw [hcp] at h1
    have := congrArg List.length h1
    simp at this
  · rw [hcp] at h1
    rw [hbl] at h2
    have e1 := List.append_cancel_left h1
    have e2 := List.append_cancel_left h2
    simp only [List.cons.injEq, and_true, Prod.mk.injEq] at e1 e2
    subst e1
    exact Nat.le_trans (hd depth (by rw [e2])) (le_pow2_self depth)

/-- The collecting task at work. -/
structure Gathering (qc : QCfg) (q : Query) (quiet id : Nat) (r : BRx) : Prop where
  here : q.client.subs.brxs[id]? = some r
  key : r.key = qc.topic
  since : r.since = q.begun
  alive : r.alive = true
  lost : r.lost = 0
  msgs : ∃ ds : List SchemaData, q.seen = ds.map .msg ∧ r.got.map (fun f => qc.decode f.body) = ds.map some
  time : ∀ d, q.deadline = some d → (schemaArrivals qc q).length = (arrived q.seen).length → q.now + 100 ≤ d + quiet

structure QInv (qc : QCfg) (n : Nat) (q : Query) (quiet : Nat) : Prop where
  reach : Reachable qc.cfg q.client
  roomy : Roomy qc.topic 64 q.client.bc
  before : q.sub = none → q.seen = [] ∧ q.ended = false ∧ q.deadline = none
  gather : ∀ id, q.sub = some id → q.ended = false → ∃ r, Gathering qc q quiet id r
  over : q.ended = true → ∃ p, p <+: schemaArrivals qc q ∧ n ≤ p.length ∧
    (arrived q.seen).map some = p.map fun f => qc.decode f.body

theorem schemaArrivals_eq (qc : QCfg) (q : Query) : schemaArrivals qc q = topicFrames q.client.subs.arrived qc.topic q.begun :=
  (topicFrames_eq _ _ _).symm

theorem Gathering.len {qc : QCfg} {q : Query} {quiet id : Nat} {r : BRx} (g : Gathering qc q quiet id r) :
    (arrived q.seen).length = r.got.length := by
  obtain ⟨ds, h1, h2⟩ := g.msgs
  rw [h1, arrived_msgs]
  have := congrArg List.length h2
  simpa using this.symm

theorem Gathering.count {qc : QCfg} {q : Query} {quiet id : Nat} {r : BRx} (g : Gathering qc q quiet id r)
    (hr : Reachable qc.cfg q.client) (ho : NoSharedMulti q.client) :
    r.got.length + r.pending.length = (schemaArrivals qc q).length := by
  have := (reachable_bcinv hr).2.count (noColB_of ho) r (List.mem_iff_getElem?.mpr ⟨id, g.here⟩) g.alive
  rw [g.lost, g.key, g.since, Nat.add_zero] at this
  rw [schemaArrivals_eq]
  exact this

theorem stepOutM_nil {s : Client} {id : Nat} {l : Label} (hl : l ≠ .recv_multi id) : stepOutM s id l = [] := by
  cases l with
  | recv_multi i =>
    simp only [stepOutM]
    rw [if_neg (fun e => hl (by rw [e]))]
  | _ => rfl

theorem step_arr_pre {cfg : Cfg} {s s' : Client} {l : Label} (h : step cfg s l = some s') :
    s.subs.arrived <+: s'.subs.arrived := by
  have hb := step_bc h
  have aux : ∀ {e e' : Bc}, BStep e e' → e.arr <+: e'.arr := by
    intro e e' hs
    cases hs <;> first
      | exact List.prefix_refl _
      | exact List.prefix_append _ _
  exact aux hb

theorem topicFrames_mono {cfg : Cfg} {s s' : Client} {l : Label} (h : step cfg s l = some s') {key : Key} {n : Nat} :
    topicFrames s.subs.arrived key n <+: topicFrames s'.subs.arrived key n := by
  obtain ⟨t, ht⟩ := step_arr_pre h
  rw [topicFrames, topicFrames, ← ht, List.drop_append, List.filter_append]
  exact List.prefix_append _ _

/-- A step of the client that is not one of the query's own. -/
theorem gather_client {qc : QCfg} {q : Query} {quiet id : Nat} {r : BRx} {l : Label} {c : Client}
    (g : Gathering qc q quiet id r) (hr : Reachable qc.cfg q.client) (room : Roomy qc.topic 64 q.client.bc)
    (h : step qc.cfg q.client l = some c) (hl : l ≠ .recv_multi id) (hl' : l ≠ .drop_multi id) (ho : NoSharedMulti q.client)
    (hroom : (schemaArrivals qc { q with client := c }).length ≤ (arrived q.seen).length + 64) :
    ∃ r', Gathering qc { q with client := c }
      (if (schemaArrivals qc { q with client := c }).length = (schemaArrivals qc q).length then quiet else 0) id r' := by
  obtain ⟨r', hr', ha⟩ := step_brx_alive h hl' g.here
  have bi := (reachable_bcinv hr).1
  have hc : Reachable qc.cfg c := reachable_step hr h
  have hgot : r'.got = r.got := by
    have := step_gotM h id
    rw [stepOutM_nil hl, List.append_nil, Subs.gotM, Subs.gotM, hr', g.here] at this
    simpa using this
  have hcount := g.count hr ho
  have hlen := g.len
  rcases lost_step (step_bc h) bi hr' with ⟨h0, _⟩ | ⟨r0, h1, h2, h3, h4⟩
  · have h0 : q.client.subs.brxs[id]? = none := h0
    rw [g.here] at h0; cases h0
  · have h1 : q.client.subs.brxs[id]? = some r0 := h1
    rw [g.here] at h1; cases h1
    have hal : r'.alive = true := ha.trans g.alive
    have hk : r'.key = qc.topic := h2.symm.trans g.key
    have hs : r'.since = q.begun := h3.symm.trans g.since
    have hlost : r'.lost = 0 := by
      rcases h4 with h4 | ⟨hfull, _, f, harr, hm⟩
      · rw [h4, g.lost]
      · exfalso
        have hcap := room.rx r (List.mem_iff_getElem?.mpr ⟨id, g.here⟩) g.key
        have harr : c.subs.arrived = q.client.subs.arrived ++ [f] := harr
        have hle : q.begun ≤ q.client.subs.arrived.length := by
          rw [← g.since]
          exact bi.since r (List.mem_iff_getElem?.mpr ⟨id, g.here⟩)
        have : (schemaArrivals qc { q with client := c }).length = (schemaArrivals qc q).length + 1 := by
          rw [schemaArrivals_eq, schemaArrivals_eq]
          show (topicFrames c.subs.arrived qc.topic q.begun).length = _
          rw [harr, topicFrames_snoc hle, if_pos (by rw [← g.key]; exact hm), List.length_append]
          rfl
        omega
    refine ⟨r', hr', hk, hs, hal, hlost, ?_, ?_⟩
    · rw [hgot]; exact g.msgs
    · intro d hd hn
      have hd : q.deadline = some d := hd
      have hn : (schemaArrivals qc { q with client := c }).length = (arrived q.seen).length := hn
      have hle : (schemaArrivals qc q).length ≤ (schemaArrivals qc { q with client := c }).length := by
        rw [schemaArrivals_eq, schemaArrivals_eq]
        exact (topicFrames_mono h).length_le
      have he : (schemaArrivals qc { q with client := c }).length = (schemaArrivals qc q).length := by omega
      rw [if_pos he]
      exact g.time d hd (by omega)

theorem arrived_end {ds : List SchemaData} {e : Collected} (he : ∀ d, e ≠ .msg d) :
    arrived (ds.map Collected.msg ++ [e]) = ds := by
  rw [← collect_arrived]
  induction ds with
  | nil =>
    cases e with
    | msg d => exact absurd rfl (he d)
    | _ => rfl
  | cons d ds ih => simp [collect, ih]

/-- The end of the task. -/
theorem over_of_end {qc : QCfg} {n quiet : Nat} {q : Query} {id : Nat} {r : BRx} {e : Collected}
    (inv : QInv qc n q quiet) (hsub : q.sub = some id) (g : Gathering qc q quiet id r) (ho : Orderly qc q) (hp : r.pending = [])
    (hn : n ≤ (schemaArrivals qc q).length) (he : ∀ d, e ≠ .msg d) :
    QInv qc n (collect_end q id q.client.subs e) quiet := by
  have hs : step qc.cfg q.client (.drop_multi id) = some { q.client with subs := multi_drop q.client.subs id } := rfl
  obtain ⟨ds, h1, h2⟩ := g.msgs
  have hc := g.count inv.reach ho.alone
  rw [hp] at hc
  refine ⟨reachable_step inv.reach hs, roomy_client hs inv.reach inv.roomy (by intro n h; cases h), ?_, ?_, ?_⟩
  · intro h
    have h : q.sub = none := h
    rw [hsub] at h; cases h
  · intro _ _ h; cases h
  · intro _
    refine ⟨r.got, ?_, ?_, ?_⟩
    · rw [schemaArrivals_eq]
      have hpre := (reachable_bcinv inv.reach).2.preD (noColB_of ho.alone) r (List.mem_iff_getElem?.mpr ⟨id, g.here⟩) g.lost
      rw [g.key, g.since] at hpre
      exact hpre.trans (topicFrames_mono hs)
    · simp only [List.length_nil, Nat.add_zero] at hc
      rw [hc]; exact hn
    · show (arrived (q.seen ++ [e])).map some = _
      rw [h1, arrived_end he]
      exact h2.symm

/-- The silence after a step. -/
def quietAfter (qc : QCfg) (l : QLabel) (q q' : Query) (k : Nat) : Nat :=
  match l with
  | .tick => k + 1
  | .subscribe => 0
  | _ => if (schemaArrivals qc q').length = (schemaArrivals qc q).length then k else 0

theorem qinv_client {qc : QCfg} {n k : Nat} {q : Query} {l : Label} {c : Client} (inv : QInv qc n q k)
    (hown : q.owns l = false) (h : step qc.cfg q.client l = some c) (ho : Orderly qc q)
    (ho' : Orderly qc { q with client := c }) (hd : ∀ d, l = .sub_multi qc.topic d → 64 ≤ d) :
    QInv qc n { q with client := c }
      (if (schemaArrivals qc { q with client := c }).length = (schemaArrivals qc q).length then k else 0) := by
  refine ⟨reachable_step inv.reach h, roomy_client h inv.reach inv.roomy hd, inv.before, ?_, ?_⟩
  · intro id hid he
    have hid : q.sub = some id := hid
    have he : q.ended = false := he
    obtain ⟨r, g⟩ := inv.gather id hid he
    refine gather_client g inv.reach inv.roomy h ?_ ?_ ho.alone (ho'.room he)
    · rintro rfl
      simp [Query.owns, hid] at hown
    · rintro rfl
      simp [Query.owns, hid] at hown
  · intro he
    obtain ⟨p, h1, h2, h3⟩ := inv.over he
    refine ⟨p, ?_, h2, h3⟩
    rw [schemaArrivals_eq] at h1 ⊢
    exact h1.trans (topicFrames_mono h)

theorem qinv_poll {qc : QCfg} {n k : Nat} {q : Query} {id : Nat} (inv : QInv qc n q k) (hid : q.sub = some id)
    (he : q.ended = false) (ho : Orderly qc q) (hp : PromptTo qc n q k) : QInv qc n (collect_poll qc q id) k := by
  obtain ⟨r, g⟩ := inv.gather id hid he
  have bi := (reachable_bcinv inv.reach).1
  have hmem : r ∈ q.client.bc.rx := List.mem_iff_getElem?.mpr ⟨id, g.here⟩
  have hmiss : r.missed = 0 := by
    have := bi.miss r hmem
    rw [g.lost] at this
    omega
  have hc := g.count inv.reach ho.alone
  have hlen := g.len
  obtain ⟨ds, h1, h2⟩ := g.msgs
  have hs : step qc.cfg q.client (.recv_multi id) = some { q.client with subs := (multi_recv q.client.subs id).2 } := rfl
  have hns : q.sub ≠ none := by rw [hid]; exact nofun
  rw [collect_poll]
  simp only [multi_recv, g.here, hmiss, Nat.lt_irrefl, if_false] at hs ⊢
  cases hpend : r.pending with
  | cons f fs =>
    simp only [hpend] at hs ⊢
    have hf : f ∈ schemaArrivals qc q := by
      rw [schemaArrivals_eq, ← g.key, ← g.since]
      exact (bi.sub r hmem).subset (by simp [hpend])
    obtain ⟨d, hd⟩ := Option.isSome_iff_exists.mp (ho.decodes f hf)
    simp only [hd]
    refine ⟨reachable_step inv.reach hs, roomy_client hs inv.reach inv.roomy (by intro n h; cases h), ?_, ?_, ?_⟩
    · intro h
      exact absurd h hns
    · intro id' hid' _
      have hid' : q.sub = some id' := hid'
      rw [hid] at hid'; cases hid'
      refine ⟨_, set_get_self g.here _, g.key, g.since, g.alive, g.lost, ⟨ds ++ [d], ?_, ?_⟩, ?_⟩
      · simp [h1]
      · simp [h2, hd]
      · intro d' hd' _
        cases hd'
        exact Nat.le_add_right _ _
    · intro h
      have h : q.ended = true := h
      rw [he] at h; cases h
  | nil =>
    simp only [hpend]
    split
    · rename_i e; split at e <;> cases e
    · rename_i e
      split at e
      · cases e
      · rename_i hany
        have : (multi_recv q.client.subs id).1 = some .IoClosed := by
          simp only [multi_recv, g.here, hmiss, Nat.lt_irrefl, if_false, hpend]
          rw [if_neg hany]
        have hio := c63_multi_ends_for_a_reason_partial inv.reach g.here g.alive ho.alone this
        cases e
        refine over_of_end inv hid g ho hpend ?_ (by intro d h; cases h)
        refine Nat.le_of_not_lt fun hlt => ?_
        obtain ⟨_, a, b⟩ := hp hns hlt
        rcases hio with h | h
        · exact a h
        · exact b h
    · rename_i e; split at e <;> cases e
    · rename_i e
      split at e
      · cases e
        split
        · rename_i hdl
          refine over_of_end inv hid g ho hpend ?_ (by intro d h; cases h)
          refine Nat.le_of_not_lt fun hlt => ?_
          obtain ⟨hq, _⟩ := hp hns hlt
          cases hdd : q.deadline with
          | none => rw [hdd] at hdl; simp at hdl; omega
          | some d =>
            rw [hdd] at hdl
            simp only [Option.getD_some] at hdl
            rw [hpend] at hc
            have := g.time d hdd (by simp at hc; omega)
            omega
        · refine ⟨inv.reach, inv.roomy, ?_, ?_, inv.over⟩
          · intro h; exact absurd h hns
          · intro id' hid' _
            have hid' : q.sub = some id' := hid'
            rw [hid] at hid'; cases hid'
            refine ⟨r, g.here, g.key, g.since, g.alive, g.lost, g.msgs, ?_⟩
            intro d hd hn
            have hd : some (q.deadline.getD (q.now + 100)) = some d := hd
            cases hdd : q.deadline with
            | none => 
              rw [hdd] at hd
              simp only [Option.getD_none, Option.some.injEq] at hd
              show q.now + 100 ≤ d + k
              omega
            | some d' =>
              rw [hdd] at hd
              simp only [Option.getD_some, Option.some.injEq] at hd
              exact g.time d (by rw [hdd, hd]) hn
      · cases e

theorem collect_end_arr (qc : QCfg) (q : Query) (id : Nat) (subs : Subs) (e : Collected)
    (h : subs.arrived = q.client.subs.arrived) : schemaArrivals qc (collect_end q id subs e) = schemaArrivals qc q := by
  show topicPart qc.topic q.begun (multi_drop subs id).arrived = topicPart qc.topic q.begun q.client.subs.arrived
  rw [multi_drop_arrived, h]

theorem collect_poll_arr (qc : QCfg) (q : Query) (id : Nat) :
    schemaArrivals qc (collect_poll qc q id) = schemaArrivals qc q := by
  have ha := multi_recv_arrived q.client.subs id
  rw [collect_poll]
  revert ha
  generalize multi_recv q.client.subs id = x
  obtain ⟨o, subs⟩ := x
  intro ha
  have ha : subs.arrived = q.client.subs.arrived := ha
  have same : topicPart qc.topic q.begun subs.arrived = topicPart qc.topic q.begun q.client.subs.arrived := by rw [ha]
  cases o with
  | none =>
    simp only
    split
    · exact collect_end_arr qc q id subs _ ha
    · rfl
  | some m =>
    cases m with
    | Ok f =>
      simp only
      cases qc.decode f.body <;> exact same
    | IoClosed => exact collect_end_arr qc q id subs _ ha
    | Lagged _ => exact collect_end_arr qc q id subs _ ha

theorem subscribe_multi_cases (s : Subs) (key : Key) (d : Nat) (id : Nat) (h : (subscribe_multi_inner s key d).1 = .Ok id) :
    ∃ b, (subscribe_multi_inner s key d).2.brxs[id]? = some ⟨b, [], 0, true, key, s.arrived.length, [], 0⟩ := by
  rw [subscribe_multi_inner] at h ⊢
  by_cases hst : s.stopped
  · rw [if_pos hst] at h; cases h
  · rw [if_neg hst] at h ⊢
    simp only at h ⊢
    cases hf : find_entry s.broadcast_list key with
    | some b =>
      simp only [hf] at h ⊢
      cases h
      exact ⟨b, by simp⟩
    | none =>
      simp only [hf] at h ⊢
      by_cases h0 : d = 0
      · rw [if_pos h0] at h; cases h
      · rw [if_neg h0] at h ⊢
        cases h
        exact ⟨s.bchans.length, by simp⟩

theorem qinv_step {qc : QCfg} {n k : Nat} {q q' : Query} {l : QLabel} (inv : QInv qc n q k) (h : q_step qc q l = some q')
    (ho : Orderly qc q) (ho' : Orderly qc q') (hp : PromptTo qc n q k)
    (hd : ∀ d, l = .client (.sub_multi qc.topic d) → 64 ≤ d) : QInv qc n q' (quietAfter qc l q q' k) := by
  cases l with
  | client l =>
    simp only [q_step] at h
    split at h
    · cases h
    · rename_i hown
      obtain ⟨c, hc, rfl⟩ := Option.map_eq_some_iff.mp h
      exact qinv_client inv (by simpa using hown) hc ho ho' (fun d e => hd d (by rw [e]))
  | tick =>
    simp only [q_step, Option.some.injEq] at h
    subst h
    refine ⟨inv.reach, inv.roomy, inv.before, ?_, inv.over⟩
    intro id hid he
    obtain ⟨r, g⟩ := inv.gather id hid he
    refine ⟨r, g.here, g.key, g.since, g.alive, g.lost, g.msgs, ?_⟩
    intro d hdl hn
    have := g.time d hdl hn
    show q.now + 1 + 100 ≤ d + (k + 1)
    omega
  | subscribe =>
    simp only [q_step] at h
    split at h
    · cases h
    · rename_i hno
      have hnone : q.sub = none := by
        cases hq : q.sub with
        | none => rfl
        | some x => exact absurd (Or.inl (by rw [hq]; rfl)) hno
      obtain ⟨hb1, hb2, hb3⟩ := inv.before hnone
      obtain ⟨c, hc, hq'⟩ := Option.map_eq_some_iff.mp h
      have hcs : c.subs = (subscribe_multi_inner q.client.subs qc.topic 64).2 := by
        simp only [step] at hc
        split at hc
        · rw [← Option.some.inj hc]
        · cases hc
      have hreach := reachable_step inv.reach hc
      have hroomy := roomy_client hc inv.reach inv.roomy (d := 64) (key := qc.topic) (by
        intro m e; cases e; exact Nat.le_refl _)
      have hcase := subscribe_multi_cases q.client.subs qc.topic 64
      revert hq'
      cases hres : (subscribe_multi_inner q.client.subs qc.topic 64).1 with
      | Ok id =>
        intro hq'
        subst hq'
        obtain ⟨b, hb⟩ := hcase id hres
        refine ⟨hreach, hroomy, (fun h => by cases h), ?_, ?_⟩
        · intro id' hid' _
          cases hid'
          refine ⟨_, by rw [hcs]; exact hb, rfl, rfl, rfl, rfl, ⟨[], by simp [hb1], rfl⟩, ?_⟩
          intro d hdl
          have hdl : q.deadline = some d := hdl
          rw [hb3] at hdl; cases hdl
        · intro he
          have he : q.ended = true := he
          rw [hb2] at he; cases he
      | _ =>
        intro hq'
        subst hq'
        refine ⟨hreach, hroomy, fun _ => ⟨hb1, hb2, hb3⟩, ?_, ?_⟩
        · intro id' hid' _
          have hid' : q.sub = some id' := hid'
          rw [hnone] at hid'; cases hid'
        · intro he
          have he : q.ended = true := he
          rw [hb2] at he; cases he
  | trigger =>
    simp only [q_step] at h
    split at h
    · obtain ⟨c, hc, rfl⟩ := Option.map_eq_some_iff.mp h
      have i := qinv_client inv rfl hc ho ⟨ho'.room, ho'.decodes, ho'.alone⟩ (by intro d e; cases e)
      refine ⟨i.reach, i.roomy, i.before, ?_, i.over⟩
      intro id hid he
      obtain ⟨r, g⟩ := i.gather id hid he
      exact ⟨r, g.here, g.key, g.since, g.alive, g.lost, g.msgs, g.time⟩
    · cases h
  | poll =>
    simp only [q_step] at h
    split at h
    · rename_i id hid
      split at h
      · cases h
      · rename_i he
        rw [← Option.some.inj h]
        have := qinv_poll inv hid (by simpa using he) ho hp
        simp only [quietAfter, collect_poll_arr, if_true]
        exact this
    · cases h

theorem q_run_append (qc : QCfg) (as bs : List QLabel) (q : Query) :
    q_run qc (as ++ bs) q = (q_run qc as q).bind (q_run qc bs) := by
  induction as generalizing q with
  | nil => rfl
  | cons l as ih =>
    rw [List.cons_append, q_run, q_run]
    cases q_step qc q l with
    | none => rfl
    | some q' => exact ih q'

theorem silence_snoc (qc : QCfg) (as : List QLabel) (l : QLabel) (q t t' : Query) (k : Nat) (h : q_run qc as q = some t)
    (hl : q_step qc t l = some t') :
    silence qc (as ++ [l]) q k = quietAfter qc l t t' (silence qc as q k) := by
  induction as generalizing q k with
  | nil =>
    cases h
    rw [List.nil_append]
    simp only [silence, hl]
    cases l <;> rfl
  | cons a as ih =>
    rw [q_run] at h
    rw [List.cons_append, silence, silence]
    cases hq : q_step qc q a with
    | none => rw [hq] at h; cases h
    | some q' =>
      rw [hq] at h
      exact ih q' _ h

theorem roomy_new (k : Key) (d : Nat) : Roomy k d Client.new.bc := by
  refine ⟨fun b h => ?_, fun r h => ?_⟩
  all_goals simp [Client.bc, Client.new, Subs.new] at h

theorem qinv_new (qc : QCfg) (n : Nat) : QInv qc n Query.new 0 :=
  ⟨⟨[], rfl⟩, roomy_new _ _, fun _ => ⟨rfl, rfl, rfl⟩, fun _ h => (by cases h), fun h => (by cases h)⟩

theorem qinv_run {qc : QCfg} {n : Nat} {ls : List QLabel} {q : Query} (h : q_run qc ls Query.new = some q)
    (ho : Throughout qc (fun q _ => Orderly qc q) ls) (hp : Throughout qc (PromptTo qc n) ls) (hd : DeepEnough qc ls) :
    QInv qc n q (silence qc ls Query.new 0) := by
  induction ls using snoc_induct generalizing q with
  | nil => cases h; exact qinv_new qc n
  | snoc ls l ih =>
    have hfull := h
    rw [q_run_append] at h
    obtain ⟨t, h1, h2⟩ := Option.bind_eq_some_iff.mp h
    have hl : q_step qc t l = some q := by
      rw [q_run] at h2
      cases hq : q_step qc t l with
      | none => rw [hq] at h2; cases h2
      | some q' => rw [hq] at h2; exact h2
    have i := ih h1 (fun as bs t e hr => ho as (bs ++ [l]) t (by rw [e, List.append_assoc]) hr)
      (fun as bs t e hr => hp as (bs ++ [l]) t (by rw [e, List.append_assoc]) hr)
      (fun m hm => hd m (List.mem_append_left _ hm))
    rw [silence_snoc qc ls l _ t q _ h1 hl]
    refine qinv_step i hl (ho ls [l] t rfl h1) (ho (ls ++ [l]) [] q (by simp) hfull) (hp ls [l] t rfl h1) ?_
    intro m e
    exact hd m (by simp [e])

end PRpc
