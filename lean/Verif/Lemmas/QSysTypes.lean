import Verif.Lemmas.QSysRun
/-! Helper lemmas for C91: what the query has collected is a beginning of what arrived. -/

namespace PRpc

open Spec Props

variable {V E SC Ctx : Type}

/-- Without a receive of its own a receiver counts every message it loses. -/
theorem step_brx_missed {cfg : Cfg} {s s' : Client} {l : Label} (h : step cfg s l = some s') {id : Nat} {r r' : BRx}
    (hl : l ≠ .recv_multi id) (hr : s.subs.brxs[id]? = some r) (hr' : s'.subs.brxs[id]? = some r') (hm : r.missed = r.lost) :
    r'.missed = r'.lost := by
  have same : s'.subs.brxs = s.subs.brxs → r'.missed = r'.lost := fun e => by
    rw [e, hr] at hr'; cases hr'; exact hm
  cases l with
  | in_lookup =>
    have harr : ∃ f, s'.subs.arrived = s.subs.arrived ++ [f] := by
      simp only [step, in_lookup] at h
      split at h
      · rename_i f hp hpol
        have ha := lookup_arrived cfg.zero s.subs f
        revert h ha
        generalize subs_lookup cfg.zero s.subs f = x
        obtain ⟨r1, r2⟩ := x
        intro h ha
        refine ⟨f, ?_⟩
        cases r1 <;> simp only [after_lookup] at h <;> cases h <;> exact ha
      · cases h
    obtain ⟨f, harr⟩ := harr
    have hb := step_bc h
    have key : ∀ e e', BStep e e' → e'.arr = e.arr ++ [f] → e.rx[id]? = some r → e'.rx[id]? = some r' → r'.missed = r'.lost := by
      intro e e' hb ha hr hr'
      cases hb with
      | arriveNone a x c r f' h => rw [hr] at hr'; cases hr'; exact hm
      | arriveDead a x c r f' k b h hl => rw [hr] at hr'; cases hr'; exact hm
      | arriveWait a x c r f' k b h hl => rw [hr] at hr'; cases hr'; exact hm
      | arriveOk a x c r0 f' k b h hl =>
        simp only at hr hr'
        rw [List.getElem?_map, hr, Option.map_some] at hr'
        cases hr'
        split
        · simp only [BRx.push]
          split
          · exact hm
          · exact congrArg (· + 1) hm
        · exact hm
      | _ => simp at ha
    exact key _ _ hb harr hr hr'
  | recv_multi j =>
    simp only [step] at h
    cases h
    simp only [multi_recv] at hr'
    have hne : id ≠ j := fun e => hl (by rw [e])
    split at hr'
    · rw [hr] at hr'; cases hr'; exact hm
    · split at hr'
      · rw [set_get_ne _ hne, hr] at hr'; cases hr'; exact hm
      · split at hr'
        · rw [set_get_ne _ hne, hr] at hr'; cases hr'; exact hm
        · split at hr' <;> (rw [hr] at hr'; cases hr'; exact hm)
  | drop_multi j =>
    simp only [step] at h
    cases h
    simp only [multi_drop] at hr'
    split at hr'
    · rw [hr] at hr'; cases hr'; exact hm
    · rename_i y hy
      by_cases e : id = j
      · subst e
        rw [hr] at hy; cases hy
        rw [set_get_self hr] at hr'; cases hr'
        exact hm
      · rw [set_get_ne _ e, hr] at hr'; cases hr'; exact hm
  | sub_multi key depth =>
    simp only [step] at h
    split at h
    · cases h
      have hlt : id < s.subs.brxs.length := (List.getElem?_eq_some_iff.mp hr).1
      revert hr'
      simp only [subscribe_multi_inner]
      repeat' split
      all_goals
        intro hr'
        first
        | (rw [hr] at hr'; cases hr'; exact hm)
        | (rw [List.getElem?_append_left hlt, hr] at hr'; cases hr'; exact hm)
    · cases h
  | in_full_send =>
    simp only [step, in_full_send] at h
    refine same ?_
    split at h
    · rename_i f i rm hp hpol
      have ha := try_send_brxs s.subs i f
      revert h ha
      generalize try_send s.subs i f = x
      obtain ⟨r1, r2⟩ := x
      intro h ha
      simp only at ha
      cases r1 <;> simp only [after_lookup] at h <;> cases h <;> simp [ha, retain_brxs]
    · cases h
  | in_full_timeout =>
    simp only [step, in_full_timeout, after_lookup] at h
    refine same ?_
    split at h
    · cases h; simp [retain_brxs, note_dropped_brxs]
    · cases h
  | _ =>
    simp only [step, send_resp_begin, call_reg_ok, call_reg_err, call_send, call_take, publish_raw_begin, pub_send,
      out_poll, out_recv, out_done, in_poll, in_recv, in_wake, Client.set_phase, Client.drop_waits, subs_purge, sub_drop,
      sub_recv, subscribe_inner, subscribe_inner_exclusive] at h
    repeat' split at h
    all_goals first
      | (cases h; done)
      | (cases h; exact same rfl)
      | (cases h; split at * <;> exact same rfl)
      | (cases h; refine same ?_; (repeat' split) <;> rfl)

/-- Receivers keep their topics, and what arrived stays. -/
theorem step_noCol {cfg : Cfg} {s s' : Client} {l : Label} (hr : Reachable cfg s) (h : step cfg s l = some s') (nc : NoColB s'.bc) :
    NoColB s.bc := by
  intro f hf r1 h1 r2 h2 m1 m2
  have keep : ∀ r ∈ s.bc.rx, ∃ r' ∈ s'.bc.rx, r'.key = r.key := by
    intro r hm
    obtain ⟨id, hid⟩ := List.mem_iff_getElem?.mp hm
    have hlen : id < s'.subs.brxs.length := by
      have h1 : id < s.subs.brxs.length := (List.getElem?_eq_some_iff.mp hid).1
      have : s.subs.brxs.length ≤ s'.subs.brxs.length := by
        have hb := step_bc h
        have aux : ∀ {e e' : Bc}, BStep e e' → e.rx.length ≤ e'.rx.length := by
          intro e e' hs
          cases hs <;> simp
        exact aux hb
      omega
    have h' : s'.subs.brxs[id]? = some s'.subs.brxs[id] := List.getElem?_eq_getElem hlen
    rcases lost_step (step_bc h) (reachable_bcinv hr).1 h' with ⟨h0, _⟩ | ⟨r0, g1, g2, _⟩
    · rw [hid] at h0; cases h0
    · rw [hid] at g1; cases g1
      exact ⟨_, List.mem_iff_getElem?.mpr ⟨id, h'⟩, g2.symm⟩
  obtain ⟨z1, g1, e1⟩ := keep r1 h1
  obtain ⟨z2, g2, e2⟩ := keep r2 h2
  rw [← e1, ← e2]
  exact nc f ((step_arr_pre h).subset hf) z1 g1 z2 g2 (by rw [e1]; exact m1) (by rw [e2]; exact m2)

/-- What the query took is a beginning of what arrived, unless subscribed topics collide. -/
structure PInv (qc : QCfg) (q : Query) : Prop where
  gather : ∀ id, q.sub = some id → q.ended = false → ∃ r, q.client.subs.brxs[id]? = some r ∧ r.missed = r.lost ∧
    (NoColB q.client.bc → r.got <+: schemaArrivals qc q)
  over : q.ended = true → NoColB q.client.bc → ∃ p, p <+: schemaArrivals qc q ∧ arrived q.seen = p.filterMap fun f => qc.decode f.body

theorem pinv_client {qc : QCfg} {q : Query} {l : Label} {c : Client} {call : Option Nat} (g : GInv qc q) (inv : PInv qc q)
    (hown : q.owns l = false) (h : step qc.cfg q.client l = some c) : PInv qc { q with client := c, call := call } := by
  have hmono : schemaArrivals qc q <+: schemaArrivals qc { q with client := c, call := call } := by
    rw [schemaArrivals_eq, schemaArrivals_eq]
    exact topicFrames_mono h
  refine ⟨fun id hid he => ?_, fun he nc => ?_⟩
  · have hid : q.sub = some id := hid
    obtain ⟨r, h1, h2, h3⟩ := inv.gather id hid he
    have hl : l ≠ .recv_multi id := fun e => by rw [e] at hown; simp [Query.owns, hid] at hown
    have hl' : l ≠ .drop_multi id := fun e => by rw [e] at hown; simp [Query.owns, hid] at hown
    obtain ⟨r', hr', _⟩ := step_brx_alive h hl' h1
    have hgot : r'.got = r.got := by
      have := step_gotM h id
      rw [stepOutM_nil hl, List.append_nil, Subs.gotM, Subs.gotM, hr', h1] at this
      simpa using this
    exact ⟨r', hr', step_brx_missed h hl h1 hr' h2, fun nc => by rw [hgot]; exact (h3 (step_noCol g.reach h nc)).trans hmono⟩
  · obtain ⟨p, h1, h2⟩ := inv.over he (step_noCol g.reach h nc)
    exact ⟨p, h1.trans hmono, h2⟩

theorem pinv_poll {qc : QCfg} {q : Query} {id : Nat} (g : GInv qc q) (inv : PInv qc q) (hid : q.sub = some id) (he : q.ended = false) :
    PInv qc (collect_poll qc q id) := by
  obtain ⟨r, h1, h2, h3⟩ := inv.gather id hid he
  obtain ⟨r0, c⟩ := g.gather id hid he
  have := c.here
  rw [h1] at this; cases this
  have hrecv : step qc.cfg q.client (.recv_multi id) = some { q.client with subs := (multi_recv q.client.subs id).2 } := rfl
  have harr := multi_recv_arrived q.client.subs id
  have hend : ∀ (subs : Subs) (e : Collected), subs = (multi_recv q.client.subs id).2 → (∀ d, e ≠ .msg d) → PInv qc (collect_end q id subs e) := by
    intro subs e hs hne
    subst hs
    have hd : step qc.cfg { q.client with subs := (multi_recv q.client.subs id).2 } (.drop_multi id) =
      some { q.client with subs := multi_drop (multi_recv q.client.subs id).2 id } := rfl
    refine ⟨(fun _ _ h => nomatch h), fun _ nc => ⟨r.got, ?_, ?_⟩⟩
    · rw [collect_end_arr qc q id _ e harr]
      exact h3 (step_noCol g.reach hrecv (step_noCol (reachable_step g.reach hrecv) hd nc))
    · show arrived (q.seen ++ [e]) = _
      rw [c.msgs, arrived_end hne]
  rw [collect_poll]
  cases hx : multi_recv q.client.subs id with
  | mk x1 x2 =>
    have hx2 : x2 = (multi_recv q.client.subs id).2 := by rw [hx]
    cases x1 with
    | none =>
      simp only
      split
      · exact hend x2 _ hx2 nofun
      · exact ⟨inv.gather, inv.over⟩
    | some y =>
      cases y with
      | IoClosed => exact hend x2 _ hx2 nofun
      | Lagged n => exact hend x2 _ hx2 nofun
      | Ok f =>
        simp only
        have hreach := reachable_step g.reach hrecv
        rw [hx] at hreach
        have keep : ∀ (seen : List Collected) dl, PInv qc { q with client := { q.client with subs := x2 }, seen := seen, deadline := dl } := by
          intro seen dl
          refine ⟨fun id' hid' _ => ?_, fun h => ?_⟩
          · have hid' : q.sub = some id' := hid'
            rw [hid] at hid'; cases hid'
            simp only [multi_recv, h1] at hx
            split at hx
            · cases hx
            · rename_i hz
              have hz0 : r.missed = 0 := by omega
              split at hx
              · rename_i f' qq hq
                cases hx
                refine ⟨_, set_get_self h1 _, h2, fun nc => ?_⟩
                have := (reachable_bcinv hreach).2.preD nc { r with pending := qq, got := r.got ++ [f] }
                  (List.mem_iff_getElem?.mpr ⟨id, set_get_self h1 _⟩) (by rw [← h2, hz0])
                rw [schemaArrivals_eq]
                rw [c.key, c.since] at this
                exact this
              · split at hx <;> cases hx
          · have h : q.ended = true := h
            rw [he] at h; cases h
        cases qc.decode f.body with
        | none => exact keep _ _
        | some d => exact keep _ _

theorem pinv_step {qc : QCfg} {q q' : Query} {l : QLabel} (g : GInv qc q) (inv : PInv qc q) (h : q_step qc q l = some q') : PInv qc q' := by
  cases l with
  | client l =>
    simp only [q_step] at h
    split at h
    · cases h
    · rename_i hown
      obtain ⟨c, hc, rfl⟩ := Option.map_eq_some_iff.mp h
      exact pinv_client g inv (by simpa using hown) hc
  | tick =>
    simp only [q_step, Option.some.injEq] at h
    subst h
    exact ⟨inv.gather, inv.over⟩
  | subscribe =>
    simp only [q_step] at h
    split at h
    · cases h
    · rename_i hno
      have hnone : q.sub = none := by
        cases hq : q.sub with
        | none => rfl
        | some x => exact absurd (Or.inl (by rw [hq]; rfl)) hno
      obtain ⟨hb1, hb2, hb3⟩ := g.before hnone
      obtain ⟨c, hc, hq'⟩ := Option.map_eq_some_iff.mp h
      have hcs : c.subs = (subscribe_multi_inner q.client.subs qc.topic 64).2 := by
        simp only [step] at hc
        split at hc
        · rw [← Option.some.inj hc]
        · cases hc
      have hcase := subscribe_multi_cases q.client.subs qc.topic 64
      revert hq'
      cases hres : (subscribe_multi_inner q.client.subs qc.topic 64).1 with
      | Ok id =>
        intro hq'
        subst hq'
        obtain ⟨b, hb⟩ := hcase id hres
        refine ⟨fun id' hid' _ => ?_, fun he => ?_⟩
        · cases hid'
          exact ⟨_, by rw [hcs]; exact hb, rfl, fun _ => List.nil_prefix⟩
        · have he : q.ended = true := he
          rw [hb2] at he; cases he
      | _ =>
        intro hq'
        subst hq'
        refine ⟨fun id' hid' _ => ?_, fun he => ?_⟩
        · have hid' : q.sub = some id' := hid'
          rw [hnone] at hid'; cases hid'
        · have he : q.ended = true := he
          rw [hb2] at he; cases he
  | trigger =>
    simp only [q_step] at h
    split at h
    · obtain ⟨c, hc, rfl⟩ := Option.map_eq_some_iff.mp h
      exact pinv_client g inv rfl hc
    · cases h
  | poll =>
    simp only [q_step] at h
    split at h
    · rename_i id hid
      split at h
      · cases h
      · rename_i he
        rw [← Option.some.inj h]
        exact pinv_poll g inv hid (by simpa using he)
    · cases h

theorem pinv_new (qc : QCfg) : PInv qc Query.new := ⟨(fun _ h => nomatch h), (fun h => nomatch h)⟩

theorem pinv_run {a : App V E SC Ctx} {Q : QSysCfg V E SC Ctx} (x : SchemasCtx a Q.S) {ls : List (QSLabel V)} {y y' : QSys V E SC Ctx}
    (inv : QSInv a Q y) (pinv : PInv Q.qc y.q) (h : qs_run Q ls y = some y') (hu : ∀ l ∈ ls, ReportUsed a l) : PInv Q.qc y'.q := by
  induction ls generalizing y with
  | nil => cases h; exact pinv
  | cons l ls ih =>
    simp only [qs_run] at h
    split at h
    · rename_i y1 h1
      have hul := hu l (List.mem_cons_self ..)
      refine ih (qsInv_step x inv h1 hul) ?_ h fun l hm => hu l (List.mem_cons_of_mem _ hm)
      rcases (qs_split x inv.same h1 hul).2.2 with e | ⟨ql, _, hq, _⟩
      · rw [e]; exact pinv
      · exact pinv_step inv.col pinv hq
    · cases h

theorem filterMap_of_some {α β : Type} {f : α → Option β} {l : List α} {m : List β} (h : l.map f = m.map some) : l.filterMap f = m := by
  have : l.filterMap f = (l.map f).filterMap id := by rw [List.filterMap_map]; rfl
  rw [this, h, List.filterMap_map]
  exact List.filterMap_some

/-- What the query collected is a beginning of the server's items, if the server says that no send of an item failed. -/
theorem collected_prefix {a : App V E SC Ctx} {Q : QSysCfg V E SC Ctx} (x : SchemasCtx a Q.S) (hr : HostReads Q) {y : QSys V E SC Ctx}
    (inv : QSInv a Q y) (pinv : PInv Q.qc y.q) (hlen : y.q.client.calls.length < 2 ^ 32) (he : y.q.ended = true) (nc : NoSharedMulti y.q.client)
    {p : Nat × Nat} (hjt : SchInv Q.S y.s [p]) (h0 : p.2 = 0) :
    arrived y.q.seen <+: schemaMsgs Q.S.disp.device_map := by
  obtain ⟨z, hz⟩ := inv.ord
  obtain ⟨os, hos, _⟩ := hz.fed
  obtain ⟨q, hq, hseen⟩ := pinv.over he (noColB_of nc)
  have hw := hjt.clean (by simpa using h0)
  have got := hz.got
  rw [inv.same, Client.arrNow] at got
  obtain ⟨z1, z2, e1, e2, _⟩ := List.filterMap_eq_append_iff.mp got.symm
  have hmem : ∀ p ∈ z1, p.1 ∈ y.s.outs := by
    intro p hp
    rw [hos, e1]
    exact List.mem_append_left _ (List.mem_map.mpr ⟨p, List.mem_append_left _ hp, rfl⟩)
  have hdrop : schemaArrivals Q.qc y.q = (z1.filterMap (·.2)).filter fun f => decide (OfTopic Q.qc.topic f) := by
    rw [schemaArrivals, topicPart, e2]
    have hsplit := List.take_append_drop y.q.begun y.q.client.subs.arrived
    have hn : (y.q.client.subs.arrived.take y.q.begun).filter (fun f => decide (OfTopic Q.qc.topic f)) = [] :=
      List.filter_eq_nil_iff.mpr fun f hf => by simpa using inv.fresh.2 f hf
    rw [← hsplit, List.filter_append, hsplit, hn, List.nil_append]
  have hex := item_exact (Q := Q) (ofS := ofSchemas Q.S.disp.std Q.S.kkind) (T := fun f => decide (OfTopic Q.qc.topic f)) (z := z1) fun p hp =>
    item_fate x hr inv.sys hjt (hmem p hp) (hz.fate p (by rw [e1]; exact List.mem_append_left _ hp))
      (hw _ (List.mem_append_left _ (hmem p hp)))
  rw [← hdrop] at hex
  have hitems : ((z1.map (·.1)).filter (ofSchemas Q.S.disp.std Q.S.kkind)).filterMap itemOf <+: schemaMsgs Q.S.disp.device_map := by
    have hsent := hjt.sent
    rw [List.flatMap_cons, List.flatMap_nil, List.append_nil] at hsent
    rw [← dump_items (V := V) (schemaMsgs Q.S.disp.device_map) (dumpTotals Q.S.disp.device_map p.2), ← hsent, ← bodies_items, hos, e1]
    simp only [List.map_append, List.filter_append, List.filterMap_append, List.append_assoc]
    exact List.prefix_append _ _
  rw [hseen]
  refine List.IsPrefix.trans ?_ hitems
  rw [← filterMap_of_some hex]
  exact hq.filterMap _

/-- The types come first: a beginning of the dump with an endpoint in it has all types. -/
theorem all_types {m : DeviceMap} {p : List SchemaData} (h : p <+: schemaMsgs m) (hne : epRows p ≠ []) : tyRows p = m.types := by
  have ht : m.types.map SchemaData.Type <+: schemaMsgs m := by
    simp only [schemaMsgs, List.append_assoc]
    exact List.prefix_append _ _
  have hrow : tyRows (m.types.map SchemaData.Type) = m.types := by simp [tyRows, List.filterMap_map, Function.comp_def]
  rcases List.prefix_or_prefix_of_prefix h ht with h1 | h1
  · refine absurd ?_ hne
    have := (rows_sublist h1.sublist).1
    rw [show epRows (m.types.map SchemaData.Type) = [] by simp [epRows, List.filterMap_map, Function.comp_def]] at this
    exact List.sublist_nil.mp this
  · have ha := (rows_sublist h.sublist).2.2.2
    have hb := (rows_sublist h1.sublist).2.2.2
    rw [(rows_schemaMsgs m).2.2.2] at ha
    rw [hrow] at hb
    exact ha.eq_of_length (Nat.le_antisymm ha.length_le hb.length_le)

/-- What a query that returned a report had to go by. -/
theorem result_parts {W : Type} {q : Query} {qc : QCfg} {decode_err : Bytes → Option W} {hash : Bytes → Nty → Key}
    {iter : List Nty → List Nty} {prims : List Nty} {r : SchemaReport} (h : q.result qc decode_err hash iter prims = some (.ok (.ok r))) :
    ∃ c cl f i t, q.call = some c ∧ q.client.calls[c]? = some cl ∧ cl.phase = .done (.Resp f i) ∧ qc.decode_totals f.body = some t ∧
      q.ended = true ∧ get_schema_report (.Closed : HostRes Unit W) hash iter prims true (.ok t) (some q.seen) = .ok (.ok r) := by
  simp only [Query.result] at h
  split at h
  · simp [get_schema_report] at h
  · split at h
    · cases h
    · rename_i c hc
      split at h
      · cases h
      · rename_i cl hcl
        split at h
        · rename_i res hph
          split at h
          · rename_i he
            cases res with
            | Resp f i =>
              simp only [finish_call] at h
              cases hd : qc.decode_totals f.body with
              | none => rw [hd] at h; simp [trigger_res, get_schema_report] at h
              | some t =>
                rw [hd] at h
                exact ⟨c, cl, f, i, t, hc, hcl, hph, hd, he, Option.some.inj h⟩
            | ErrResp f i =>
              simp only [finish_call] at h
              split at h <;> simp [trigger_res, get_schema_report] at h
            | Closed => simp [finish_call, trigger_res, get_schema_report] at h
            | BadResponse => simp [finish_call, trigger_res, get_schema_report] at h
          · cases h
        · cases h

end PRpc
