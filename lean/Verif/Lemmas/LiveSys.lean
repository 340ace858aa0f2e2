import Verif.Lemmas.Live
import Verif.Props.ClientSubs
/-!
Helper lemmas for C67: the invariant that somebody is in charge of every answer a waiting call has not got yet.
-/

namespace PRpc

open Spec

variable {V E SC Ctx : Type}

/-- The header is that of an answer to the call. -/
def AnsH (S : SysCfg V E SC Ctx) (cl : Call) (h : VarHeader) : Prop :=
  ∃ err, keyBytes h.key = short (keyLen S.kkind) (wantKey S.cfg cl err) ∧ seqVal h.seq_no = seqVal cl.rqst.header.seq_no

/-- Where the answer of a waiting call is, or will come from. -/
inductive Owed (S : SysCfg V E SC Ctx) (s : Sys V E SC Ctx) (c : Nat) (cl : Call) (k : VarKeyKind) : Prop where
  | queued (j : Nat) : s.taken ≤ j → s.client.enq[j]? = some (cl.rqst.shrink k) → Owed S s c cl k
  | pending (o : Out V) : o ∈ s.pending → o.cut = none → AnsH S cl o.frame.hdr → Owed S s c cl k
  | task (i j : Nat) (t : Task V SC) (h : EpHandler V Ctx) : s.tasks[i]? = some (j, t) → s.old ≤ i → t.role = .endpoint →
      S.disp.eps.find? (fun h => h.name = t.name) = some h → h.resp = cl.resp_key →
      seqVal t.hdr.seq_no = seqVal cl.rqst.header.seq_no → ¬ Replied s i → Owed S s c cl k
  | air (fr : Frame V) (b : Bytes) : b ∈ s.air → frame_bytes S.enc fr = .ok b → AnsH S cl fr.hdr → Owed S s c cl k
  | held (f : RpcFrame) : s.client.in_pc = .lookup f ∨ s.client.in_pc = .wake f → AnsH S cl f.header → Owed S s c cl k
  | handed (w : Woken) : w ∈ s.client.woken → w.id.call = c → Owed S s c cl k

structure LiveInv (a : App V E SC Ctx) (S : SysCfg V E SC Ctx) (s : Sys V E SC Ctx) : Prop where
  up : s.up = true
  le : s.taken ≤ s.client.tx.length
  old : s.old ≤ s.tasks.length
  keysX : ∀ e ∈ s.client.subs.exclusive_list, ∃ t ∈ a.topic_out_list.topics, t.key = e.1
  keysB : ∀ e ∈ s.client.subs.broadcast_list, ∃ t ∈ a.topic_out_list.topics, t.key = e.1
  pend : ∀ o ∈ s.pending, ∃ j, o.src = .req j
  owed : s.client.stopped = false → ∀ (c : Nat) cl k, s.client.calls[c]? = some cl → cl.phase = .waiting k → Owed S s c cl k
  ended : s.client.stopped = false → ∀ (c : Nat) cl r, s.client.calls[c]? = some cl → cl.phase = .done r →
    r ≠ .Closed ∧ r ≠ .BadResponse

theorem liveInv_reconnect (a : App V E SC Ctx) (S : SysCfg V E SC Ctx) (s : Sys V E SC Ctx) : LiveInv a S s.reconnect where
  up := rfl
  le := Nat.le_refl _
  old := Nat.le_refl _
  keysX := by intro e h; simp [Sys.reconnect, Client.new, Subs.new] at h
  keysB := by intro e h; simp [Sys.reconnect, Client.new, Subs.new] at h
  pend := by intro o h; cases h
  owed := by intro _ c cl k h; simp [Sys.reconnect, Client.new] at h
  ended := by intro _ c cl k h; simp [Sys.reconnect, Client.new] at h

theorem liveInv_new (a : App V E SC Ctx) (S : SysCfg V E SC Ctx) (c : Ctx) : LiveInv a S (Sys.new c) where
  up := rfl
  le := Nat.le_refl _
  old := Nat.le_refl _
  keysX := by intro e h; simp [Sys.new, Client.new, Subs.new] at h
  keysB := by intro e h; simp [Sys.new, Client.new, Subs.new] at h
  pend := by intro o h; cases h
  owed := by intro _ c cl k h; simp [Sys.new, Client.new] at h
  ended := by intro _ c cl k h; simp [Sys.new, Client.new] at h

/-! ### The server takes a request -/

theorem task_index {a : App V E SC Ctx} {S : SysCfg V E SC Ctx} {s : Sys V E SC Ctx} (inv : SysInvR a S s) {i : Nat}
    (h : Replied s i) : i < s.tasks.length := by
  obtain ⟨o, ho, e⟩ := h
  have := inv.outs o ho
  unfold OutOk at this
  rw [e] at this
  obtain ⟨j, t, _, _, h1, _⟩ := this
  exact (List.getElem?_eq_some_iff.mp h1).1

/-- The frame the server takes next. -/
theorem tx_of_enq {cfg : Cfg} {s : Client} (hr : Reachable cfg s) {j : Nat} {b : Bytes} {f : RpcFrame} (h : s.tx[j]? = some b)
    (hf : s.enq[j]? = some f) : VarHeader.take_from_slice b = .ok (some (f.header, f.body)) := by
  obtain ⟨pre, rest, e1, e2, _⟩ := reachable_outInv hr
  have h1 : (s.tx.map Exec.ok)[j]? = some (.ok b) := by rw [List.getElem?_map, h]; rfl
  rw [← e2, List.getElem?_map, Option.map_eq_some_iff] at h1
  obtain ⟨g, a, hb⟩ := h1
  have : s.enq[j]? = some g := by rw [e1, List.getElem?_append_left (List.getElem?_eq_some_iff.mp a).1, a]
  rw [hf] at this
  cases this
  rw [RpcFrame.to_bytes, write_to_vec_eq] at hb
  cases hb
  exact take_enc _ _

theorem serve_owed {a : App V E SC Ctx} {S : SysCfg V E SC Ctx} {s s' : Sys V E SC Ctx} (hD : Dispatches a S.disp)
    (hdecl : Declared a S.kkind) (hfit : Fits a S) (inv : SysInvR a S s) (hold : s.old ≤ s.tasks.length) (h : serve S s = some s') {c : Nat} {cl : Call}
    {k : VarKeyKind} (hc : s.client.calls[c]? = some cl)
    (he : s.client.enq[s.taken]? = some (cl.rqst.shrink k)) : Owed S s' c cl k := by
  obtain ⟨⟨⟨_, hin, hstd, heps, htps⟩, din⟩, hans1⟩ := id hD
  obtain ⟨b, _, _, hb, _⟩ := serve_cases h
  obtain ⟨srv, rfl, hpend, hans⟩ := serve_answers hfit.sends h hb
  have hans := hans _ _ (tx_of_enq inv.reach hb he)
  obtain ⟨r, hr, ek, er⟩ := inv.calls c cl hc
  have erx : LongEnough S.disp (cl.rqst.shrink k).header →
      rxShort S.disp (cl.rqst.shrink k).header = short (keyLen S.disp.n) r.req :=
    fun hl => rxShort_of_long hl (shrink8_key _ _ ek)
  have hseq : (cl.rqst.shrink k).header.seq_no = cl.rqst.header.seq_no := rfl
  have row : ∀ r' ∈ a.endpoint_list.endpoints, LongEnough S.disp (cl.rqst.shrink k).header →
      rxShort S.disp (cl.rqst.shrink k).header = short (keyLen S.disp.n) r'.req → r'.resp = cl.resp_key := by
    intro r' hr' hl e
    rw [er]
    exact hans1 r' hr' r hr (apart_eq din (List.mem_append_left _ (List.mem_map.mpr ⟨r', hr', rfl⟩))
      (List.mem_append_left _ (List.mem_map.mpr ⟨r, hr, rfl⟩)) (e.symm.trans (erx hl)))
  cases hans with
  | err e o fr hm hmsg =>
    refine .pending ⟨.req s.taken, fr, none⟩ (sent_ok_of_mem hm) rfl ⟨true, ?_, ?_⟩
    · rw [hmsg.key, hstd, ← hfit.err_key]; rfl
    · rw [hmsg.seq, hseq]
  | resp req resp b o fr hm hmsg hl erx' hwho =>
    refine .pending ⟨.req s.taken, fr, none⟩ (sent_ok_of_mem hm) rfl ⟨false, ?_, ?_⟩
    · have : resp = cl.resp_key := by
        rcases hwho with ⟨e1, e2⟩ | ⟨e1, e2⟩ | ⟨g, hg, e1, e2⟩
        · obtain ⟨r', hr', f1, f2⟩ := hdecl.ping
          rw [e2, hstd, ← f2]
          exact row r' hr' hl (by rw [erx', e1, hstd, ← f1])
        · obtain ⟨r', hr', f1, f2⟩ := hdecl.schemas
          rw [e2, hstd, ← f2]
          exact row r' hr' hl (by rw [erx', e1, hstd, ← f1])
        · rw [heps] at hg
          obtain ⟨r', hr', f1, f2⟩ := hfit.handled g hg
          rw [← e2, ← f2]
          exact row r' hr' hl (by rw [erx', ← e1, ← f1])
      rw [hmsg.key, this]; rfl
    · rw [hmsg.seq, hseq]
  | task t g hm hrole hhdr hg hname hl erx' =>
    have hresp : g.resp = cl.resp_key := by
      have hg' := hg
      rw [heps] at hg'
      obtain ⟨r', hr', f1, f2⟩ := hfit.handled g hg'
      rw [← f2]
      exact row r' hr' hl (by rw [erx', f1])
    have hfind : S.disp.eps.find? (fun h => h.name = t.name) = some g := by
      cases hf : S.disp.eps.find? (fun h => h.name = t.name) with
      | none =>
        have := List.find?_eq_none.mp hf g hg
        simp [hname] at this
      | some g' =>
        have hn : g'.name = t.name := by simpa using List.find?_some hf
        rw [nodup_names (by rw [heps]; exact hdecl.names) (List.mem_of_find?_eq_some hf) hg (hn.trans hname.symm)]
    obtain ⟨i, hi⟩ := List.mem_iff_getElem?.mp (spawned_ok_of_mem (j := s.taken) hm)
    refine .task (s.tasks.length + i) s.taken t g ?_ (Nat.le_trans hold (Nat.le_add_right _ _)) hrole hfind hresp (by rw [hhdr, hseq]) ?_
    · show (s.tasks ++ _)[_]? = _
      rw [List.getElem?_append_right (Nat.le_add_right _ _), Nat.add_sub_cancel_left]
      exact hi
    · intro hrep
      have := task_index inv (i := s.tasks.length + i) hrep
      omega
  | topic g hg hfor =>
    rw [htps] at hg
    refine absurd ((erx hfor.long).symm.trans hfor.here) (apart_parts din (List.mem_map.mpr ⟨r, hr, rfl⟩) (hin g.key (List.mem_map.mpr ⟨g, hg, rfl⟩)))

/-! ### Registering never fails -/

theorem typed_of {a : App V E SC Ctx} {S : SysCfg V E SC Ctx} {s : Sys V E SC Ctx} (inv : SysInv a S s) :
    ∀ cl ∈ s.client.calls, cl.typed = true := by
  intro x hx
  obtain ⟨n, hn⟩ := List.mem_iff_getElem?.mp hx
  exact inv.typed n x hn

theorem numbers_get {s : Client} {c : Nat} {cl : Call} (h : s.calls[c]? = some cl) :
    (numbers s)[c]? = some (seqVal cl.rqst.header.seq_no) := by
  rw [numbers, List.getElem?_map, h]; rfl

theorem nodup_get {α : Type} {l : List α} (h : l.Nodup) {i j : Nat} {a : α} (hi : l[i]? = some a) (hj : l[j]? = some a) : i = j := by
  induction l generalizing i j with
  | nil => cases hi
  | cons x l ih =>
    rw [List.nodup_cons] at h
    cases i with
    | zero =>
      cases j with
      | zero => rfl
      | succ j => cases hi; exact absurd (List.mem_iff_getElem?.mpr ⟨j, hj⟩) h.1
    | succ i =>
      cases j with
      | zero => cases hj; exact absurd (List.mem_iff_getElem?.mpr ⟨i, hi⟩) h.1
      | succ j => exact congrArg _ (ih h.2 hi hj)

theorem nodup_of_get {α : Type} {l : List α} (h : ∀ (i j : Nat) (a : α), l[i]? = some a → l[j]? = some a → i = j) : l.Nodup := by
  induction l with
  | nil => exact .nil
  | cons x l ih =>
    rw [List.nodup_cons]
    refine ⟨fun hm => ?_, ih fun i j a hi hj => Nat.succ.inj (h (i + 1) (j + 1) a hi hj)⟩
    obtain ⟨n, hn⟩ := List.mem_iff_getElem?.mp hm
    cases h 0 (n + 1) x rfl hn

/-- Calls with different numbers. -/
theorem numbers_ne {s : Client} (hn : (numbers s).Nodup) {c c' : Nat} {cl cl' : Call} (h : s.calls[c]? = some cl)
    (hne : c' ≠ c) (h' : s.calls[c']? = some cl') : seqVal cl'.rqst.header.seq_no ≠ seqVal cl.rqst.header.seq_no := by
  intro e
  refine hne (nodup_get hn (numbers_get h') ?_)
  rw [e]; exact numbers_get h

/-- Typed calls have different numbers. -/
theorem typed_numbers {a : App V E SC Ctx} {S : SysCfg V E SC Ctx} {s : Sys V E SC Ctx} (inv : SysInv a S s)
    (hn : s.client.calls.length < 2 ^ 32) : (numbers s.client).Nodup := by
  refine nodup_of_get fun i j x hi hj => ?_
  rw [numbers, List.getElem?_map, Option.map_eq_some_iff] at hi hj
  obtain ⟨cl, h1, e1⟩ := hi
  obtain ⟨cl', h2, e2⟩ := hj
  refine Classical.byContradiction fun hne => ?_
  exact Props.c37_sequence_condition inv.reach (typed_of inv) hn h2 i cl hne h1 (by rw [e1, e2])

theorem step_numbers {cfg : Cfg} {s s' : Client} {l : Label} (h : step cfg s l = some s') : numbers s <+: numbers s' := by
  have e0 : ∀ (l : List Call), l.map (fun cl => seqVal cl.rqst.header.seq_no) = (l.map Call.sig).map fun x => seqVal x.1.header.seq_no := by
    intro l; rw [List.map_map]; rfl
  rcases coreStep_sig (step_core h) with e | ⟨x, e, _⟩
  · have e : s'.calls.map Call.sig = s.calls.map Call.sig := e
    rw [numbers, numbers, e0, e0, e]
    exact List.prefix_rfl
  · have e : s'.calls = s.calls ++ [x] := e
    rw [numbers, numbers, e, List.map_append]
    exact List.prefix_append ..

theorem sys_step_numbers {S : SysCfg V E SC Ctx} {s s' : Sys V E SC Ctx} {l : SLabel V} (h : sys_step S s l = some s') :
    numbers s.client <+: numbers s'.client := by
  rcases sys_step_client h with e | ⟨_, _, h⟩
  · rw [e]; exact List.prefix_rfl
  · exact step_numbers h

theorem sys_run_numbers {S : SysCfg V E SC Ctx} {ls : List (SLabel V)} {s s' : Sys V E SC Ctx} (h : sys_run S ls s = some s') :
    numbers s.client <+: numbers s'.client := by
  induction ls generalizing s with
  | nil => cases h; exact List.prefix_rfl
  | cons l ls ih =>
    simp only [sys_run] at h
    split at h
    · rename_i s1 hs
      exact (sys_step_numbers hs).trans (ih h)
    · cases h

theorem prefix_nodup {α : Type} {l l' : List α} (h : l <+: l') (hn : l'.Nodup) : l.Nodup := h.sublist.nodup hn

theorem reg_ok_free {cfg : Cfg} {s : Client} (hr : Reachable cfg s)
    (hn : (numbers s).Nodup) {c : Nat} {cl : Call} {k : VarKeyKind} (hc : s.calls[c]? = some cl) (hp : cl.phase = .kinded k) :
    map_enqueue s.map ⟨c, false⟩ (cl.ok_hdr k) ≠ none := by
  intro h
  obtain ⟨⟨id, hd⟩, hx, he⟩ := map_enqueue_none h
  obtain ⟨cl2, k2, g1, g2, g3, _⟩ := (reachable_coreInv hr).mapOk id hd hx
  have g1 : s.calls[id.call]? = some cl2 := g1
  simp only [g3] at he
  have hs := ((waitHdr_answers cfg cl2 k2 id.err _).mp he).seq
  by_cases e : id.call = c
  · rw [e, hc] at g1
    cases g1
    rw [hp] at g2
    cases g2
  · exact numbers_ne hn hc e g1 hs.symm

theorem reg_err_free {a : App V E SC Ctx} {S : SysCfg V E SC Ctx} {s : Sys V E SC Ctx} (hD : Dispatches a S.disp)
    (hdecl : Declared a S.kkind) (hfit : Fits a S) (inv : SysInvR a S s) (hn : (numbers s.client).Nodup) {c : Nat} {cl : Call}
    {k : VarKeyKind} (hc : s.client.calls[c]? = some cl) (hp : cl.phase = .half k) :
    map_enqueue s.client.map ⟨c, true⟩ (cl.err_hdr S.cfg k) ≠ none := by
  intro h
  obtain ⟨⟨id, hd⟩, hx, he⟩ := map_enqueue_none h
  obtain ⟨cl2, k2, g1, g2, g3, _⟩ := (reachable_coreInv inv.reach).mapOk id hd hx
  have g1 : s.client.calls[id.call]? = some cl2 := g1
  simp only [g3] at he
  have ha := (waitHdr_answers S.cfg cl2 k2 id.err _).mp he
  by_cases e : id.call = c
  · rw [e, hc] at g1
    cases g1
    rw [hp] at g2
    cases hie : id.err with
    | true => rw [hie] at g2; cases g2
    | false =>
      rw [hie] at g2 ha
      cases g2
      have hk := (consist_kinds inv.reach (sys_consist hD hdecl inv)).2 c cl k hc (by rw [hp]; rfl)
      have hlen : (keyBytes ((VarKey.Key8 S.cfg.err_key).shrink_to k)).length = keyLen k := by
        rw [← kind_len, kind_of_shrink8]
      have key := ha.key
      simp only [KeyAgrees, Call.err_hdr, hlen, Nat.min_self] at key
      have hs := fold_self ((VarKey.Key8 S.cfg.err_key).shrink_to k)
      rw [hlen] at hs
      rw [hs, Props.shrink_bytes8, hfit.err_key] at key
      have key : short (keyLen k) a.std.error = short (keyLen k) cl.resp_key := key
      obtain ⟨r, hr, _, er⟩ := inv.calls c cl hc
      have hne := hfit.resp_err r hr
      rw [← er] at hne
      rcases hk with rfl | rfl
      · refine hne (short_mono ?_ ?_ (keyLen_le _) key.symm)
        · cases S.kkind <;> simp [KeySize, keyLen]
        · simp [KeySize]
      · exact hne key.symm
  · exact numbers_ne hn hc e g1 ha.seq.symm

/-! ### The client's steps -/

/-- A header of an answer is recognised by the waiting call. -/
theorem ansH_answers {S : SysCfg V E SC Ctx} {cl : Call} {h : VarHeader} {k : VarKeyKind} (ha : AnsH S cl h)
    (hl : h.key.kind = S.kkind) (hk : k = .Key8 ∨ k = S.kkind) :
    ∃ err, Answers (keyLen k) (wantKey S.cfg cl err) cl.rqst.header h := by
  obtain ⟨err, h1, h2⟩ := ha
  refine ⟨err, ?_, h2⟩
  have hl : (keyBytes h.key).length = keyLen S.kkind := by rw [← kind_len, hl]
  have le : keyLen S.kkind ≤ keyLen k := by
    rcases hk with rfl | rfl
    · exact keyLen_le _
    · exact Nat.le_refl _
  rw [KeyAgrees, hl, Nat.min_eq_right le, ← h1]
  have := fold_self h.key
  rwa [hl] at this

/-- The frame the receive worker holds was put on the link. -/
theorem held_kind {a : App V E SC Ctx} {S : SysCfg V E SC Ctx} {s : Sys V E SC Ctx} (hD : Dispatches a S.disp)
    (hdecl : Declared a S.kkind) (inv : SysInvR a S s) {f : RpcFrame}
    (h : s.client.in_pc = .lookup f ∨ s.client.in_pc = .wake f) : f.header.key.kind = S.kkind := by
  obtain ⟨o, ho, hc⟩ := inv.held.1 f (by rcases h with h | h <;> rw [h] <;> rfl)
  rw [hc.header]
  exact outKind_kind (out_kind hD hdecl inv (inv.outs o ho))

/-- The receive worker keeps a frame until it looks it up and offers it. -/
theorem step_keeps {cfg : Cfg} {s s' : Client} {l : Label} (h : step cfg s l = some s') (hs : s'.stopped = false) {f : RpcFrame}
    (hp : s.in_pc = .lookup f ∨ s.in_pc = .wake f) :
    s'.in_pc = s.in_pc ∨ (l = .in_lookup ∧ s.in_pc = .lookup f) ∨ (∃ w, l = .in_wake w) ∧ s.in_pc = .wake f := by
  cases l with
  | in_lookup =>
    rcases hp with hp | hp
    · exact .inr (.inl ⟨rfl, hp⟩)
    · simp only [step, in_lookup, hp] at h; cases h
  | in_wake w =>
    rcases hp with hp | hp
    · simp only [step, in_wake, hp] at h; cases h
    · exact .inr (.inr ⟨⟨w, rfl⟩, hp⟩)
  | in_poll =>
    simp only [step, in_poll] at h
    repeat' split at h
    · cases h
    · rename_i hst; cases h; rw [show s.stopped = false from hs] at hst; cases hst
    · cases h; exact .inl rfl
  | in_recv r =>
    simp only [step, in_recv] at h
    split at h
    · rename_i hh; rcases hp with hp | hp <;> rw [hp] at hh <;> cases hh.1
    · cases h
  | in_full_send =>
    rcases hp with hp | hp <;> (simp only [step, in_full_send, hp] at h; cases h)
  | in_full_timeout =>
    rcases hp with hp | hp <;> (simp only [step, in_full_timeout, hp] at h; cases h)
  | in_purge =>
    rcases hp with hp | hp <;> simp [step, hp] at h
  | _ =>
    left
    simp only [step, send_resp_begin, call_reg_ok, call_reg_err, call_send, call_take, publish_raw_begin, pub_send, out_poll, out_recv,
      out_done, Client.set_phase, Client.drop_waits] at h
    repeat' split at h
    all_goals first
      | (cases h; done)
      | (cases h; rfl)

theorem stopped_back {cfg : Cfg} {s s' : Client} {l : Label} (h : step cfg s l = some s') (hs : s'.stopped = false) :
    s.stopped = false := by
  cases e : s.stopped with
  | false => rfl
  | true =>
    exfalso
    cases l with
    | close => cases h; cases hs
    | _ =>
      simp only [step, send_resp_begin, call_reg_ok, call_reg_err, call_send, call_take, publish_raw_begin, pub_send, out_poll, out_recv,
        out_done, in_poll, in_recv, in_lookup, in_full_send, in_full_timeout, after_lookup, in_wake, Client.set_phase, Client.drop_waits] at h
      repeat' split at h
      all_goals first
        | (cases h; done)
        | (cases h; have hs : s.stopped = false := hs; rw [e] at hs; cases hs)
        | (cases h; cases hs)

/-- A client step leaves somebody in charge. -/
theorem client_owed {a : App V E SC Ctx} {S : SysCfg V E SC Ctx} {s : Sys V E SC Ctx} {cn : Client} {l : Label} {air : List Bytes}
    (hD : Dispatches a S.disp) (hdecl : Declared a S.kkind) (hfit : Fits a S) (inv : SysInvR a S s)
    (lv : LiveInv a S s) (hn : (numbers s.client).Nodup)
    (h : step S.cfg s.client l = some cn) (hs : cn.stopped = false)
    (hair : (air = s.air ∧ ∀ b, l ≠ .in_recv (some b)) ∨ ∃ b, l = .in_recv (some b) ∧ s.air = b :: air)
    {c : Nat} {cl : Call} {k : VarKeyKind} (hc : cn.calls[c]? = some cl) (hp : cl.phase = .waiting k) :
    Owed S { s with client := cn, air := air } c cl k := by
  have hs0 := stopped_back h hs
  have henq : ∃ x, cn.enq = s.client.enq ++ x := by
    rcases step_enq h with e | ⟨_, _, _, _, _, _, _, e⟩ | ⟨_, _, _, _, _, _, e⟩
    · exact ⟨[], by rw [e, List.append_nil]⟩
    · exact ⟨_, e⟩
    · exact ⟨_, e⟩
  rcases step_waiting h hc hp with hc0 | ⟨cl0, h0, e, he⟩
  rotate_left
  · -- the request was just handed over
    refine .queued s.client.enq.length ?_ (by rw [he, List.getElem?_append_right (Nat.le_refl _)]; simp)
    obtain ⟨pre, rest, e1, e2, _⟩ := reachable_outInv inv.reach
    have e3 := congrArg List.length e2
    simp only [List.length_map] at e3
    have := lv.le
    rw [e1, List.length_append]
    show s.taken ≤ _
    omega
  · cases lv.owed hs0 c cl k hc0 hp with
    | queued j h1 h2 => exact .queued j h1 (get_append henq h2)
    | pending o h1 h0 h2 => exact .pending o h1 h0 h2
    | task i j t g h1 h0 h2 h3 h4 h5 h6 => exact .task i j t g h1 h0 h2 h3 h4 h5 h6
    | air fr b h1 h2 h3 =>
      rcases hair with ⟨e, _⟩ | ⟨b', el, e⟩
      · exact .air fr b (by rw [e]; exact h1) h2 h3
      · rw [e] at h1
        rcases List.mem_cons.mp h1 with rfl | h1
        · subst el
          rw [frame_bytes_eq] at h2
          cases h2
          simp only [step, in_recv, take_enc] at h
          split at h
          · cases h
            exact .held ⟨fr.hdr, S.enc fr.body⟩ (.inl rfl) h3
          · cases h
        · exact .air fr b h1 h2 h3
    | handed w h1 h2 =>
      rcases woken_step (step_core h) (reachable_coreInv inv.reach) h1 with h1 | ⟨cl2, h3, h4⟩
      · exact .handed w h1 h2
      · have h3 : cn.calls[w.id.call]? = some cl2 := h3
        rw [h2, hc] at h3
        cases h3
        rw [hp] at h4
        rcases h4 with ⟨r, h4⟩ | h4 <;> cases h4
    | held f h1 h2 =>
      have hkind := held_kind hD hdecl inv h1
      have hk := (consist_kinds inv.reach (sys_consist hD hdecl inv)).2 c cl k hc0 (by rw [hp]; rfl)
      rcases step_keeps h hs h1 with e | ⟨rfl, e⟩ | ⟨⟨w, rfl⟩, e⟩
      · exact .held f (by rw [← e] at h1; exact h1) h2
      · have off : ∀ key, (∃ t ∈ a.topic_out_list.topics, t.key = key) → ¬ OfTopic key f := by
          rintro key ⟨t, ht, rfl⟩ hof
          unfold OfTopic at hof
          rw [← kind_len, hkind] at hof
          obtain ⟨err, h3, _⟩ := h2
          rw [h3] at hof
          cases err with
          | true =>
            have : wantKey S.cfg cl true = a.std.error := hfit.err_key
            rw [this] at hof
            exact hfit.topic_err t ht hof.symm
          | false =>
            obtain ⟨r, hr, _, er⟩ := inv.calls c cl hc0
            have : wantKey S.cfg cl false = r.resp := er
            rw [this] at hof
            exact apart_parts hfit.apart (List.mem_map.mpr ⟨r, hr, rfl⟩) (List.mem_map.mpr ⟨t, ht, rfl⟩) hof
        have := Props.c37_unclaimed_frame_offered h e (fun x hx => off _ (lv.keysX x hx)) (fun x hx => off _ (lv.keysB x hx))
        exact .held f (.inr this.1) h2
      · obtain ⟨err, ha⟩ := ansH_answers h2 hkind hk
        have hpol : s.client.in_polled = true := by
          cases hb : s.client.in_polled with
          | true => rfl
          | false => simp [step, in_wake, e, hb] at h
        obtain ⟨_, g, err', ⟨⟨i, hw⟩, _⟩, _⟩ := Props.c37_response_reaches_its_call inv.reach hc0 hp ⟨e, hpol⟩ ha
          (fun c' cl' hne hc' _ => numbers_ne hn hc0 hne hc') h
        exact .handed _ hw rfl

theorem calls_grow {cfg : Cfg} {s s' : Client} {l : Label} (h : step cfg s l = some s') : s.calls.length ≤ s'.calls.length := by
  rcases coreStep_sig (step_core h) with e | ⟨x, e, _⟩
  · have e : s'.calls.map Call.sig = s.calls.map Call.sig := e
    have := congrArg List.length e
    simp only [List.length_map] at this
    omega
  · have e : s'.calls = s.calls ++ [x] := e
    rw [e, List.length_append]
    omega

theorem client_live {a : App V E SC Ctx} {S : SysCfg V E SC Ctx} {s : Sys V E SC Ctx} {cn : Client} {l : Label} {air : List Bytes}
    (hD : Dispatches a S.disp) (hdecl : Declared a S.kkind) (hfit : Fits a S) (inv : SysInvR a S s)
    (lv : LiveInv a S s) (hl : Listens a (SLabel.client (V := V) l)) (hn : (numbers s.client).Nodup)
    (h : step S.cfg s.client l = some cn)
    (hair : (air = s.air ∧ ∀ b, l ≠ .in_recv (some b)) ∨ ∃ b, l = .in_recv (some b) ∧ s.air = b :: air) :
    LiveInv a S { s with client := cn, air := air } := by
  have keys := step_subkeys h (P := fun k => ∃ t ∈ a.topic_out_list.topics, t.key = k) (by
    rintro key d (rfl | rfl | rfl) <;> exact hl) lv.keysX lv.keysB
  exact {
    up := lv.up
    le := by
      obtain ⟨x, e⟩ := step_tx h
      have := lv.le
      show s.taken ≤ cn.tx.length
      rw [e, List.length_append]
      omega
    old := lv.old
    keysX := keys.1
    keysB := keys.2
    pend := lv.pend
    owed := fun hs c cl k hc hp => client_owed hD hdecl hfit inv lv hn h hs hair hc hp
    ended := fun hs c cl r hc hp => by
      have hs0 := stopped_back h hs
      have old : s.client.calls[c]? = some cl → r ≠ .Closed ∧ r ≠ .BadResponse := fun h0 => lv.ended hs0 c cl r h0 hp
      refine Classical.byContradiction fun hbad => ?_
      have hr : r = .Closed ∨ r = .BadResponse := by
        refine Classical.byContradiction fun hx => hbad ⟨fun e => hx (.inl e), fun e => hx (.inr e)⟩
      rcases step_unanswered h hc hp hr with h0 | ⟨_, h0 | h0⟩ | ⟨cl0, k, h0, h1, h2⟩ | ⟨cl0, k, h0, h1, h2⟩
      · exact hbad (old h0)
      · rw [hs0] at h0; cases h0
      · have := Props.c38_no_silent_worker_exit inv.reach (.inl h0); rw [hs0] at this; cases this
      · exact reg_ok_free inv.reach hn h0 h1 h2
      · exact reg_err_free hD hdecl hfit inv hn h0 h1 h2 }

/-- A frame gets on the link. -/
theorem put_live {a : App V E SC Ctx} {S : SysCfg V E SC Ctx} {s0 s s' : Sys V E SC Ctx} {o : Out V} (h : Sys.put S s o = some s')
    (lv : LiveInv a S s0) (hcl : s.client = s0.client) (hup : s.up = s0.up) (htk : s.taken = s0.taken) (htasks : s.tasks = s0.tasks)
    (hold : s.old = s0.old)
    (hairs : s.air = s0.air) (houts : s.outs = s0.outs) (hpend : ∀ x ∈ s.pending, x ∈ s0.pending)
    (hpend2 : ∀ x ∈ s0.pending, x ∈ s.pending ∨ x = o)
    (hsrc : ∀ i j t g cl, o.src = .task i → s0.tasks[i]? = some (j, t) → S.disp.eps.find? (fun h => h.name = t.name) = some g →
      g.resp = cl.resp_key → seqVal t.hdr.seq_no = seqVal cl.rqst.header.seq_no → AnsH S cl o.frame.hdr ∧ o.cut = none) : LiveInv a S s' := by
  simp only [Sys.put] at h
  split at h
  · rename_i b hb
    cases h
    exact {
      up := by rw [← lv.up]; exact hup
      le := by show s.taken ≤ s.client.tx.length; rw [htk, hcl]; exact lv.le
      old := by show s.old ≤ s.tasks.length; rw [htasks, hold]; exact lv.old
      keysX := by have := lv.keysX; rw [← hcl] at this; exact this
      keysB := by have := lv.keysB; rw [← hcl] at this; exact this
      pend := fun x hx => lv.pend x (hpend x hx)
      owed := fun hs c cl k hc hp => by
        simp only [hcl] at hs hc
        cases lv.owed hs c cl k hc hp with
        | queued j h1 h2 => exact .queued j (by show s.taken ≤ j; rw [htk]; exact h1) (by show s.client.enq[j]? = _; rw [hcl]; exact h2)
        | pending x h1 h0 h2 =>
          rcases hpend2 x h1 with h1 | rfl
          · exact .pending x h1 h0 h2
          · exact .air x.frame b (List.mem_append.mpr (.inr (by rw [Out.part, h0]; exact List.mem_singleton.mpr rfl))) hb h2
        | task i j t g h1 h8 h2 h3 h4 h5 h6 =>
          open Classical in
          by_cases e : o.src = .task i
          · obtain ⟨h7, h0⟩ := hsrc i j t g cl e h1 h3 h4 h5
            exact .air o.frame b (List.mem_append.mpr (.inr (by rw [Out.part, h0]; exact List.mem_singleton.mpr rfl))) hb h7
          · refine .task i j t g (by show s.tasks[i]? = _; rw [htasks]; exact h1) (by show s.old ≤ i; rw [hold]; exact h8) h2 h3 h4 h5 fun ⟨x, hx, ex⟩ => ?_
            rcases List.mem_append.mp hx with hx | hx
            · rw [houts] at hx; exact h6 ⟨x, hx, ex⟩
            · rw [List.mem_singleton.mp hx] at ex; exact e ex
        | air fr b' h1 h2 h3 => exact .air fr b' (List.mem_append.mpr (.inl (by rw [hairs]; exact h1))) h2 h3
        | held f h1 h2 => exact .held f (by show s.client.in_pc = _ ∨ s.client.in_pc = _; rw [hcl]; exact h1) h2
        | handed w h1 h2 => exact .handed w (by show w ∈ s.client.woken; rw [hcl]; exact h1) h2
      ended := by have := lv.ended; rw [← hcl] at this; exact this }
  · cases h

theorem sys_step_liveR {a : App V E SC Ctx} {S : SysCfg V E SC Ctx} {s s' : Sys V E SC Ctx} {l : SLabel V}
    (hD : Dispatches a S.disp) (hdecl : Declared a S.kkind) (hfit : Fits a S)
    (h : sys_step S s l = some s') (hl : Listens a l) (inv : SysInvR a S s) (lv : LiveInv a S s)
    (hn : (numbers s.client).Nodup) : LiveInv a S s' := by
  cases l with
  | client l =>
    simp only [sys_step, client_step] at h
    split at h
    · rename_i b
      split at h
      · cases h
      · rename_i b' air e
        split at h
        · rename_i eb
          subst eb
          split at h
          · rename_i c hc
            cases h
            exact client_live hD hdecl hfit inv lv hl hn hc (.inr ⟨b, rfl, e⟩)
          · cases h
        · cases h
    · rename_i l hne
      split at h
      · rename_i c hc
        cases h
        exact client_live hD hdecl hfit inv lv hl hn hc
          (.inl ⟨rfl, fun b hb => hne b hb⟩)
      · cases h
  | serve =>
    have h : serve S s = some s' := h
    obtain ⟨b, _, _, hb, _⟩ := serve_cases h
    obtain ⟨srv, rfl, hpend, _⟩ := serve_answers hfit.sends h hb
    exact {
      up := rfl
      le := by
        have := (List.getElem?_eq_some_iff.mp hb).1
        exact this
      old := by
        show s.old ≤ (s.tasks ++ _).length
        rw [List.length_append]
        exact Nat.le_trans lv.old (Nat.le_add_right _ _)
      keysX := lv.keysX
      keysB := lv.keysB
      pend := fun o ho => ⟨_, (sent_ok_mem ho).1⟩
      owed := fun hs c cl k hc hp => by
        cases lv.owed hs c cl k hc hp with
        | queued j h1 h2 =>
          rcases Nat.eq_or_lt_of_le h1 with e | hlt
          · subst e
            exact serve_owed hD hdecl hfit inv lv.old h hc h2
          · exact .queued j hlt h2
        | pending o h1 h0 h2 => rw [hpend] at h1; cases h1
        | task i j t g h1 h7 h2 h3 h4 h5 h6 =>
          exact .task i j t g (get_append ⟨_, rfl⟩ h1) h7 h2 h3 h4 h5 h6
        | air fr b h1 h2 h3 => exact .air fr b h1 h2 h3
        | held f h1 h2 => exact .held f h1 h2
        | handed w h1 h2 => exact .handed w h1 h2
      ended := lv.ended }
  | reject => exact hl.elim
  | flush =>
    simp only [sys_step] at h
    split at h
    · cases h
    · rename_i o rest e
      refine put_live (s0 := s) h lv rfl rfl rfl rfl rfl rfl rfl (fun x hx => by rw [e]; exact List.mem_cons_of_mem _ hx) (fun x hx => ?_) ?_
      · rw [e] at hx
        rcases List.mem_cons.mp hx with hx | hx
        · exact .inr hx
        · exact .inl hx
      · intro i j t g cl es
        obtain ⟨j, e2⟩ := lv.pend o (by rw [e]; exact List.mem_cons_self ..)
        rw [e2] at es
        cases es
  | task_reply i v =>
    simp only [sys_step, task_reply] at h
    split at h
    · cases h
    · rename_i j t ht
      split at h
      · cases h
      · rename_i hr
        split at h
        · cases h
        · rename_i hh hf
          simp only [Sys.send, sender_reply_eq, sendOne, hfit.sends] at h
          refine put_live (s0 := s) h lv rfl rfl rfl rfl rfl rfl rfl (fun x hx => hx) (fun x hx => .inl hx) ?_
          intro i' j' t' g cl es h1 h2 h3 h4
          cases es
          rw [ht] at h1
          cases h1
          rw [hf] at h2
          cases h2
          refine ⟨⟨false, ?_, h4⟩, rfl⟩
          show keyBytes ((VarKey.Key8 hh.resp).shrink_to S.kkind) = _
          rw [Props.shrink_bytes8, h3]
          rfl
  | app_publish key seq v =>
    simp only [sys_step, app_publish, Sys.send, sender_publish_eq, sendOne, hfit.sends] at h
    refine put_live (s0 := s) h lv rfl rfl rfl rfl rfl rfl rfl (fun x hx => hx) (fun x hx => .inl hx) ?_
    intro i' j' t' g cl es
    cases es

theorem sys_calls_grow {S : SysCfg V E SC Ctx} {s s' : Sys V E SC Ctx} {l : SLabel V} (h : sys_step S s l = some s') :
    s.client.calls.length ≤ s'.client.calls.length := by
  have put : ∀ (t t' : Sys V E SC Ctx) (o : Out V), Sys.put S t o = some t' → t'.client = t.client := by
    intro t t' o h
    simp only [Sys.put] at h
    split at h
    · cases h; rfl
    · cases h
  have send : ∀ (t t' : Sys V E SC Ctx) src r fr, Sys.send S t src r fr = some t' → t'.client = t.client := by
    intro t t' src r fr h
    simp only [Sys.send] at h
    split at h <;> (have := put _ _ _ h; exact this)
  cases l with
  | client l =>
    simp only [sys_step, client_step] at h
    repeat' split at h
    all_goals first
      | (cases h; done)
      | (rename_i hc; cases h; exact calls_grow hc)
  | serve =>
    obtain ⟨b, up, srv, _, rfl, _⟩ := serve_cases h
    exact Nat.le_refl _
  | reject =>
    simp only [sys_step, reject] at h
    split at h
    · cases h; exact Nat.le_refl _
    · cases h
  | flush =>
    simp only [sys_step] at h
    split at h
    · cases h
    · rw [put _ _ _ h]; exact Nat.le_refl _
  | task_reply i v =>
    simp only [sys_step, task_reply] at h
    repeat' split at h
    all_goals first
      | (cases h; done)
      | (rw [send _ _ _ _ _ h]; exact Nat.le_refl _)
  | app_publish key seq v =>
    simp only [sys_step, app_publish] at h
    rw [send _ _ _ _ _ h]
    exact Nat.le_refl _

theorem sys_run_grow {S : SysCfg V E SC Ctx} {ls : List (SLabel V)} {s s' : Sys V E SC Ctx} (h : sys_run S ls s = some s') :
    s.client.calls.length ≤ s'.client.calls.length := by
  induction ls generalizing s with
  | nil => cases h; exact Nat.le_refl _
  | cons l ls ih =>
    simp only [sys_run] at h
    split at h
    · rename_i s1 hs
      exact Nat.le_trans (sys_calls_grow hs) (ih h)
    · cases h

theorem sys_step_live {a : App V E SC Ctx} {S : SysCfg V E SC Ctx} {s s' : Sys V E SC Ctx} {l : SLabel V}
    (hD : Dispatches a S.disp) (hdecl : Declared a S.kkind) (hfit : Fits a S)
    (h : sys_step S s l = some s') (hl : Listens a l) (inv : SysInv a S s) (lv : LiveInv a S s)
    (hn : s'.client.calls.length < 2 ^ 32) : LiveInv a S s' :=
  sys_step_liveR hD hdecl hfit h hl inv lv (typed_numbers inv (Nat.lt_of_le_of_lt (sys_calls_grow h) hn))

theorem sys_run_liveR {a : App V E SC Ctx} {S : SysCfg V E SC Ctx} {ls : List (SLabel V)} {s s' : Sys V E SC Ctx}
    (hD : Dispatches a S.disp) (hdecl : Declared a S.kkind) (hfit : Fits a S)
    (h : sys_run S ls s = some s') (hu : ∀ l ∈ ls, UsedRaw a l) (hl : ∀ l ∈ ls, Listens a l) (inv : SysInvR a S s) (lv : LiveInv a S s)
    (hn : (numbers s'.client).Nodup) : LiveInv a S s' := by
  induction ls generalizing s with
  | nil => cases h; exact lv
  | cons l ls ih =>
    simp only [sys_run] at h
    split at h
    · rename_i s1 hs
      exact ih h (fun x hx => hu x (List.mem_cons_of_mem _ hx)) (fun x hx => hl x (List.mem_cons_of_mem _ hx))
        (sys_step_invR hs (hu l (List.mem_cons_self ..)) inv)
        (sys_step_liveR hD hdecl hfit hs (hl l (List.mem_cons_self ..)) inv lv (prefix_nodup ((sys_step_numbers hs).trans (sys_run_numbers h)) hn))
    · cases h

theorem sys_run_live {a : App V E SC Ctx} {S : SysCfg V E SC Ctx} {ls : List (SLabel V)} {s s' : Sys V E SC Ctx}
    (hD : Dispatches a S.disp) (hdecl : Declared a S.kkind) (hfit : Fits a S)
    (h : sys_run S ls s = some s') (hu : ∀ l ∈ ls, Used a l) (hl : ∀ l ∈ ls, Listens a l) (inv : SysInv a S s) (lv : LiveInv a S s)
    (hn : s'.client.calls.length < 2 ^ 32) : LiveInv a S s' :=
  sys_run_liveR hD hdecl hfit h (fun l hl => used_raw (hu l hl)) hl inv lv (typed_numbers (sys_run_inv h hu inv) hn)

end PRpc
