import Verif.Lemmas.Raw
import Verif.Lemmas.SchemaOuts
import Verif.Lemmas.Linear
import Verif.Lemmas.InOrder
/-! Helper lemmas for C100: the server answers each request at most once. -/

namespace PRpc

open Spec

variable {V E SC Ctx : Type}

/-- The frame has a key answers are sent under. -/
def ansKey (a : App V E SC Ctx) (kk : VarKeyKind) (fr : Frame V) : Bool :=
  decide (keyBytes fr.hdr.key ∈ (a.endpoint_list.endpoints.map (·.resp) ++ [a.std.error]).map (short (keyLen kk)))

/-- Does the event show an answer sent whole, or a task spawned that will answer? -/
def answering (a : App V E SC Ctx) (kk : VarKeyKind) : Event V E SC → Nat
  | .sent _ f none => if ansKey a kk f then 1 else 0
  | .spawned t true => if t.role = .endpoint then 1 else 0
  | _ => 0

def answered (a : App V E SC Ctx) (kk : VarKeyKind) : List (Event V E SC) → Nat
  | [] => 0
  | e :: ev => answering a kk e + answered a kk ev

theorem answered_append (a : App V E SC Ctx) (kk : VarKeyKind) (x y : List (Event V E SC)) :
    answered a kk (x ++ y) = answered a kk x + answered a kk y := by
  induction x with
  | nil => simp [answered]
  | cons e x ih => simp only [List.cons_append, answered, ih]; omega

theorem answering_le (a : App V E SC Ctx) (kk : VarKeyKind) (e : Event V E SC) : answering a kk e ≤ 1 := by
  unfold answering
  repeat' split
  all_goals omega

theorem answered_none {a : App V E SC Ctx} {kk : VarKeyKind} {ev : List (Event V E SC)} (h : ∀ e ∈ ev, answering a kk e = 0) :
    answered a kk ev = 0 := by
  induction ev with
  | nil => rfl
  | cons e ev ih =>
    rw [answered, h e (List.mem_cons_self ..), ih fun x hx => h x (List.mem_cons_of_mem _ hx)]

theorem answered_last {a : App V E SC Ctx} {kk : VarKeyKind} {pre : List (Event V E SC)} {e : Event V E SC}
    (h : ∀ e ∈ pre, answering a kk e = 0) : answered a kk (pre ++ [e]) ≤ 1 := by
  rw [answered_append, answered_none h, Nat.zero_add]
  exact answering_le ..

/-- What is known of the application. -/
structure OnceCtx (a : App V E SC Ctx) (S : SysCfg V E SC Ctx) : Prop where
  disp : Dispatches a S.disp
  decl : Declared a S.kkind
  apart : KeysApart a S
  clean : Clean S
  err_key : S.cfg.err_key = a.std.error
  resp_err : ∀ r ∈ a.endpoint_list.endpoints, short (keyLen S.kkind) r.resp ≠ short (keyLen S.kkind) a.std.error
  topic_err : ∀ t ∈ a.topic_out_list.topics, short (keyLen S.kkind) t.key ≠ short (keyLen S.kkind) a.std.error
  handled : ∀ h ∈ a.eps, ∃ r ∈ a.endpoint_list.endpoints, r.req = h.req ∧ r.resp = h.resp

/-- A publication is no answer. -/
theorem OnceCtx.not_ans {a : App V E SC Ctx} {S : SysCfg V E SC Ctx} (x : OnceCtx a S) {t : TpRow} (ht : t ∈ a.topic_out_list.topics)
    {seq : VarSeq} {b : Body V} {fr : Frame V} (hm : IsMsg S.kkind t.key seq b fr) : ansKey a S.kkind fr = false := by
  simp only [ansKey, decide_eq_false_iff_not]
  intro h
  obtain ⟨k, hk, e⟩ := List.mem_map.mp h
  rw [hm.key] at e
  rcases List.mem_append.mp hk with hk | hk
  · exact apart_parts x.apart hk (List.mem_map.mpr ⟨t, ht, rfl⟩) e
  · rw [List.mem_singleton.mp hk] at e
    exact x.topic_err t ht e.symm

theorem handle_once {a : App V E SC Ctx} {S : SysCfg V E SC Ctx} (x : OnceCtx a S) {hdr : VarHeader} {body : Bytes} {s s' : St V E SC Ctx}
    {r : Option E} (hh : handle S.env S.disp S.kkind hdr body s = .ok (r, s')) :
    ∃ ev, s'.log = s.log ++ ev ∧ answered a S.kkind ev ≤ 1 := by
  have one : ∀ (s : St V E SC Ctx) (f : Frame V), Exec.ok (sendOne S.env f s) = .ok (r, s') →
      ∃ e, s'.log = s.log ++ [e] ∧ answered a S.kkind [e] ≤ 1 := by
    intro s f he
    simp only [sendOne, Exec.ok.injEq, Prod.mk.injEq] at he
    obtain ⟨_, rfl⟩ := he
    exact ⟨_, rfl, answering_le ..⟩
  have one' : ∀ (s : St V E SC Ctx) (f : Frame V), Exec.ok (sendOne S.env f s) = .ok (r, s') →
      ∃ ev, s'.log = s.log ++ ev ∧ answered a S.kkind ev ≤ 1 := fun s f he =>
    let ⟨e, h⟩ := one s f he
    ⟨[e], h⟩
  rcases frame_cases S.disp hdr with c | ⟨h, c⟩ | ⟨h, c, c'⟩ | ⟨g, hg, c⟩ | ⟨g, hg, c⟩ | ⟨h, c⟩
  · rw [handle_short _ _ _ _ _ _ c] at hh
    exact one' s _ hh
  · rw [handle_ping _ _ _ _ _ _ h c] at hh
    cases hd : S.disp.ping_decode body with
    | none => rw [hd] at hh; exact one' s _ hh
    | some v => rw [hd] at hh; exact one' s _ hh
  · rw [handle_schemas _ _ _ _ _ _ h c c', send_all_schemas_eq] at hh
    cases hp : publish_loop S.env S.disp.std S.kkind (schemaMsgs S.disp.device_map) 0#16 0#32 s with
    | panic => rw [hp] at hh; simp at hh
    | ok q =>
      rw [hp] at hh
      simp only [Exec.ok_bind] at hh
      obtain ⟨ev, a1, a2, a3⟩ := publish_loop_spec S.env S.disp.std S.kkind _ 0 0 s q hp
      have hlog : q.2.2.log = s.log ++ ev := by rw [a3]
      obtain ⟨e2, b1, b2⟩ := one q.2.2 _ hh
      refine ⟨ev ++ [e2], by rw [b1, hlog, List.append_assoc], ?_⟩
      rw [answered_append, answered_none, Nat.zero_add]
      · exact b2
      · intro e he
        obtain ⟨f, r, rfl⟩ := a1 e he
        have := ownFrames_mem he
        rw [a2] at this
        obtain ⟨d, seq, hm⟩ := schemaFrames_mem this
        obtain ⟨t, ht, et⟩ := x.decl.schema_topic
        rw [x.disp.std, ← et] at hm
        cases r with
        | none => simp only [answering, x.not_ans ht hm]; rfl
        | some _ => rfl
  · rw [handle_ep _ _ _ _ _ _ g c] at hh
    cases hd : g.decode body with
    | none => rw [hd] at hh; exact one' s _ hh
    | some v =>
      rw [hd] at hh
      have reply : ∀ fn, Exec.ok (reply_arm S.env S.disp.std S.kkind g fn hdr v s) = .ok (r, s') →
          ∃ ev, s'.log = s.log ++ ev ∧ answered a S.kkind ev ≤ 1 := by
        intro fn he
        rw [reply_arm_eq] at he
        simp only [sendOne] at he
        generalize S.env.send _ _ = y at he
        cases y with
        | none =>
          simp only [Exec.ok.injEq, Prod.mk.injEq] at he
          obtain ⟨_, rfl⟩ := he
          refine ⟨[_, _], by simp; exact ⟨rfl, rfl⟩, ?_⟩
          simp only [answered, answering]
          split <;> omega
        | some y =>
          simp only [Exec.ok.injEq, Prod.mk.injEq] at he
          obtain ⟨_, rfl⟩ := he
          refine ⟨[_, _, _], by simp; exact ⟨rfl, rfl, rfl⟩, ?_⟩
          exact answered_last (pre := [_, _]) fun e he => by
            simp only [List.mem_cons, List.not_mem_nil, or_false] at he
            rcases he with rfl | rfl <;> rfl
      simp only [ep_arm] at hh
      split at hh
      · rename_i fn hfl; exact reply fn hh
      · rename_i fn hfl; exact reply fn hh
      · rename_i hfl
        simp only [St.note, sender_error_eq, sendOne] at hh
        split at hh
        · simp only [Exec.ok.injEq, Prod.mk.injEq] at hh
          obtain ⟨_, rfl⟩ := hh
          exact ⟨[_], rfl, answering_le ..⟩
        · rename_i hsp
          rw [Bool.not_eq_true] at hsp
          simp only [Exec.ok.injEq, Prod.mk.injEq] at hh
          obtain ⟨_, rfl⟩ := hh
          refine ⟨[_, _], by simp; exact ⟨rfl, rfl⟩, ?_⟩
          exact answered_last (pre := [_]) fun e he => by
            rw [List.mem_singleton.mp he]
            simp only [answering, hsp]
  · rw [handle_tp _ _ _ _ _ _ g c] at hh
    cases hd : g.decode body with
    | none =>
      rw [hd] at hh
      simp only [Exec.ok.injEq, Prod.mk.injEq] at hh
      obtain ⟨_, rfl⟩ := hh
      exact ⟨[], by simp, Nat.zero_le _⟩
    | some v =>
      rw [hd] at hh
      simp only [Exec.ok.injEq, Prod.mk.injEq] at hh
      obtain ⟨_, rfl⟩ := hh
      simp only [tp_arm]
      split
      · exact ⟨_, rfl, Nat.zero_le _⟩
      · rename_i fn hfl
        obtain ⟨ev, h1, h2⟩ := prog_events S.env (fn s.ctx hdr v) (s.note (.ran .topic g.name hdr v))
        refine ⟨.ran .topic g.name hdr v :: ev, by rw [h1]; simp [St.note], ?_⟩
        rw [answered, answered_none]
        · exact Nat.zero_le _
        · intro e he
          obtain ⟨f, r, rfl, hm⟩ := h2 e he
          rw [x.disp.tps] at hg
          obtain ⟨t, ht, seq, b, hmsg⟩ := x.decl.sends g hg fn hfl s.ctx hdr v f hm
          cases r with
          | none => simp only [answering, x.not_ans ht hmsg]; rfl
          | some _ => rfl
      · exact ⟨[_], rfl, answering_le ..⟩
  · rw [handle_unknown _ _ _ _ _ _ h c] at hh
    exact one' s _ hh

/-! ### The answers sent -/

/-- The request a frame answers, if it is an answer, sent whole, to a request of this session. -/
def Sys.lab (a : App V E SC Ctx) (S : SysCfg V E SC Ctx) (s : Sys V E SC Ctx) (o : Out V) : Option Nat :=
  if o.cut.isNone && ansKey a S.kkind o.frame then
    match o.src with
    | .req j => some j
    | .task i => if s.old ≤ i then (s.tasks[i]?).map (·.1) else none
    | .app => none
  else none

theorem lab_src {a : App V E SC Ctx} {S : SysCfg V E SC Ctx} {s : Sys V E SC Ctx} {o : Out V} {j : Nat} (h : s.lab a S o = some j) :
    o.cut = none ∧ ansKey a S.kkind o.frame = true ∧ (o.src = .req j ∨ ∃ i t, o.src = .task i ∧ s.old ≤ i ∧ s.tasks[i]? = some (j, t)) := by
  unfold Sys.lab at h
  split at h
  · rename_i hc
    rw [Bool.and_eq_true, Option.isNone_iff_eq_none] at hc
    refine ⟨hc.1, hc.2, ?_⟩
    split at h
    · rename_i e; cases h; exact .inl e
    · rename_i i e
      split at h
      · rename_i ho
        obtain ⟨⟨j', t⟩, h1, h2⟩ := Option.map_eq_some_iff.mp h
        cases h2
        exact .inr ⟨i, t, e, ho, h1⟩
      · cases h
    · cases h
  · cases h

theorem lab_req {a : App V E SC Ctx} {S : SysCfg V E SC Ctx} {s : Sys V E SC Ctx} {o : Out V} {j : Nat} (hc : o.cut = none)
    (hk : ansKey a S.kkind o.frame = true) (h : o.src = .req j) : s.lab a S o = some j := by
  unfold Sys.lab
  rw [hc, hk, h]
  rfl

theorem lab_task {a : App V E SC Ctx} {S : SysCfg V E SC Ctx} {s : Sys V E SC Ctx} {o : Out V} {i j : Nat} {t : Task V SC} (hc : o.cut = none)
    (hk : ansKey a S.kkind o.frame = true) (h : o.src = .task i) (ho : s.old ≤ i) (ht : s.tasks[i]? = some (j, t)) :
    s.lab a S o = some j := by
  unfold Sys.lab
  rw [hc, hk, h]
  simp only [Option.isNone_none, Bool.and_self, if_true, if_pos ho, ht, Option.map_some]

/-- What the dispatcher's answers and tasks for one request amount to. -/
theorem answered_eq (a : App V E SC Ctx) (S : SysCfg V E SC Ctx) (s : Sys V E SC Ctx) (j : Nat) (log ev : List (Event V E SC)) :
    ((sent_ok S.cut (.req j) log ev).filterMap (s.lab a S)).length +
      ((spawned_ok j ev).filter fun p => p.2.role = .endpoint).length = answered a S.kkind ev := by
  induction ev generalizing log with
  | nil => rfl
  | cons e ev ih =>
    cases e with
    | ran b c d e => simp only [sent_ok, spawned_ok, answered, answering, ih, Nat.zero_add]
    | spawned t ok =>
      cases ok with
      | false => simp only [sent_ok, spawned_ok, answered, answering, ih, Nat.zero_add]
      | true =>
        simp only [sent_ok, spawned_ok, answered, answering]
        rw [← ih (log ++ [.spawned t true]), List.filter_cons]
        by_cases hr : t.role = .endpoint
        · rw [if_pos (by simpa using hr), if_pos hr, List.length_cons]; omega
        · rw [if_neg (by simpa using hr), if_neg hr, Nat.zero_add]
    | sent b f r =>
      cases r with
      | none =>
        simp only [sent_ok, spawned_ok, answered, answering]
        rw [← ih (log ++ [.sent b f none]), List.filterMap_cons]
        cases hk : ansKey a S.kkind f with
        | true => rw [lab_req (s := s) (j := j) rfl hk rfl]; simp only [List.length_cons, if_true]; omega
        | false =>
          have : s.lab a S ⟨.req j, f, none⟩ = none := by unfold Sys.lab; rw [hk]; rfl
          rw [this]
          simp
      | some r =>
        simp only [sent_ok, spawned_ok, answered, answering, Nat.zero_add]
        rw [← ih (log ++ [.sent b f (some r)]), List.filterMap_cons]
        have : s.lab a S ⟨.req j, f, some (S.cut log f)⟩ = none := rfl
        rw [this]

/-- Each request is answered at most once. -/
structure OnceInv (a : App V E SC Ctx) (S : SysCfg V E SC Ctx) (s : Sys V E SC Ctx) : Prop where
  nd : ((s.outs ++ s.pending).filterMap (s.lab a S)).Nodup
  un : ∀ o ∈ s.outs ++ s.pending, ∀ j, s.lab a S o = some j → ∀ (i : Nat) t, s.tasks[i]? = some (j, t) → t.role = .endpoint → s.old ≤ i → Replied s i
  tk : ∀ (i i' : Nat) j t t', s.tasks[i]? = some (j, t) → s.tasks[i']? = some (j, t') → t.role = .endpoint → t'.role = .endpoint →
    s.old ≤ i → s.old ≤ i' → i = i'
  lt : ∀ o ∈ s.outs ++ s.pending, ∀ j, s.lab a S o = some j → j < s.taken
  tlt : ∀ (i : Nat) j t, s.tasks[i]? = some (j, t) → s.old ≤ i → j < s.taken

theorem onceInv_start {a : App V E SC Ctx} {S : SysCfg V E SC Ctx} {s : Sys V E SC Ctx} (ho : s.outs = []) (hp : s.pending = [])
    (hold : s.old = s.tasks.length) : OnceInv a S s := by
  have no : ∀ (i : Nat) p, s.tasks[i]? = some p → s.old ≤ i → False := fun i p h h' => by
    have := getElem?_lt h
    omega
  refine ⟨by rw [ho, hp]; exact List.nodup_nil, ?_, ?_, ?_, ?_⟩
  · rw [ho, hp]; intro o h; cases h
  · intro i i' j t t' h _ _ _ h' _; exact (no i _ h h').elim
  · rw [ho, hp]; intro o h; cases h
  · intro i j t h h'; exact (no i _ h h').elim

theorem OnceInv.same {a : App V E SC Ctx} {S : SysCfg V E SC Ctx} {s t : Sys V E SC Ctx} (inv : OnceInv a S s) (h1 : t.outs = s.outs)
    (h2 : t.pending = s.pending) (h3 : t.tasks = s.tasks) (h4 : t.old = s.old) (h5 : s.taken ≤ t.taken) : OnceInv a S t := by
  have el : t.lab a S = s.lab a S := by funext o; simp only [Sys.lab, h3, h4]
  have er : Replied t = Replied s := by funext i; simp only [Replied, h1]
  obtain ⟨a1, a2, a3, a4, a5⟩ := inv
  refine ⟨by rw [h1, h2, el]; exact a1, by rw [h1, h2, el, h3, h4, er]; exact a2, by rw [h3, h4]; exact a3, ?_, ?_⟩
  · rw [h1, h2, el]; exact fun o ho j hj => Nat.lt_of_lt_of_le (a4 o ho j hj) h5
  · rw [h3, h4]; exact fun i j t ht hi => Nat.lt_of_lt_of_le (a5 i j t ht hi) h5

theorem filterMap_same {α β : Type} {l : List α} {f g : α → Option β} (h : ∀ x ∈ l, f x = g x) : l.filterMap f = l.filterMap g := by
  induction l with
  | nil => rfl
  | cons x l ih =>
    rw [List.filterMap_cons, List.filterMap_cons, h x (List.mem_cons_self ..), ih fun y hy => h y (List.mem_cons_of_mem _ hy)]

/-- What a frame put on the link outside dispatch changes. -/
theorem send_shape {S : SysCfg V E SC Ctx} {s s' : Sys V E SC Ctx} {src : Src} {r : Option E × St V E SC Ctx} {f : Frame V}
    (h : Sys.send S s src r f = some s') : ∃ cut srv, s' = { s with srv := srv, air := s.air ++ Out.bits S.enc ⟨src, f, cut⟩, outs := s.outs ++ [⟨src, f, cut⟩] } := by
  simp only [Sys.send, Sys.put, frame_bytes_eq] at h
  split at h <;> (cases h; exact ⟨_, _, rfl⟩)

theorem put_shape {S : SysCfg V E SC Ctx} {s s' : Sys V E SC Ctx} {o : Out V} (h : Sys.put S s o = some s') :
    s' = { s with air := s.air ++ Out.bits S.enc o, outs := s.outs ++ [o] } := by
  simp only [Sys.put, frame_bytes_eq] at h
  cases h; rfl

theorem lab_grow {a : App V E SC Ctx} {S : SysCfg V E SC Ctx} {s s' : Sys V E SC Ctx} (ht : ∃ x, s'.tasks = s.tasks ++ x) (ho : s'.old = s.old)
    {o : Out V} (hi : OutOk a S s o) : s'.lab a S o = s.lab a S o := by
  unfold Sys.lab
  rw [ho]
  congr 1
  cases hs : o.src with
  | task i =>
    unfold OutOk at hi
    rw [hs] at hi
    obtain ⟨j, t, _, _, h1, _⟩ := hi
    show (if s.old ≤ i then Option.map (fun x => x.fst) s'.tasks[i]? else none) = if s.old ≤ i then Option.map (fun x => x.fst) s.tasks[i]? else none
    rw [h1, get_append ht h1]
  | _ => rfl

theorem onceInv_step {a : App V E SC Ctx} {S : SysCfg V E SC Ctx} {s s' : Sys V E SC Ctx} {l : SLabel V} (x : OnceCtx a S)
    (si : SysInvR a S s) (inv : OnceInv a S s) (hnew : ∀ i v, l = .task_reply i v → ¬ Replied s i) (hlen : s.old ≤ s.tasks.length)
    (h : sys_step S s l = some s') : OnceInv a S s' := by
  cases l with
  | client l =>
    simp only [sys_step, client_step] at h
    repeat' split at h
    all_goals first
      | (cases h; done)
      | (cases h; exact inv.same rfl rfl rfl rfl (Nat.le_refl _))
  | serve =>
    obtain ⟨b, up, srv, hb, rfl, hp, hc⟩ := serve_handle h
    have hev : ∃ ev, srv.log = s.srv.log ++ ev ∧ answered a S.kkind ev ≤ 1 := by
      rcases hc with rfl | ⟨hdr, body, r, _, hh⟩
      · exact ⟨[], by simp, Nat.zero_le _⟩
      · exact handle_once x hh
    obtain ⟨ev, h1, h2⟩ := hev
    have hd : srv.log.drop s.srv.log.length = ev := by rw [h1]; simp
    have hcount := answered_eq a S (s.served S up srv) s.taken s.srv.log ev
    have epend : (s.served S up srv).pending = sent_ok S.cut (.req s.taken) s.srv.log ev := by simp only [Sys.served, hd]
    have etask : (s.served S up srv).tasks = s.tasks ++ spawned_ok s.taken ev := by simp only [Sys.served, hd]
    have hel : ∀ o ∈ s.outs, (s.served S up srv).lab a S o = s.lab a S o := fun o ho => lab_grow ⟨_, etask⟩ rfl (si.outs o ho)
    have eouts : s.outs.filterMap ((s.served S up srv).lab a S) = s.outs.filterMap (s.lab a S) := filterMap_same hel
    have plab : ∀ o ∈ sent_ok S.cut (.req s.taken) s.srv.log ev, ∀ j, (s.served S up srv).lab a S o = some j → j = s.taken := by
      intro o ho j hj
      rcases (lab_src hj).2.2 with e | ⟨i, t, e, _⟩
      · rw [(sent_ok_mem ho).1] at e; cases e; rfl
      · rw [(sent_ok_mem ho).1] at e; cases e
    have new : ∀ {i j : Nat} {t : Task V SC}, (s.tasks ++ spawned_ok s.taken ev)[i]? = some (j, t) → s.tasks[i]? = some (j, t) ∨
        (s.tasks.length ≤ i ∧ j = s.taken ∧ (spawned_ok s.taken ev)[i - s.tasks.length]? = some (j, t)) := by
      intro i j t ht
      rcases Nat.lt_or_ge i s.tasks.length with hi | hi
      · rw [List.getElem?_append_left hi] at ht; exact .inl ht
      · rw [List.getElem?_append_right hi] at ht
        exact .inr ⟨hi, (spawned_ok_mem (List.mem_of_getElem? ht)).1, ht⟩
    refine ⟨?_, ?_, ?_, ?_, ?_⟩
    · show ((s.outs ++ (s.served S up srv).pending).filterMap _).Nodup
      rw [epend, List.filterMap_append, eouts, List.nodup_append]
      refine ⟨?_, ?_, ?_⟩
      · have := inv.nd; rw [hp, List.append_nil] at this; exact this
      · revert hcount
        cases (sent_ok S.cut (.req s.taken) s.srv.log ev).filterMap ((s.served S up srv).lab a S) with
        | nil => intro _; exact List.nodup_nil
        | cons y ys =>
          cases ys with
          | nil => intro _; simp
          | cons z zs => intro hc; simp only [List.length_cons] at hc; omega
      · intro j hj j' hj' e
        obtain ⟨o, ho, e1⟩ := List.mem_filterMap.mp hj
        obtain ⟨o', ho', e2⟩ := List.mem_filterMap.mp hj'
        have := inv.lt o (List.mem_append_left _ ho) j e1
        rw [plab o' ho' j' e2] at e
        omega
    · show ∀ o ∈ s.outs ++ (s.served S up srv).pending, _
      rw [epend, etask]
      intro o ho j hj i t ht hr hi
      rcases List.mem_append.mp ho with ho | ho
      · rw [hel o ho] at hj
        rcases new ht with ht | ⟨_, rfl, _⟩
        · exact inv.un o (List.mem_append_left _ ho) j hj i t ht hr hi
        · have := inv.lt o (List.mem_append_left _ ho) _ hj; omega
      · rw [plab o ho j hj] at ht
        rcases new ht with ht | ⟨_, _, ht⟩
        · have := inv.tlt i _ t ht hi; omega
        · have c1 : 0 < ((sent_ok S.cut (.req s.taken) s.srv.log ev).filterMap ((s.served S up srv).lab a S)).length :=
            List.length_pos_of_mem (List.mem_filterMap.mpr ⟨o, ho, hj⟩)
          have c2 : 0 < ((spawned_ok s.taken ev).filter fun p => p.2.role = .endpoint).length :=
            List.length_pos_of_mem (List.mem_filter.mpr ⟨List.mem_of_getElem? ht, by simpa using hr⟩)
          omega
    · rw [etask]
      intro i i' j t t' ht ht' hr hr' hi hi'
      rcases new ht with ht | ⟨g1, rfl, ht⟩ <;> rcases new ht' with ht' | ⟨g2, g3, ht'⟩
      · exact inv.tk i i' j t t' ht ht' hr hr' hi hi'
      · have := inv.tlt i _ t ht hi; omega
      · have := inv.tlt i' _ t' ht' hi'; omega
      · have key : ∀ (l : List (Nat × Task V SC)) (m m' : Nat) p p', l[m]? = some p → l[m']? = some p' → p.2.role = .endpoint → p'.2.role = .endpoint →
            (l.filter fun p => p.2.role = .endpoint).length ≤ 1 → m = m' := by
          intro l
          induction l with
          | nil => intro m m' p p' h; simp at h
          | cons y l ih =>
            intro m m' p p' h h' e e' hl
            have sub : ∀ {m : Nat} {p : Nat × Task V SC}, l[m]? = some p → p.2.role = .endpoint → 0 < (l.filter fun p => p.2.role = .endpoint).length := fun h e =>
              List.length_pos_of_mem (List.mem_filter.mpr ⟨List.mem_of_getElem? h, by simpa using e⟩)
            cases m with
            | zero =>
              cases m' with
              | zero => rfl
              | succ m' =>
                simp only [List.getElem?_cons_zero, Option.some.injEq] at h
                subst h
                rw [List.filter_cons, if_pos (by simpa using e), List.length_cons] at hl
                have := sub (by simpa using h') e'
                omega
            | succ m =>
              cases m' with
              | zero =>
                simp only [List.getElem?_cons_zero, Option.some.injEq] at h'
                subst h'
                rw [List.filter_cons, if_pos (by simpa using e'), List.length_cons] at hl
                have := sub (by simpa using h) e
                omega
              | succ m' =>
                rw [ih m m' p p' (by simpa using h) (by simpa using h') e e' ?_]
                rw [List.filter_cons] at hl
                split at hl
                · rw [List.length_cons] at hl; omega
                · exact hl
        have := key _ _ _ _ _ ht ht' hr hr' (by omega)
        omega
    · show ∀ o ∈ s.outs ++ (s.served S up srv).pending, _
      rw [epend]
      intro o ho j hj
      show j < s.taken + 1
      rcases List.mem_append.mp ho with ho | ho
      · rw [hel o ho] at hj
        have := inv.lt o (List.mem_append_left _ ho) j hj
        omega
      · rw [plab o ho j hj]; omega
    · rw [etask]
      intro i j t ht hi
      show j < s.taken + 1
      rcases new ht with ht | ⟨_, rfl, _⟩
      · have := inv.tlt i j t ht hi; omega
      · omega
  | reject =>
    simp only [sys_step, reject] at h
    split at h
    · cases h
      exact inv.same rfl rfl rfl rfl (Nat.le_succ _)
    · cases h
  | flush =>
    simp only [sys_step] at h
    split at h
    · cases h
    · rename_i o rest e
      rw [put_shape h]
      have el : (s.outs ++ [o]) ++ rest = s.outs ++ s.pending := by rw [e, List.append_assoc]; rfl
      exact {
        nd := by show (((s.outs ++ [o]) ++ rest).filterMap _).Nodup; rw [el]; exact inv.nd
        un := by
          show ∀ o' ∈ (s.outs ++ [o]) ++ rest, _
          rw [el]
          intro o' ho j hj i t ht hr hi
          obtain ⟨y, hy, ey⟩ := inv.un o' ho j hj i t ht hr hi
          exact ⟨y, List.mem_append_left _ hy, ey⟩
        tk := inv.tk
        lt := by show ∀ o' ∈ (s.outs ++ [o]) ++ rest, _; rw [el]; exact inv.lt
        tlt := inv.tlt }
  | task_reply i v =>
    simp only [sys_step, task_reply] at h
    split at h
    · cases h
    · rename_i j t ht
      split at h
      · cases h
      · rename_i hr
        split at h
        · cases h
        · rename_i hh hf
          obtain ⟨cut, srv, rfl⟩ := send_shape h
          have hnr := hnew i v rfl
          generalize ho : (⟨.task i, ⟨⟨(VarKey.Key8 hh.resp).shrink_to S.kkind, t.hdr.seq_no⟩, .val v⟩, cut⟩ : Out V) = o
          have hsrc : o.src = .task i := by rw [← ho]
          clear h ho
          have hlab : ∀ j', s.lab a S o = some j' → s.old ≤ i ∧ j' = j := by
            intro j' e
            rcases (lab_src e).2.2 with e | ⟨i', t', e, hi, ht'⟩
            · rw [hsrc] at e; cases e
            · rw [hsrc] at e; cases e
              rw [ht] at ht'; cases ht'
              exact ⟨hi, rfl⟩
          have hmem : ∀ o', o' ∈ (s.outs ++ [o]) ++ s.pending → o' = o ∨ o' ∈ s.outs ++ s.pending := by
            intro o' h'
            simp only [List.mem_append, List.mem_singleton] at h' ⊢
            rcases h' with (h' | h') | h'
            · exact .inr (.inl h')
            · exact .inl h'
            · exact .inr (.inr h')
          have hfree : ∀ o' ∈ s.outs ++ s.pending, s.old ≤ i → s.lab a S o' ≠ some j := fun o' h' hi e =>
            hnr (inv.un o' h' j e i t ht hr hi)
          exact {
            nd := by
              show (((s.outs ++ [o]) ++ s.pending).filterMap (s.lab a S)).Nodup
              have perm : ((s.outs ++ [o]) ++ s.pending).Perm (o :: (s.outs ++ s.pending)) := by
                rw [List.append_assoc]
                exact List.perm_middle
              rw [(perm.filterMap (s.lab a S)).nodup_iff, List.filterMap_cons]
              cases e : s.lab a S o with
              | none => exact inv.nd
              | some j' =>
                obtain ⟨hi, rfl⟩ := hlab j' e
                refine List.nodup_cons.mpr ⟨fun hm => ?_, inv.nd⟩
                obtain ⟨o', h1, h2⟩ := List.mem_filterMap.mp hm
                exact hfree o' h1 hi h2
            un := by
              show ∀ o' ∈ (s.outs ++ [o]) ++ s.pending, _
              intro o' h' j' hj i' t' ht' hr' hi'
              rcases hmem o' h' with rfl | h'
              · obtain ⟨hi, rfl⟩ := hlab j' hj
                have := inv.tk i i' j' t t' ht ht' hr hr' hi hi'
                subst this
                exact ⟨o', List.mem_append_right _ (List.mem_singleton.mpr rfl), hsrc⟩
              · obtain ⟨y, hy, ey⟩ := inv.un o' h' j' hj i' t' ht' hr' hi'
                exact ⟨y, List.mem_append_left _ hy, ey⟩
            tk := inv.tk
            lt := by
              show ∀ o' ∈ (s.outs ++ [o]) ++ s.pending, _
              intro o' h' j' hj
              rcases hmem o' h' with rfl | h'
              · obtain ⟨hi, rfl⟩ := hlab j' hj
                exact inv.tlt i j' t ht hi
              · exact inv.lt o' h' j' hj
            tlt := inv.tlt }
  | app_publish key seq v =>
    simp only [sys_step, app_publish] at h
    obtain ⟨cut, srv, rfl⟩ := send_shape h
    generalize ho : (⟨.app, ⟨⟨(VarKey.Key8 key).shrink_to S.kkind, seq⟩, .val v⟩, cut⟩ : Out V) = o
    have hsrc : o.src = .app := by rw [← ho]
    clear h ho
    have hlab : s.lab a S o = none := by
      unfold Sys.lab
      rw [hsrc]
      exact ite_self _
    have hmem : ∀ o', o' ∈ (s.outs ++ [o]) ++ s.pending → o' = o ∨ o' ∈ s.outs ++ s.pending := by
      intro o' h'
      simp only [List.mem_append, List.mem_singleton] at h' ⊢
      rcases h' with (h' | h') | h'
      · exact .inr (.inl h')
      · exact .inl h'
      · exact .inr (.inr h')
    exact {
      nd := by
        show (((s.outs ++ [o]) ++ s.pending).filterMap (s.lab a S)).Nodup
        have perm : ((s.outs ++ [o]) ++ s.pending).Perm (o :: (s.outs ++ s.pending)) := by
          rw [List.append_assoc]
          exact List.perm_middle
        rw [(perm.filterMap (s.lab a S)).nodup_iff, List.filterMap_cons, hlab]
        exact inv.nd
      un := by
        show ∀ o' ∈ (s.outs ++ [o]) ++ s.pending, _
        intro o' h' j' hj i' t' ht' hr' hi'
        rcases hmem o' h' with rfl | h'
        · have hj : s.lab a S o' = some j' := hj
          rw [hlab] at hj; cases hj
        · obtain ⟨y, hy, ey⟩ := inv.un o' h' j' hj i' t' ht' hr' hi'
          exact ⟨y, List.mem_append_left _ hy, ey⟩
      tk := inv.tk
      lt := by
        show ∀ o' ∈ (s.outs ++ [o]) ++ s.pending, _
        intro o' h' j' hj
        rcases hmem o' h' with rfl | h'
        · have hj : s.lab a S o' = some j' := hj
          rw [hlab] at hj; cases hj
        · exact inv.lt o' h' j' hj
      tlt := inv.tlt }

end PRpc
