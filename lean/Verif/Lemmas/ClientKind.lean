import Verif.Lemmas.ClientSubs
/-!
Helper lemmas about the client: finished calls stay finished, key kinds, publications, shutdown.
-/

namespace PRpc

/-- A call that has returned (or was dropped) never changes again. -/
theorem step_final {cfg : Cfg} {s s' : Client} {l : Label} (h : step cfg s l = some s') {c : Nat} {cl : Call} {r : CallRes}
    (hc : s.calls[c]? = some cl) (hp : cl.phase = .done r) : s'.calls[c]? = some cl := by
  have hs := step_core h
  have e1 : s.calls = s.core.calls := rfl
  have e2 : s'.calls = s'.core.calls := rfl
  rw [e1] at hc
  rw [e2]
  generalize s.core = a at hs hc
  generalize s'.core = b at hs
  have set : ∀ {cs : List Call} {c' : Nat} {cl' x : Call}, cs[c']? = some cl' → cs[c]? = some cl →
      (∀ r, cl'.phase ≠ .done r) → (cs.set c' x)[c]? = some cl := by
    intro cs c' cl' x h1 h2 h3
    rw [set_get h1]
    split
    · rename_i e; subst e
      rw [h1] at h2; cases h2
      exact absurd hp (h3 r)
    · exact h2
  cases hs with
  | skip => exact hc
  | add m w cs sn cl' h => exact append_get hc _
  | kind m w cs sn c' cl' k h1 h2 => exact set h1 hc (by rw [h2]; intro r hr; cases hr)
  | regOk m w cs sn c' cl' k h1 h2 => exact set h1 hc (by rw [h2]; intro r hr; cases hr)
  | dupOk m w cs sn c' cl' k h1 h2 => exact set h1 hc (by rw [h2]; intro r hr; cases hr)
  | regErr m w cs sn c' cl' k h1 h2 => exact set h1 hc (by rw [h2]; intro r hr; cases hr)
  | sent m w cs sn c' cl' k h1 h2 => exact set h1 hc (by rw [h2]; intro r hr; cases hr)
  | finish m w cs sn c' cl' p h1 h2 => exact set h1 hc h2
  | take m w cs sn c' cl' k err v h1 h2 => exact set h1 hc (by rw [h2]; intro r hr; cases hr)
  | wake => exact hc
  | nowake => exact hc

theorem run_final {cfg : Cfg} {ls : List Label} {s s' : Client} (h : run cfg ls s = some s') {c : Nat} {cl : Call} {r : CallRes}
    (hc : s.calls[c]? = some cl) (hp : cl.phase = .done r) : s'.calls[c]? = some cl :=
  run_induct (fun s => s.calls[c]? = some cl) (fun _ _ _ h1 h2 => step_final h2 h1 hp) ls s s' hc h

/-- A call's result phase. -/
theorem result_done {p : Phase} {x : Bool × RpcFrame × Nat} (h : p.result = some x) : ∃ r, p = .done r := by
  cases p with
  | done r => exact ⟨r, rfl⟩
  | _ => cases h

/-- The step is a completion, or it produces no new result and leaves the key kind alone. -/
theorem step_take {cfg : Cfg} {s s' : Client} {l : Label} (h : step cfg s l = some s') :
    (s'.kkind = s.kkind ∧ ∀ (c : Nat) cl x, s'.calls[c]? = some cl → cl.phase.result = some x → s.calls[c]? = some cl) ∨
    (∃ (c : Nat) (cl : Call) (k : VarKeyKind) (err : Bool) (v : Woken), s.calls[c]? = some cl ∧ cl.phase = .waiting k ∧
      v ∈ s.woken ∧ v.id = ⟨c, err⟩ ∧ s'.kkind = learn s.kkind k v.frame.header ∧
      s'.calls = s.calls.set c { cl with phase := .done (if err then .ErrResp v.frame v.idx else .Resp v.frame v.idx) }) := by
  have take : ∀ c cl k err, s.calls[c]? = some cl → cl.phase = .waiting k → call_take s c cl k err = some s' →
      (∃ (c : Nat) (cl : Call) (k : VarKeyKind) (err : Bool) (v : Woken), s.calls[c]? = some cl ∧ cl.phase = .waiting k ∧
      v ∈ s.woken ∧ v.id = ⟨c, err⟩ ∧ s'.kkind = learn s.kkind k v.frame.header ∧
      s'.calls = s.calls.set c { cl with phase := .done (if err then .ErrResp v.frame v.idx else .Resp v.frame v.idx) }) := by
    intro c cl k err hc hp ht
    rw [call_take] at ht
    split at ht
    · cases ht
    · rename_i v hv
      cases ht
      exact ⟨c, cl, k, err, v, hc, hp, List.mem_of_find?_eq_some hv, by simpa using List.find?_some hv, rfl, rfl⟩
  have fin : ∀ {c : Nat} {cl x : Call}, s.calls[c]? = some cl → x.phase.result = none → s'.calls = s.calls.set c x →
      ∀ (c : Nat) cl x, s'.calls[c]? = some cl → cl.phase.result = some x → s.calls[c]? = some cl := by
    intro c cl x h1 h2 e c' cl' y h3 h4
    rw [e, set_get h1] at h3
    split at h3
    · cases h3; rw [h2] at h4; cases h4
    · exact h3
  cases l with
  | call_ok c =>
    simp only [step] at h
    split at h
    · rename_i cl hc
      split at h
      · rename_i k hp; exact .inr (take c cl k false hc hp h)
      · cases h
    · cases h
  | call_err c =>
    simp only [step] at h
    split at h
    · rename_i cl hc
      split at h
      · rename_i k hp; exact .inr (take c cl k true hc hp h)
      · cases h
    · cases h
  | call_begin req resp body =>
    simp only [step] at h
    split at h
    · cases h
      refine .inl ⟨rfl, fun c cl x h1 h2 => ?_⟩
      rcases append_get_cases h1 with h1 | ⟨_, rfl⟩
      · exact h1
      · cases h2
    · cases h
  | call_begin_raw rqst resp =>
    simp only [step] at h
    split at h
    · cases h
      refine .inl ⟨rfl, fun c cl x h1 h2 => ?_⟩
      rcases append_get_cases h1 with h1 | ⟨_, rfl⟩
      · exact h1
      · cases h2
    · cases h
  | _ =>
    refine .inl ?_
    simp only [step, call_reg_ok, call_reg_err, call_send, publish_raw_begin, pub_send,
      out_poll, out_recv, out_done, in_poll, in_recv, in_lookup, in_full_send, in_full_timeout, after_lookup, in_wake,
      Client.set_phase, Client.drop_waits] at h
    repeat' split at h
    all_goals first
      | (cases h; done)
      | (cases h; exact ⟨rfl, fun c cl x h1 _ => h1⟩)
      | (cases h; exact ⟨rfl, fin (by assumption) rfl rfl⟩)
      | (cases h; split <;> exact ⟨rfl, fin (by assumption) rfl rfl⟩)

/-- Some call has completed with a response. -/
def AnyDone (s : Client) : Prop := ∃ (c : Nat) (cl : Call) (x : Bool × RpcFrame × Nat),
  s.calls[c]? = some cl ∧ cl.phase.result = some x

/-- Every response that completed a call has a key of kind `n`. -/
def Consist (n : VarKeyKind) (s : Client) : Prop := ∀ (c : Nat) (cl : Call) (err : Bool) (f : RpcFrame) (i : Nat),
  s.calls[c]? = some cl → cl.phase.result = some (err, f, i) → f.header.key.kind = n

theorem consist_back {cfg : Cfg} {n : VarKeyKind} {s s' : Client} {l : Label} (h : step cfg s l = some s') (hc : Consist n s') :
    Consist n s := by
  intro c cl err f i h1 h2
  obtain ⟨r, hr⟩ := result_done h2
  exact hc c cl err f i (step_final h h1 hr) h2

theorem anyDone_step {cfg : Cfg} {s s' : Client} {l : Label} (h : step cfg s l = some s') (hd : AnyDone s) : AnyDone s' := by
  obtain ⟨c, cl, x, h1, h2⟩ := hd
  obtain ⟨r, hr⟩ := result_done h2
  exact ⟨c, cl, x, step_final h h1 hr, h2⟩

structure KindInv (n : VarKeyKind) (s : Client) : Prop where
  done : AnyDone s → s.kkind = n
  init : ¬ AnyDone s → s.kkind = .Key8
  locals : ∀ (c : Nat) cl k, s.calls[c]? = some cl → cl.phase.kind = some k → k = .Key8 ∨ (k = n ∧ AnyDone s)

open Classical in
theorem kindInv_step {cfg : Cfg} {n : VarKeyKind} {s s' : Client} {l : Label} (h : step cfg s l = some s')
    (inv : Consist n s → KindInv n s) : Consist n s' → KindInv n s' := by
  intro hc
  have inv := inv (consist_back h hc)
  have hk : s.kkind = .Key8 ∨ (s.kkind = n ∧ AnyDone s) := by
    by_cases hd : AnyDone s
    · exact .inr ⟨inv.done hd, hd⟩
    · exact .inl (inv.init hd)
  have locals : ∀ (c : Nat) cl k, s'.calls[c]? = some cl → cl.phase.kind = some k → k = .Key8 ∨ (k = n ∧ AnyDone s') := by
    intro c cl k h1 h2
    have : k = .Key8 ∨ (k = n ∧ AnyDone s) := by
      rcases step_phase h h1 h2 with ⟨cl0, g1, g2⟩ | rfl
      · exact inv.locals c cl0 k g1 g2
      · exact hk
    rcases this with e | ⟨e, hd⟩
    · exact .inl e
    · exact .inr ⟨e, anyDone_step h hd⟩
  rcases step_take h with ⟨e, hr⟩ | ⟨c, cl, k, err, v, h1, h2, h3, h4, h5, h6⟩
  · refine ⟨?_, ?_, locals⟩
    · rintro ⟨c, cl, x, g1, g2⟩
      rw [e]
      exact inv.done ⟨c, cl, x, hr c cl x g1 g2, g2⟩
    · intro hd
      rw [e]
      exact inv.init (fun hd' => hd (anyDone_step h hd'))
  · have hget : s'.calls[c]? = some { cl with phase := .done (if err then .ErrResp v.frame v.idx else .Resp v.frame v.idx) } := by
      rw [h6]; exact (set_get h1 _ _).trans (if_pos rfl)
    have hres : (Phase.done (if err then .ErrResp v.frame v.idx else .Resp v.frame v.idx)).result = some (err, v.frame, v.idx) := by
      cases err <;> rfl
    have hkind : v.frame.header.key.kind = n := hc c _ err v.frame v.idx hget hres
    have hkk : s'.kkind = n := by
      rw [h5, learn]
      split
      · exact hkind
      · rename_i hne
        simp only [ne_eq, Decidable.not_not] at hne
        rw [hkind] at hne
        rcases hk with e | ⟨e, _⟩
        · rcases inv.locals c cl k h1 (by rw [h2]; rfl) with e' | ⟨_, hd⟩
          · rw [e, ← e', hne]
          · exact inv.done hd
        · exact e
    exact ⟨fun _ => hkk, fun hd => absurd ⟨c, _, _, hget, hres⟩ hd, locals⟩

theorem reachable_kindInv {cfg : Cfg} {n : VarKeyKind} {s : Client} (h : Reachable cfg s) (hc : Consist n s) : KindInv n s :=
  reachable_induct (fun s => Consist n s → KindInv n s)
    (fun _ => ⟨fun ⟨c, cl, x, h, _⟩ => by simp [Client.new] at h, fun _ => rfl,
      fun c cl k h => by simp [Client.new] at h⟩)
    (fun _ _ _ inv hs => kindInv_step hs inv) h hc

/-- The client's key kind is the initial one or that of some response that completed a call. -/
theorem reachable_kkind_learned {cfg : Cfg} {s : Client} (h : Reachable cfg s) :
    s.kkind = .Key8 ∨ ∃ (c : Nat) (cl : Call) (err : Bool) (f : RpcFrame) (i : Nat),
      s.calls[c]? = some cl ∧ cl.phase.result = some (err, f, i) ∧ f.header.key.kind = s.kkind := by
  refine reachable_induct (fun s => s.kkind = .Key8 ∨ ∃ (c : Nat) (cl : Call) (err : Bool) (f : RpcFrame) (i : Nat),
      s.calls[c]? = some cl ∧ cl.phase.result = some (err, f, i) ∧ f.header.key.kind = s.kkind) (.inl rfl) ?_ h
  intro s l s' inv hs
  have keep : s'.kkind = s.kkind → s'.kkind = .Key8 ∨ ∃ (c : Nat) (cl : Call) (err : Bool) (f : RpcFrame) (i : Nat),
      s'.calls[c]? = some cl ∧ cl.phase.result = some (err, f, i) ∧ f.header.key.kind = s'.kkind := by
    intro e
    rw [e]
    rcases inv with h | ⟨c, cl, err, f, i, h1, h2, h3⟩
    · exact .inl h
    · obtain ⟨r, hr⟩ := result_done h2
      exact .inr ⟨c, cl, err, f, i, step_final hs h1 hr, h2, h3⟩
  rcases step_take hs with ⟨e, _⟩ | ⟨c, cl, k, err, v, h1, h2, h3, h4, h5, h6⟩
  · exact keep e
  · by_cases hne : v.frame.header.key.kind ≠ k
    · rw [learn, if_pos hne] at h5
      refine .inr ⟨c, { cl with phase := .done (if err then .ErrResp v.frame v.idx else .Resp v.frame v.idx) }, err,
        v.frame, v.idx, ?_, ?_, h5.symm⟩
      · rw [h6]; exact (set_get h1 _ _).trans (if_pos rfl)
      · cases err <;> rfl
    · rw [learn, if_neg hne] at h5
      exact keep h5

/-- A call keeps its request and, until it is over, the key kind it took. -/
theorem step_kind_kept {cfg : Cfg} {s s' : Client} {l : Label} (h : step cfg s l = some s') {c : Nat} {cl : Call}
    {k : VarKeyKind} (hc : s.calls[c]? = some cl)
    (hk : cl.phase.kind = some k ∨ (∃ r, cl.phase = .done r) ∨ cl.phase = .dropped) :
    ∃ cl', s'.calls[c]? = some cl' ∧ cl'.rqst = cl.rqst ∧
      (cl'.phase.kind = some k ∨ (∃ r, cl'.phase = .done r) ∨ cl'.phase = .dropped) := by
  have hs := step_core h
  have e1 : s.calls = s.core.calls := rfl
  have e2 : s'.calls = s'.core.calls := rfl
  rw [e1] at hc
  rw [e2]
  generalize s.core = a at hs hc
  generalize s'.core = b at hs
  have set : ∀ {cs : List Call} {c' : Nat} {cl' x : Call}, cs[c']? = some cl' → cs[c]? = some cl → x.rqst = cl'.rqst →
      (c = c' → (x.phase.kind = some k ∨ (∃ r, x.phase = .done r) ∨ x.phase = .dropped)) →
      ∃ cl', (cs.set c' x)[c]? = some cl' ∧ cl'.rqst = cl.rqst ∧
      (cl'.phase.kind = some k ∨ (∃ r, cl'.phase = .done r) ∨ cl'.phase = .dropped) := by
    intro cs c' cl' x h1 h2 h3 h4
    rw [set_get h1]
    split
    · rename_i e; subst e
      rw [h1] at h2; cases h2
      exact ⟨x, rfl, h3, h4 rfl⟩
    · exact ⟨cl, h2, rfl, hk⟩
  have same : ∀ {cs : List Call} {c' : Nat} {cl' : Call} {p q : Phase} {k' : VarKeyKind}, cs[c']? = some cl' → cs[c]? = some cl →
      cl'.phase = p → p.kind = some k' → q.kind = some k' → c = c' →
      (q.kind = some k ∨ (∃ r, q = .done r) ∨ q = .dropped) := by
    intro cs c' cl' p q k' h1 h2 h3 h4 h5 e
    subst e
    rw [h1] at h2; cases h2
    rcases hk with h | ⟨r, h⟩ | h
    · rw [h3, h4] at h; cases h; exact .inl h5
    · rw [h3] at h; subst h; cases h4
    · rw [h3] at h; subst h; cases h4
  cases hs with
  | skip => exact ⟨cl, hc, rfl, hk⟩
  | add m w cs sn cl' h => exact ⟨cl, append_get hc _, rfl, hk⟩
  | kind m w cs sn c' cl' k' h1 h2 =>
    refine set h1 hc rfl (fun e => ?_)
    subst e
    simp only at hc
    rw [h1] at hc; cases hc
    rw [h2] at hk
    rcases hk with h | ⟨r, h⟩ | h <;> cases h
  | regOk m w cs sn c' cl' k' h1 h2 => exact set h1 hc rfl (fun e => same (q := .half k') h1 hc h2 rfl rfl e)
  | dupOk m w cs sn c' cl' k' h1 h2 => exact set h1 hc rfl (fun _ => .inr (.inl ⟨_, rfl⟩))
  | regErr m w cs sn c' cl' k' h1 h2 => exact set h1 hc rfl (fun e => same (q := .registered k') h1 hc h2 rfl rfl e)
  | sent m w cs sn c' cl' k' h1 h2 => exact set h1 hc rfl (fun e => same (q := .waiting k') h1 hc h2 rfl rfl e)
  | finish m w cs sn c' cl' p h1 h2 h3 =>
    refine set h1 hc rfl (fun _ => ?_)
    rcases h3 with rfl | rfl | rfl
    · exact .inr (.inr rfl)
    · exact .inr (.inl ⟨_, rfl⟩)
    · exact .inr (.inl ⟨_, rfl⟩)
  | take m w cs sn c' cl' k err v h1 h2 => exact set h1 hc rfl (fun _ => .inr (.inl ⟨_, rfl⟩))
  | wake => exact ⟨cl, hc, rfl, hk⟩
  | nowake => exact ⟨cl, hc, rfl, hk⟩

theorem run_kind_kept {cfg : Cfg} {ls : List Label} {s s' : Client} (h : run cfg ls s = some s') {c : Nat} {cl : Call}
    {k : VarKeyKind} (hc : s.calls[c]? = some cl) (hk : cl.phase.kind = some k) :
    ∃ cl', s'.calls[c]? = some cl' ∧ cl'.rqst = cl.rqst ∧
      (cl'.phase.kind = some k ∨ (∃ r, cl'.phase = .done r) ∨ cl'.phase = .dropped) := by
  refine run_induct (fun s => ∃ cl', s.calls[c]? = some cl' ∧ cl'.rqst = cl.rqst ∧
      (cl'.phase.kind = some k ∨ (∃ r, cl'.phase = .done r) ∨ cl'.phase = .dropped)) ?_ ls s s' ⟨cl, hc, rfl, .inl hk⟩ h
  intro s l s' ⟨cl', h1, h2, h3⟩ hs
  obtain ⟨cl2, g1, g2, g3⟩ := step_kind_kept hs h1 h3
  exact ⟨cl2, g1, g2.trans h2, g3⟩

/-- A publication keeps its frame; once returned it keeps its result. -/
theorem step_pub_kept {cfg : Cfg} {s s' : Client} {l : Label} (h : step cfg s l = some s') {p : Nat} {pb : Pub}
    (hp : s.pubs[p]? = some pb) : ∃ pb', s'.pubs[p]? = some pb' ∧ pb'.frame = pb.frame ∧ pb'.orig = pb.orig ∧
      (pb.res ≠ none → pb' = pb) := by
  have hlt : p < s.pubs.length := by
    rcases Nat.lt_or_ge p s.pubs.length with h | h
    · exact h
    · rw [List.getElem?_eq_none h] at hp; cases hp
  have set : ∀ {q : Nat} {qb : Pub} {r : Option Bool}, s.pubs[q]? = some qb → qb.res = none →
      s'.pubs = s.pubs.set q { qb with res := r } → ∃ pb', s'.pubs[p]? = some pb' ∧ pb'.frame = pb.frame ∧
        pb'.orig = pb.orig ∧ (pb.res ≠ none → pb' = pb) := by
    intro q qb r h1 h2 e
    rw [e, List.getElem?_set]
    by_cases hq : q = p
    · subst hq
      rw [hp] at h1; cases h1
      rw [if_pos rfl, if_pos hlt]
      exact ⟨_, rfl, rfl, rfl, fun h => absurd h2 h⟩
    · rw [if_neg hq]
      exact ⟨pb, hp, rfl, rfl, fun _ => rfl⟩
  cases l with
  | pub_begin f =>
    simp only [step, publish_raw_begin] at h
    split at h
    · cases h
      exact ⟨pb, by simp only; rw [List.getElem?_append_left hlt]; exact hp, rfl, rfl, fun _ => rfl⟩
    · cases h
  | pub_send q =>
    simp only [step, pub_send] at h
    repeat' split at h
    all_goals first
      | (cases h; done)
      | (cases h; exact set (by assumption) (by assumption) rfl)
  | pub_closed q =>
    simp only [step] at h
    split at h
    · split at h
      · rename_i hh
        cases h
        exact set (by assumption) hh.1 rfl
      · cases h
    · cases h
  | _ =>
    refine ⟨pb, ?_, rfl, rfl, fun _ => rfl⟩
    simp only [step, send_resp_begin, call_reg_ok, call_reg_err, call_send, call_take,
      out_poll, out_recv, out_done, in_poll, in_recv, in_lookup, in_full_send, in_full_timeout, after_lookup, in_wake,
      Client.set_phase, Client.drop_waits] at h
    repeat' split at h
    all_goals first
      | (cases h; done)
      | (cases h; exact hp)
      | (cases h; split <;> exact hp)

@[simp] theorem subscribe_inner_stopped (s : Subs) (k : Key) (d : Nat) : (subscribe_inner s k d).2.stopped = s.stopped := by
  simp only [subscribe_inner]; repeat' split
  all_goals rfl

@[simp] theorem subscribe_excl_stopped (s : Subs) (k : Key) (d : Nat) : (subscribe_inner_exclusive s k d).2.stopped = s.stopped := by
  simp only [subscribe_inner_exclusive]; repeat' split
  all_goals rfl

@[simp] theorem subscribe_multi_stopped (s : Subs) (k : Key) (d : Nat) : (subscribe_multi_inner s k d).2.stopped = s.stopped := by
  simp only [subscribe_multi_inner]; repeat' split
  all_goals rfl

@[simp] theorem sub_recv_stopped (s : Subs) (i : Nat) : (sub_recv s i).2.stopped = s.stopped := by
  simp only [sub_recv]; repeat' split
  all_goals rfl

@[simp] theorem multi_recv_stopped (s : Subs) (i : Nat) : (multi_recv s i).2.stopped = s.stopped := by
  simp only [multi_recv]; repeat' split
  all_goals rfl

@[simp] theorem sub_drop_stopped (s : Subs) (i : Nat) : (sub_drop s i).stopped = s.stopped := by
  simp only [sub_drop]; repeat' split
  all_goals rfl

@[simp] theorem multi_drop_stopped (s : Subs) (i : Nat) : (multi_drop s i).stopped = s.stopped := by
  simp only [multi_drop]; repeat' split
  all_goals rfl

@[simp] theorem retain_subs_stopped (s : Subs) (k : VarKey) (a b : Bool) : (retain_subs s k a b).stopped = s.stopped := by
  simp only [retain_subs]; repeat' split
  all_goals rfl

@[simp] theorem note_dropped_stopped (s : Subs) (i : Nat) : (note_dropped s i).stopped = s.stopped := by
  simp only [note_dropped]; repeat' split
  all_goals rfl

@[simp] theorem try_send_stopped (s : Subs) (i : Nat) (f : RpcFrame) : (try_send s i f).2.stopped = s.stopped := by
  simp only [try_send]; repeat' split
  all_goals rfl

@[simp] theorem bcast_send_stopped (s : Subs) (i : Nat) (f : RpcFrame) : (bcast_send s i f).2.stopped = s.stopped := by
  simp only [bcast_send]; repeat' split
  all_goals rfl

theorem lookup_stopped (z : Bool) (s : Subs) (f : RpcFrame) : (subs_lookup z s f).2.stopped = s.stopped := by
  rw [subs_lookup_eq]
  have hb : (lookupB { s with arrived := s.arrived ++ [f] } f).2.2.stopped = s.stopped := by
    rw [lookupB]; split
    · simp
    · rfl
  refine Eq.trans ?_ hb
  generalize lookupB { s with arrived := s.arrived ++ [f] } f = x
  rw [lookupE]
  split
  · rename_i id _
    have ht := try_send_stopped x.2.2 id f
    rcases h : try_send x.2.2 id f with ⟨r, t⟩
    rw [h] at ht
    cases r
    · simpa [h] using ht
    · simp only [h]
      split <;> simpa using ht
    · simpa [h] using ht
  · simp

/-- In a stopped, empty table every operation leaves flag and lists alone. -/
theorem stopped_ops {s : Subs} (h : s.stopped = true) : (∀ k d, (subscribe_inner s k d).2 = s) ∧
    (∀ k d, (subscribe_inner_exclusive s k d).2 = s) ∧ (∀ k d, (subscribe_multi_inner s k d).2 = s) := by
  refine ⟨fun k d => ?_, fun k d => ?_, fun k d => ?_⟩
  · rw [subscribe_inner]; split
    · rfl
    · simp [h]
  · rw [subscribe_inner_exclusive]; split
    · rfl
    · simp [h]
  · rw [subscribe_multi_inner]; simp [h]

theorem recv_lists (s : Subs) (i : Nat) : (sub_recv s i).2.exclusive_list = s.exclusive_list ∧
    (sub_recv s i).2.broadcast_list = s.broadcast_list ∧ (multi_recv s i).2.exclusive_list = s.exclusive_list ∧
    (multi_recv s i).2.broadcast_list = s.broadcast_list ∧ (sub_drop s i).exclusive_list = s.exclusive_list ∧
    (sub_drop s i).broadcast_list = s.broadcast_list ∧ (multi_drop s i).exclusive_list = s.exclusive_list ∧
    (multi_drop s i).broadcast_list = s.broadcast_list := by
  simp only [sub_recv, multi_recv, sub_drop, multi_drop]
  refine ⟨?_, ?_, ?_, ?_, ?_, ?_, ?_, ?_⟩ <;> (repeat' split) <;> rfl

/-- Worker exit and the table's `stopped` flag go together; a stopped table is empty. -/
structure PurgeInv (s : Client) : Prop where
  iff : s.subs.stopped = true ↔ s.in_pc = .exited
  empty : s.subs.stopped = true → s.subs.exclusive_list = [] ∧ s.subs.broadcast_list = []
  stop : s.in_pc.over = true → s.stopped = true
  out : s.out_pc = .exited → s.stopped = true


theorem purgeInv_new : PurgeInv Client.new :=
  ⟨⟨fun h => (by cases h), fun h => (by cases h)⟩, fun h => (by cases h), fun h => (by cases h), fun h => (by cases h)⟩

theorem purgeInv_step {cfg : Cfg} {s s' : Client} {l : Label} (h : step cfg s l = some s') (inv : PurgeInv s) : PurgeInv s' := by
  have same : s'.subs.stopped = s.subs.stopped → s'.in_pc = s.in_pc →
      (s.subs.stopped = true → s'.subs.exclusive_list = s.subs.exclusive_list ∧ s'.subs.broadcast_list = s.subs.broadcast_list) →
      (s.stopped = true → s'.stopped = true) → (s'.out_pc = .exited → s.out_pc = .exited ∨ s'.stopped = true) →
      PurgeInv s' := by
    intro h1 h2 h3 h4 h5
    refine ⟨by rw [h1, h2]; exact inv.iff, fun h => ?_, fun h => h4 (inv.stop (by rw [← h2]; exact h)), fun h => ?_⟩
    · rw [h1] at h
      rw [(h3 h).1, (h3 h).2]; exact inv.empty h
    · rcases h5 h with h | h
      · exact h4 (inv.out h)
      · exact h
  have live : ∀ {pc : InPc}, s.in_pc.over = false → pc.over = false → s'.in_pc = pc → s'.subs.stopped = s.subs.stopped →
      s'.stopped = s.stopped → s'.out_pc = s.out_pc → PurgeInv s' := by
    intro pc h1 h2 h3 h4 h5 h6
    have hn : s.subs.stopped = false := by
      cases hb : s.subs.stopped with
      | false => rfl
      | true => rw [inv.iff.mp hb] at h1; cases h1
    refine ⟨?_, ?_, ?_, ?_⟩
    · rw [h4, hn, h3]
      refine ⟨fun h => (by cases h), fun h => (by rw [h] at h2; cases h2)⟩
    · intro h; rw [h4, hn] at h; cases h
    · intro h; rw [h3, h2] at h; cases h
    · intro h; rw [h5]; rw [h6] at h; exact inv.out h
  cases l with
  | in_lookup =>
    simp only [step, in_lookup] at h
    split at h
    · rename_i f hp _
      have hb := lookup_stopped cfg.zero s.subs f
      split at h
      · rename_i hd sb he
        cases h
        rw [he] at hb
        refine live (by rw [hp]; rfl) (over_recv_wake hd f) rfl hb rfl rfl
      · rename_i id rm sb he
        cases h
        rw [he] at hb
        exact live (by rw [hp]; rfl) (pc := .full f id rm) rfl rfl hb rfl rfl
    · cases h
  | in_full_send =>
    simp only [step, in_full_send] at h
    split at h
    · rename_i f id rm hp _
      have hb := try_send_stopped s.subs id f
      rcases e : try_send s.subs id f with ⟨r, t⟩
      rw [e] at h hb
      cases r
      · cases h; exact live (by rw [hp]; rfl) (over_recv_wake true f) rfl (by simpa [after_lookup] using hb) rfl rfl
      · cases h
      · cases h; exact live (by rw [hp]; rfl) (over_recv_wake true f) rfl (by simpa [after_lookup] using hb) rfl rfl
    · cases h
  | in_full_timeout =>
    simp only [step, in_full_timeout] at h
    split at h
    · rename_i f id rm hp _
      cases h
      exact live (by rw [hp]; rfl) (over_recv_wake true f) rfl (by simp [after_lookup]) rfl rfl
    · cases h
  | in_poll =>
    simp only [step, in_poll] at h
    split at h
    · cases h
    · rename_i hn
      have hns : s.subs.stopped = false := by
        cases hb : s.subs.stopped with
        | false => rfl
        | true => exact absurd (.inr (.inl (inv.iff.mp hb))) hn
      split at h
      · rename_i hst
        cases h
        exact ⟨⟨fun h => (by rw [hns] at h; cases h), fun h => (by cases h)⟩, fun h => (by rw [hns] at h; cases h),
          fun _ => hst, fun _ => hst⟩
      · cases h
        exact ⟨inv.iff, inv.empty, inv.stop, inv.out⟩
  | in_recv r =>
    simp only [step, in_recv] at h
    split at h
    · rename_i hp
      have hov : s.in_pc.over = false := by rw [hp.1]; rfl
      have hns : s.subs.stopped = false := by
        cases hb : s.subs.stopped with
        | false => rfl
        | true => rw [inv.iff.mp hb] at hov; cases hov
      split at h
      · cases h
        exact ⟨⟨fun h => (by rw [hns] at h; cases h), fun h => (by cases h)⟩, fun h => (by rw [hns] at h; cases h),
          fun _ => rfl, fun _ => rfl⟩
      · split at h
        · cases h
        · cases h; exact inv
        · rename_i hdr body _
          cases h
          exact live hov (pc := .lookup ⟨hdr, body⟩) rfl rfl rfl rfl rfl
    · cases h
  | in_wake w =>
    simp only [step, in_wake] at h
    split at h
    · rename_i hp _
      repeat' split at h
      all_goals first
        | (cases h; done)
        | (cases h; exact live (by rw [hp]; rfl) (pc := .recv) rfl rfl rfl rfl rfl)
    · cases h
  | in_purge =>
    simp only [step] at h
    split at h
    · rename_i hp
      cases h
      exact ⟨⟨fun _ => rfl, fun _ => rfl⟩, fun _ => ⟨rfl, rfl⟩, fun _ => inv.stop (by rw [hp]; rfl), inv.out⟩
    · cases h
  | sub_excl key depth =>
    simp only [step] at h
    split at h
    · cases h
      exact same (by simp) rfl (fun hh => by simp only [(stopped_ops hh).2.1]; exact ⟨trivial, trivial⟩) (fun h => h) (fun h => .inl h)
    · cases h
  | sub_repl key depth =>
    simp only [step] at h
    split at h
    · cases h
      exact same (by simp) rfl (fun hh => by simp only [(stopped_ops hh).1]; exact ⟨trivial, trivial⟩) (fun h => h) (fun h => .inl h)
    · cases h
  | sub_multi key depth =>
    simp only [step] at h
    split at h
    · cases h
      exact same (by simp) rfl (fun hh => by simp only [(stopped_ops hh).2.2]; exact ⟨trivial, trivial⟩) (fun h => h) (fun h => .inl h)
    · cases h
  | recv_excl id =>
    simp only [step] at h
    cases h
    have := recv_lists s.subs id
    exact same (by simp) rfl (fun _ => ⟨this.1, this.2.1⟩) (fun h => h) (fun h => .inl h)
  | recv_multi id =>
    simp only [step] at h
    cases h
    have := recv_lists s.subs id
    exact same (by simp) rfl (fun _ => ⟨this.2.2.1, this.2.2.2.1⟩) (fun h => h) (fun h => .inl h)
  | drop_excl id =>
    simp only [step] at h
    cases h
    have := recv_lists s.subs id
    exact same (by simp) rfl (fun _ => ⟨this.2.2.2.2.1, this.2.2.2.2.2.1⟩) (fun h => h) (fun h => .inl h)
  | drop_multi id =>
    simp only [step] at h
    cases h
    have := recv_lists s.subs id
    exact same (by simp) rfl (fun _ => ⟨this.2.2.2.2.2.2.1, this.2.2.2.2.2.2.2⟩) (fun h => h) (fun h => .inl h)
  | _ =>
    simp only [step, send_resp_begin, call_reg_ok, call_reg_err, call_send, call_take, publish_raw_begin, pub_send,
      out_poll, out_recv, out_done, Client.set_phase, Client.drop_waits] at h
    repeat' split at h
    all_goals first
      | (cases h; done)
      | (cases h; exact same rfl rfl (fun _ => ⟨rfl, rfl⟩) (fun h => h) (fun h => .inl h))
      | (cases h; exact same rfl rfl (fun _ => ⟨rfl, rfl⟩) (fun h => h) (fun h => .inr (by assumption)))
      | (cases h; exact same rfl rfl (fun _ => ⟨rfl, rfl⟩) (fun _ => rfl) (fun h => .inl h))
      | (cases h; exact same rfl rfl (fun _ => ⟨rfl, rfl⟩) (fun _ => rfl) (fun h => .inr rfl))
      | (cases h; exact same rfl rfl (fun _ => ⟨rfl, rfl⟩) (fun h => h) (fun h => by cases h))
      | (cases h; split <;> exact same rfl rfl (fun _ => ⟨rfl, rfl⟩) (fun h => h) (fun h => .inl h))

theorem reachable_purgeInv {cfg : Cfg} {s : Client} (h : Reachable cfg s) : PurgeInv s :=
  reachable_induct PurgeInv purgeInv_new (fun _ _ _ inv hs => purgeInv_step hs inv) h

end PRpc
