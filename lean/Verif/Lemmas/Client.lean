import Verif.Model.Client
import Verif.Lemmas.Header
import Verif.Lemmas.Key
/-!
Helper lemmas about the client's transition system: calls, wait map and responses.
-/

namespace PRpc

theorem run_append {cfg : Cfg} (a b : List Label) (s : Client) :
    run cfg (a ++ b) s = (run cfg a s).bind (run cfg b) := by
  induction a generalizing s with
  | nil => rfl
  | cons l a ih =>
    simp only [List.cons_append, run]
    cases step cfg s l with
    | none => rfl
    | some s' => exact ih s'

theorem reachable_new (cfg : Cfg) : Reachable cfg Client.new := ⟨[], rfl⟩

theorem reachable_step {cfg : Cfg} {s s' : Client} {l : Label} (h : Reachable cfg s) (hs : step cfg s l = some s') :
    Reachable cfg s' := by
  obtain ⟨ls, h⟩ := h
  refine ⟨ls ++ [l], ?_⟩
  rw [run_append, h]
  simp [run, hs]

theorem run_induct {cfg : Cfg} (P : Client → Prop) (hs : ∀ s l s', P s → step cfg s l = some s' → P s')
    (ls : List Label) (s s' : Client) (h0 : P s) (h : run cfg ls s = some s') : P s' := by
  induction ls generalizing s with
  | nil => cases h; exact h0
  | cons l ls ih =>
    rw [run] at h
    cases e : step cfg s l with
    | none => rw [e] at h; cases h
    | some s1 => rw [e] at h; exact ih s1 (hs s l s1 h0 e) h

theorem reachable_induct {cfg : Cfg} (P : Client → Prop) (h0 : P Client.new)
    (hs : ∀ s l s', P s → step cfg s l = some s' → P s') {s : Client} (h : Reachable cfg s) : P s := by
  obtain ⟨ls, h⟩ := h
  exact run_induct P hs ls _ _ h0 h

/-- The part of the state that matters for responses. -/
structure Core where
  map : List (WaitId × VarHeader)
  woken : List Woken
  calls : List Call
  seen : List RpcFrame

def Client.core (s : Client) : Core := ⟨s.map, s.woken, s.calls, s.seen⟩

/-- The header a call's waiter is registered under. -/
def waitHdr (cfg : Cfg) (cl : Call) (k : VarKeyKind) (err : Bool) : VarHeader :=
  if err then cl.err_hdr cfg k else cl.ok_hdr k

/-- The call has registered this waiter and not finished: the key kind it uses. -/
def Phase.hasWait : Phase → Bool → Option VarKeyKind
  | .half k, false => some k
  | .registered k, _ => some k
  | .waiting k, _ => some k
  | _, _ => none

/-- The steps, as far as `Core` is concerned. -/
inductive CoreStep (cfg : Cfg) : Core → Core → Prop where
  | skip (m) : CoreStep cfg m m
  | add (m w cs sn) (cl : Call) (h : cl.phase = .begun) : CoreStep cfg ⟨m, w, cs, sn⟩ ⟨m, w, cs ++ [cl], sn⟩
  | kind (m w cs sn) (c : Nat) (cl : Call) (k) (hc : cs[c]? = some cl) (h : cl.phase = .begun) :
    CoreStep cfg ⟨m, w, cs, sn⟩ ⟨m, w, cs.set c { cl with phase := .kinded k }, sn⟩
  | regOk (m w cs sn) (c : Nat) (cl : Call) (k) (hc : cs[c]? = some cl) (h : cl.phase = .kinded k)
    (hd : ∀ x ∈ m, x.2.eq (cl.ok_hdr k) = false) :
    CoreStep cfg ⟨m, w, cs, sn⟩ ⟨m ++ [(⟨c, false⟩, cl.ok_hdr k)], w,
      cs.set c { cl with phase := .half k, reg_at := sn.length }, sn⟩
  | dupOk (m w cs sn) (c : Nat) (cl : Call) (k) (hc : cs[c]? = some cl) (h : cl.phase = .kinded k)
    (hd : ∃ x ∈ m, x.2.eq (cl.ok_hdr k) = true) :
    CoreStep cfg ⟨m, w, cs, sn⟩ ⟨m, w, cs.set c { cl with phase := .done .BadResponse }, sn⟩
  | regErr (m w cs sn) (c : Nat) (cl : Call) (k) (hc : cs[c]? = some cl) (h : cl.phase = .half k)
    (hd : ∀ x ∈ m, x.2.eq (cl.err_hdr cfg k) = false) :
    CoreStep cfg ⟨m, w, cs, sn⟩ ⟨m ++ [(⟨c, true⟩, cl.err_hdr cfg k)], w,
      cs.set c { cl with phase := .registered k }, sn⟩
  | sent (m w cs sn) (c : Nat) (cl : Call) (k) (hc : cs[c]? = some cl) (h : cl.phase = .registered k) :
    CoreStep cfg ⟨m, w, cs, sn⟩ ⟨m, w, cs.set c { cl with phase := .waiting k }, sn⟩
  | finish (m w cs sn) (c : Nat) (cl : Call) (p) (hc : cs[c]? = some cl) (h : ∀ r, cl.phase ≠ .done r)
    (hp : p = .dropped ∨ p = .done .Closed ∨ p = .done .BadResponse) :
    CoreStep cfg ⟨m, w, cs, sn⟩ ⟨m.filter fun x => x.1.call != c, w.filter fun x => x.id.call != c,
      cs.set c { cl with phase := p }, sn⟩
  | take (m w cs sn) (c : Nat) (cl : Call) (k) (err : Bool) (v : Woken) (hc : cs[c]? = some cl)
    (h : cl.phase = .waiting k) (hv : v ∈ w) (hid : v.id = ⟨c, err⟩) :
    CoreStep cfg ⟨m, w, cs, sn⟩ ⟨m.filter fun x => x.1.call != c, w.filter fun x => x.id.call != c,
      cs.set c { cl with phase := .done (if err then .ErrResp v.frame v.idx else .Resp v.frame v.idx) }, sn⟩
  | wake (m w cs sn) (id : WaitId) (hd : VarHeader) (f : RpcFrame) (h : (id, hd) ∈ m) (he : hd.eq f.header = true) :
    CoreStep cfg ⟨m, w, cs, sn⟩ ⟨m.filter fun x => x.1 != id, w ++ [⟨id, f, sn.length⟩], cs, sn ++ [f]⟩
  | nowake (m w cs sn) (f : RpcFrame) (h : ∀ x ∈ m, x.2.eq f.header = false) :
    CoreStep cfg ⟨m, w, cs, sn⟩ ⟨m, w, cs, sn ++ [f]⟩

theorem map_enqueue_some {m m' : List (WaitId × VarHeader)} {id : WaitId} {h : VarHeader}
    (e : map_enqueue m id h = some m') : m' = m ++ [(id, h)] ∧ ∀ x ∈ m, x.2.eq h = false := by
  rw [map_enqueue] at e
  split at e
  · cases e
  · rename_i hn
    cases e
    refine ⟨rfl, fun x hx => ?_⟩
    cases hh : x.2.eq h with
    | false => rfl
    | true => exact absurd (List.any_eq_true.mpr ⟨x, hx, hh⟩) hn

theorem map_enqueue_none {m : List (WaitId × VarHeader)} {id : WaitId} {h : VarHeader}
    (e : map_enqueue m id h = none) : ∃ x ∈ m, x.2.eq h = true := by
  rw [map_enqueue] at e
  split at e
  · rename_i hn
    exact List.any_eq_true.mp hn
  · cases e

theorem step_core {cfg : Cfg} {s s' : Client} {l : Label} (h : step cfg s l = some s') :
    CoreStep cfg s.core s'.core := by
  have skip : s'.map = s.map → s'.woken = s.woken → s'.calls = s.calls → s'.seen = s.seen →
      CoreStep cfg s.core s'.core := by
    intro h1 h2 h3 h4
    have : s'.core = s.core := by simp only [Client.core, h1, h2, h3, h4]
    rw [this]; exact .skip _
  cases l with
  | call_begin req resp body =>
    simp only [step] at h
    split at h
    · cases h; exact .add _ _ _ _ _ rfl
    · cases h
  | call_begin_raw rqst resp =>
    simp only [step] at h
    split at h
    · cases h; exact .add _ _ _ _ _ rfl
    · cases h
  | call_kind c =>
    simp only [step] at h
    split at h
    · rename_i cl hc
      split at h
      · rename_i hp
        cases h
        exact .kind _ _ _ _ c cl _ hc hp
      · cases h
    · cases h
  | call_reg_ok c =>
    simp only [step] at h
    split at h
    · rename_i cl hc
      split at h
      · rename_i k hp
        cases h
        rw [call_reg_ok]
        cases e : map_enqueue s.map ⟨c, false⟩ (cl.ok_hdr k) with
        | none => exact .dupOk _ _ _ _ c cl k hc hp (map_enqueue_none e)
        | some m =>
          obtain ⟨rfl, hd⟩ := map_enqueue_some e
          exact .regOk _ _ _ _ c cl k hc hp hd
      · cases h
    · cases h
  | call_reg_err c =>
    simp only [step] at h
    split at h
    · rename_i cl hc
      split at h
      · rename_i k hp
        cases h
        rw [call_reg_err]
        cases e : map_enqueue s.map ⟨c, true⟩ (cl.err_hdr cfg k) with
        | none => exact .finish _ _ _ _ c cl _ hc (by rw [hp]; intro r hr; cases hr) (.inr (.inr rfl))
        | some m =>
          obtain ⟨rfl, hd⟩ := map_enqueue_some e
          exact .regErr _ _ _ _ c cl k hc hp hd
      · cases h
    · cases h
  | call_send c =>
    simp only [step] at h
    split at h
    · rename_i cl hc
      split at h
      · rename_i k hp
        rw [call_send] at h
        split at h
        · cases h
          exact .finish _ _ _ _ c cl _ hc (by rw [hp]; intro r hr; cases hr) (.inr (.inl rfl))
        · split at h
          · cases h
            exact .sent _ _ _ _ c cl k hc hp
          · cases h
      · cases h
    · cases h
  | call_closed c =>
    simp only [step] at h
    split at h
    · rename_i cl hc
      split at h
      · rename_i k hp
        split at h
        · cases h
          exact .finish _ _ _ _ c cl _ hc (by rw [hp]; intro r hr; cases hr) (.inr (.inl rfl))
        · cases h
      · cases h
    · cases h
  | call_ok c =>
    simp only [step] at h
    split at h
    · rename_i cl hc
      split at h
      · rename_i k hp
        rw [call_take] at h
        split at h
        · cases h
        · rename_i v hv
          cases h
          exact .take _ _ _ _ c cl k false v hc hp (List.mem_of_find?_eq_some hv)
            (by simpa using List.find?_some hv)
      · cases h
    · cases h
  | call_err c =>
    simp only [step] at h
    split at h
    · rename_i cl hc
      split at h
      · rename_i k hp
        rw [call_take] at h
        split at h
        · cases h
        · rename_i v hv
          cases h
          exact .take _ _ _ _ c cl k true v hc hp (List.mem_of_find?_eq_some hv)
            (by simpa using List.find?_some hv)
      · cases h
    · cases h
  | call_drop c =>
    simp only [step] at h
    split at h
    · rename_i cl hc
      split at h
      · cases h
      · rename_i hp
        cases h
        exact .finish _ _ _ _ c cl _ hc (fun r hr => hp r hr) (.inl rfl)
    · cases h
  | in_wake w =>
    simp only [step, in_wake] at h
    split at h
    · rename_i f _ _
      split at h
      · rename_i id
        split at h
        · rename_i ha
          cases h
          obtain ⟨⟨id', hd⟩, hm, hx⟩ := List.any_eq_true.mp ha
          simp only [Bool.and_eq_true, decide_eq_true_eq] at hx
          obtain ⟨rfl, hx⟩ := hx
          exact .wake _ _ _ _ id' hd f hm hx
        · cases h
      · split at h
        · cases h
        · rename_i ha
          cases h
          refine .nowake _ _ _ _ f (fun x hx => ?_)
          cases hh : x.2.eq f.header with
          | false => rfl
          | true => exact absurd (List.any_eq_true.mpr ⟨x, hx, hh⟩) ha
    · cases h
  | _ =>
    simp only [step, publish_raw_begin, pub_send, out_poll, out_recv, out_done, in_poll, in_recv, in_lookup,
      in_full_send, in_full_timeout, after_lookup] at h
    repeat' split at h
    all_goals first
      | (cases h; done)
      | (cases h; exact skip rfl rfl rfl rfl)

/-- What a call's phase says about its result. -/
def Phase.result : Phase → Option (Bool × RpcFrame × Nat)
  | .done (.Resp f i) => some (false, f, i)
  | .done (.ErrResp f i) => some (true, f, i)
  | _ => none

structure CoreInv (cfg : Cfg) (s : Core) : Prop where
  mapOk : ∀ id h, (id, h) ∈ s.map → ∃ cl k, s.calls[id.call]? = some cl ∧ cl.phase.hasWait id.err = some k ∧
    h = waitHdr cfg cl k id.err ∧ cl.reg_at ≤ s.seen.length
  wokenOk : ∀ w ∈ s.woken, ∃ cl k, s.calls[w.id.call]? = some cl ∧ cl.phase.hasWait w.id.err = some k ∧
    (waitHdr cfg cl k w.id.err).eq w.frame.header = true ∧ s.seen[w.idx]? = some w.frame ∧ cl.reg_at ≤ w.idx
  doneOk : ∀ (c : Nat) cl err f (i : Nat), s.calls[c]? = some cl → cl.phase.result = some (err, f, i) →
    s.seen[i]? = some f ∧ cl.reg_at ≤ i ∧ ∃ k, (waitHdr cfg cl k err).eq f.header = true
  mapNd : (s.map.map Prod.fst).Nodup
  wokenNd : (s.woken.map Woken.id).Nodup
  disj : ∀ id h, (id, h) ∈ s.map → ∀ w ∈ s.woken, w.id ≠ id
  idxW : (s.woken.map Woken.idx).Nodup
  idxWD : ∀ w ∈ s.woken, ∀ (c : Nat) cl err f i, s.calls[c]? = some cl → cl.phase.result = some (err, f, i) → w.idx ≠ i
  idxD : ∀ (c : Nat) cl (c' : Nat) cl' err err' f f' i, s.calls[c]? = some cl → cl.phase.result = some (err, f, i) →
    s.calls[c']? = some cl' → cl'.phase.result = some (err', f', i) → c = c'
  here : ∀ (c : Nat) cl err k, s.calls[c]? = some cl → cl.phase.hasWait err = some k →
    (∃ h, (⟨c, err⟩, h) ∈ s.map) ∨ ∃ w ∈ s.woken, w.id = ⟨c, err⟩

theorem set_get {cs : List Call} {c : Nat} {cl : Call} (hc : cs[c]? = some cl) (x : Call) (i : Nat) :
    (cs.set c x)[i]? = if i = c then some x else cs[i]? := by
  have : c < cs.length := by
    rcases Nat.lt_or_ge c cs.length with h | h
    · exact h
    · rw [List.getElem?_eq_none h] at hc; cases hc
  rw [List.getElem?_set]
  by_cases h : c = i
  · subst h; simp [this]
  · rw [if_neg h, if_neg (Ne.symm h)]

theorem append_get {cs : List Call} {c : Nat} {cl : Call} (hc : cs[c]? = some cl) (x : Call) :
    (cs ++ [x])[c]? = some cl := by
  have : c < cs.length := by
    rcases Nat.lt_or_ge c cs.length with h | h
    · exact h
    · rw [List.getElem?_eq_none h] at hc; cases hc
  rw [List.getElem?_append_left this, hc]

theorem append_get_cases {cs : List Call} {c : Nat} {cl x : Call} (h : (cs ++ [x])[c]? = some cl) :
    cs[c]? = some cl ∨ (c = cs.length ∧ cl = x) := by
  rcases Nat.lt_trichotomy c cs.length with h' | h' | h'
  · rw [List.getElem?_append_left h'] at h; exact .inl h
  · subst h'
    rw [List.getElem?_append_right (Nat.le_refl _)] at h
    simp at h
    exact .inr ⟨rfl, h.symm⟩
  · rw [List.getElem?_eq_none (by simp; omega)] at h; cases h

theorem seen_get {sn : List RpcFrame} {i : Nat} {f g : RpcFrame} (h : sn[i]? = some f) : (sn ++ [g])[i]? = some f := by
  have : i < sn.length := by
    rcases Nat.lt_or_ge i sn.length with h' | h'
    · exact h'
    · rw [List.getElem?_eq_none h'] at h; cases h
  rw [List.getElem?_append_left this, h]

theorem seen_lt {sn : List RpcFrame} {i : Nat} {f : RpcFrame} (h : sn[i]? = some f) : i < sn.length := by
  rcases Nat.lt_or_ge i sn.length with h' | h'
  · exact h'
  · rw [List.getElem?_eq_none h'] at h; cases h

theorem coreInv_new (cfg : Cfg) : CoreInv cfg Client.new.core where
  mapOk := by intro id h hm; cases hm
  wokenOk := by intro w hw; cases hw
  doneOk := by intro c cl err f i hc; simp [Client.core, Client.new] at hc
  mapNd := by simp [Client.core, Client.new]
  wokenNd := by simp [Client.core, Client.new]
  disj := by intro id h hm; cases hm
  idxW := by simp [Client.core, Client.new]
  idxWD := by intro w hw; cases hw
  idxD := by intro c cl c' cl' err err' f f' i hc; simp [Client.core, Client.new] at hc
  here := by intro c cl err k hc; simp [Client.core, Client.new] at hc

/-- A call's phase changes, but not which waiters it has, and it has no result. -/
theorem coreInv_same {cfg : Cfg} {m w cs sn} (inv : CoreInv cfg ⟨m, w, cs, sn⟩) {c : Nat} {cl : Call}
    (hc : cs[c]? = some cl) (p : Phase) (hp : p.result = none)
    (hw : ∀ err, p.hasWait err = cl.phase.hasWait err) : CoreInv cfg ⟨m, w, cs.set c { cl with phase := p }, sn⟩ := by
  have get : ∀ (i : Nat) cl', (cs.set c { cl with phase := p })[i]? = some cl' →
      (i = c ∧ cl' = { cl with phase := p }) ∨ (i ≠ c ∧ cs[i]? = some cl') := by
    intro i cl' h
    rw [set_get hc] at h
    split at h
    · rename_i hi; cases h; exact .inl ⟨hi, rfl⟩
    · rename_i hi; exact .inr ⟨hi, h⟩
  refine ⟨?_, ?_, ?_, inv.mapNd, inv.wokenNd, inv.disj, inv.idxW, ?_, ?_, ?_⟩
  · intro id h hm
    obtain ⟨cl', k, h1, h2, h3, h4⟩ := inv.mapOk id h hm
    by_cases hi : id.call = c
    · rw [hi] at h1
      rw [show cs[c]? = some cl' from h1] at hc
      cases hc
      exact ⟨{ cl with phase := p }, k, by rw [hi]; exact (set_get h1 _ _).trans (if_pos rfl), (hw _).trans h2, h3, h4⟩
    · exact ⟨cl', k, by rw [set_get hc, if_neg hi]; exact h1, h2, h3, h4⟩
  · intro v hv
    obtain ⟨cl', k, h1, h2, h3, h4, h5⟩ := inv.wokenOk v hv
    by_cases hi : v.id.call = c
    · rw [hi] at h1
      rw [show cs[c]? = some cl' from h1] at hc
      cases hc
      exact ⟨{ cl with phase := p }, k, by rw [hi]; exact (set_get h1 _ _).trans (if_pos rfl), (hw _).trans h2, h3, h4, h5⟩
    · exact ⟨cl', k, by rw [set_get hc, if_neg hi]; exact h1, h2, h3, h4, h5⟩
  · intro i cl' err f j h1 h2
    rcases get i cl' h1 with ⟨_, rfl⟩ | ⟨_, h⟩
    · rw [hp] at h2; cases h2
    · exact inv.doneOk i cl' err f j h h2
  · intro v hv i cl' err f j h1 h2
    rcases get i cl' h1 with ⟨_, rfl⟩ | ⟨_, h⟩
    · rw [hp] at h2; cases h2
    · exact inv.idxWD v hv i cl' err f j h h2
  · intro i cl1 i' cl2 err err' f f' j h1 h2 h3 h4
    rcases get i cl1 h1 with ⟨_, rfl⟩ | ⟨_, h⟩
    · rw [hp] at h2; cases h2
    · rcases get i' cl2 h3 with ⟨_, rfl⟩ | ⟨_, h'⟩
      · rw [hp] at h4; cases h4
      · exact inv.idxD i cl1 i' cl2 err err' f f' j h h2 h' h4
  · intro i cl' err k h1 h2
    rcases get i cl' h1 with ⟨rfl, rfl⟩ | ⟨_, h⟩
    · exact inv.here i cl err k hc ((hw err).symm.trans h2)
    · exact inv.here i cl' err k h h2

theorem nodup_map_filter {α β : Type} {l : List α} (g : α → β) (p : α → Bool) (h : (l.map g).Nodup) :
    ((l.filter p).map g).Nodup :=
  List.Nodup.sublist (List.Sublist.map g List.filter_sublist) h

theorem inj_of_nodup_map {α β : Type} {l : List α} {g : α → β} (h : (l.map g).Nodup) {a b : α} (ha : a ∈ l) (hb : b ∈ l)
    (e : g a = g b) : a = b := by
  induction l with
  | nil => cases ha
  | cons x l ih =>
    simp only [List.map_cons, List.nodup_cons, List.mem_map] at h
    simp only [List.mem_cons] at ha hb
    rcases ha with rfl | ha <;> rcases hb with rfl | hb
    · rfl
    · exact absurd ⟨b, hb, e.symm⟩ h.1
    · exact absurd ⟨a, ha, e⟩ h.1
    · exact ih h.2 ha hb

/-- A call ends; its waiters are dropped. -/
theorem coreInv_end {cfg : Cfg} {m w cs sn} (inv : CoreInv cfg ⟨m, w, cs, sn⟩) {c : Nat} {cl : Call}
    (hc : cs[c]? = some cl) (p : Phase) (hw : ∀ err, p.hasWait err = none)
    (hr : ∀ err f i, p.result = some (err, f, i) → ∃ v ∈ w, v.id = ⟨c, err⟩ ∧ v.frame = f ∧ v.idx = i) :
    CoreInv cfg ⟨m.filter fun x => x.1.call != c, w.filter fun x => x.id.call != c,
      cs.set c { cl with phase := p }, sn⟩ := by
  have get : ∀ (i : Nat) cl', (cs.set c { cl with phase := p })[i]? = some cl' →
      (i = c ∧ cl' = { cl with phase := p }) ∨ (i ≠ c ∧ cs[i]? = some cl') := by
    intro i cl' h
    rw [set_get hc] at h
    split at h
    · rename_i hi; cases h; exact .inl ⟨hi, rfl⟩
    · rename_i hi; exact .inr ⟨hi, h⟩
  have hmem : ∀ v, v ∈ w.filter (fun x => x.id.call != c) → v ∈ w ∧ v.id.call ≠ c := by
    intro v hv
    rw [List.mem_filter] at hv
    exact ⟨hv.1, by simpa using hv.2⟩
  have hmemm : ∀ id h, (id, h) ∈ m.filter (fun x => x.1.call != c) → (id, h) ∈ m ∧ id.call ≠ c := by
    intro id h hv
    rw [List.mem_filter] at hv
    exact ⟨hv.1, by simpa using hv.2⟩
  refine ⟨?_, ?_, ?_, nodup_map_filter _ _ inv.mapNd, nodup_map_filter _ _ inv.wokenNd, ?_,
    nodup_map_filter _ _ inv.idxW, ?_, ?_, ?_⟩
  · intro id h hm
    obtain ⟨hm, hi⟩ := hmemm id h hm
    obtain ⟨cl', k, h1, h2, h3, h4⟩ := inv.mapOk id h hm
    exact ⟨cl', k, by rw [set_get hc, if_neg hi]; exact h1, h2, h3, h4⟩
  · intro v hv
    obtain ⟨hv, hi⟩ := hmem v hv
    obtain ⟨cl', k, h1, h2, h3, h4, h5⟩ := inv.wokenOk v hv
    exact ⟨cl', k, by rw [set_get hc, if_neg hi]; exact h1, h2, h3, h4, h5⟩
  · intro i cl' err f j h1 h2
    rcases get i cl' h1 with ⟨rfl, rfl⟩ | ⟨_, h⟩
    · obtain ⟨v, hv, e1, e2, e3⟩ := hr err f j h2
      obtain ⟨cl', k, g1, g2, g3, g4, g5⟩ := inv.wokenOk v hv
      rw [e1] at g1 g3
      rw [show cs[i]? = some cl' from g1] at hc
      cases hc
      subst e2 e3
      exact ⟨g4, g5, k, g3⟩
    · exact inv.doneOk i cl' err f j h h2
  · intro id h hm v hv
    exact inv.disj id h (hmemm id h hm).1 v (hmem v hv).1
  · intro v hv i cl' err f j h1 h2
    obtain ⟨hv1, hi⟩ := hmem v hv
    rcases get i cl' h1 with ⟨rfl, rfl⟩ | ⟨_, h⟩
    · obtain ⟨v', hv', e1, e2, e3⟩ := hr err f j h2
      intro e
      have : v = v' := by
        have hn := inv.idxW
        rw [← e3] at e
        exact inj_of_nodup_map hn hv1 hv' e
      subst this
      rw [e1] at hi
      exact hi rfl
    · exact inv.idxWD v hv1 i cl' err f j h h2
  · intro i cl1 i' cl2 err err' f f' j h1 h2 h3 h4
    rcases get i cl1 h1 with ⟨e, rfl⟩ | ⟨_, h⟩
    · obtain ⟨v, hv, e1, e2, e3⟩ := hr err f j h2
      rcases get i' cl2 h3 with ⟨e', rfl⟩ | ⟨_, h'⟩
      · rw [e, e']
      · exact absurd e3 (inv.idxWD v hv i' cl2 err' f' j h' h4)
    · rcases get i' cl2 h3 with ⟨e', rfl⟩ | ⟨_, h'⟩
      · obtain ⟨v, hv, e1, e2, e3⟩ := hr err' f' j h4
        exact absurd e3 (inv.idxWD v hv i cl1 err f j h h2)
      · exact inv.idxD i cl1 i' cl2 err err' f f' j h h2 h' h4
  · intro i cl' err k h1 h2
    rcases get i cl' h1 with ⟨rfl, rfl⟩ | ⟨hi, h⟩
    · rw [show ({ cl with phase := p } : Call).phase.hasWait err = none from hw err] at h2; cases h2
    · rcases inv.here i cl' err k h h2 with ⟨hd, hm⟩ | ⟨v, hv, e⟩
      · exact .inl ⟨hd, List.mem_filter.mpr ⟨hm, by simpa using hi⟩⟩
      · exact .inr ⟨v, List.mem_filter.mpr ⟨hv, by rw [e]; simpa using hi⟩, e⟩

/-- A call registers a waiter. -/
theorem coreInv_reg {cfg : Cfg} {m w cs sn} (inv : CoreInv cfg ⟨m, w, cs, sn⟩) {c : Nat} {cl cl2 : Call}
    (hc : cs[c]? = some cl) (err : Bool) (k : VarKeyKind) (hnw : cl.phase.hasWait err = none)
    (hw1 : cl2.phase.hasWait err = some k) (hw2 : cl2.phase.hasWait (!err) = cl.phase.hasWait (!err))
    (hr : cl2.phase.result = none) (hq : cl2.rqst = cl.rqst) (hk : cl2.resp_key = cl.resp_key)
    (hreg : cl2.reg_at ≤ sn.length) (hreg2 : cl.phase.hasWait (!err) ≠ none → cl2.reg_at = cl.reg_at) :
    CoreInv cfg ⟨m ++ [(⟨c, err⟩, waitHdr cfg cl k err)], w, cs.set c cl2, sn⟩ := by
  have hH : ∀ k e, waitHdr cfg cl2 k e = waitHdr cfg cl k e := by
    intro k e
    simp only [waitHdr, Call.ok_hdr, Call.err_hdr, hq, hk]
  have get : ∀ (i : Nat) cl', (cs.set c cl2)[i]? = some cl' → (i = c ∧ cl' = cl2) ∨ (i ≠ c ∧ cs[i]? = some cl') := by
    intro i cl' h
    rw [set_get hc] at h
    split at h
    · rename_i hi; cases h; exact .inl ⟨hi, rfl⟩
    · rename_i hi; exact .inr ⟨hi, h⟩
  have other : ∀ e, cl.phase.hasWait e ≠ none → e = !err := by
    intro e he
    cases e <;> cases err <;> simp_all
  have hnm : ∀ h, (⟨c, err⟩, h) ∉ m := by
    intro h hm
    obtain ⟨cl', k', h1, h2, _⟩ := inv.mapOk _ h hm
    rw [show cs[c]? = some cl' from h1] at hc
    cases hc
    rw [hnw] at h2; cases h2
  have hnwk : ∀ v ∈ w, v.id ≠ ⟨c, err⟩ := by
    intro v hv e
    obtain ⟨cl', k', h1, h2, _⟩ := inv.wokenOk v hv
    rw [e] at h1 h2
    rw [show cs[c]? = some cl' from h1] at hc
    cases hc
    rw [hnw] at h2; cases h2
  refine ⟨?_, ?_, ?_, ?_, inv.wokenNd, ?_, inv.idxW, ?_, ?_, ?_⟩
  · intro id h hm
    simp only [List.mem_append, List.mem_singleton] at hm
    rcases hm with hm | hm
    · obtain ⟨cl', k', h1, h2, h3, h4⟩ := inv.mapOk id h hm
      by_cases hi : id.call = c
      · rw [hi] at h1
        rw [show cs[c]? = some cl' from h1] at hc
        cases hc
        have ho := other id.err (by rw [h2]; simp)
        refine ⟨cl2, k', by rw [hi]; exact (set_get h1 _ _).trans (if_pos rfl), ?_, h3.trans (hH _ _).symm, hreg⟩
        rw [ho] at h2 ⊢
        rw [hw2]; exact h2
      · exact ⟨cl', k', by rw [set_get hc, if_neg hi]; exact h1, h2, h3, h4⟩
    · cases hm
      exact ⟨cl2, k, (set_get hc _ _).trans (if_pos rfl), hw1, (hH _ _).symm, hreg⟩
  · intro v hv
    obtain ⟨cl', k', h1, h2, h3, h4, h5⟩ := inv.wokenOk v hv
    by_cases hi : v.id.call = c
    · rw [hi] at h1
      rw [show cs[c]? = some cl' from h1] at hc
      cases hc
      have ho := other v.id.err (by rw [h2]; simp)
      refine ⟨cl2, k', by rw [hi]; exact (set_get h1 _ _).trans (if_pos rfl), ?_, by rw [hH]; exact h3, h4, ?_⟩
      · rw [ho] at h2 ⊢
        rw [hw2]; exact h2
      · rw [hreg2 (by rw [← ho, h2]; simp)]; exact h5
    · exact ⟨cl', k', by rw [set_get hc, if_neg hi]; exact h1, h2, h3, h4, h5⟩
  · intro i cl' e f j h1 h2
    rcases get i cl' h1 with ⟨_, rfl⟩ | ⟨_, h⟩
    · rw [hr] at h2; cases h2
    · exact inv.doneOk i cl' e f j h h2
  · rw [List.map_append, List.nodup_append]
    refine ⟨inv.mapNd, by simp, ?_⟩
    intro a ha b hb
    simp only [List.map_cons, List.map_nil, List.mem_singleton] at hb
    subst hb
    rw [List.mem_map] at ha
    obtain ⟨⟨id, h⟩, hm, rfl⟩ := ha
    rintro rfl
    exact hnm h hm
  · intro id h hm v hv
    simp only [List.mem_append, List.mem_singleton] at hm
    rcases hm with hm | hm
    · exact inv.disj id h hm v hv
    · cases hm; exact hnwk v hv
  · intro v hv i cl' e f j h1 h2
    rcases get i cl' h1 with ⟨_, rfl⟩ | ⟨_, h⟩
    · rw [hr] at h2; cases h2
    · exact inv.idxWD v hv i cl' e f j h h2
  · intro i cl1 i' cl3 e e' f f' j h1 h2 h3 h4
    rcases get i cl1 h1 with ⟨_, rfl⟩ | ⟨_, h⟩
    · rw [hr] at h2; cases h2
    · rcases get i' cl3 h3 with ⟨_, rfl⟩ | ⟨_, h'⟩
      · rw [hr] at h4; cases h4
      · exact inv.idxD i cl1 i' cl3 e e' f f' j h h2 h' h4
  · intro i cl' e k' h1 h2
    rcases get i cl' h1 with ⟨rfl, rfl⟩ | ⟨_, h⟩
    · by_cases he : e = err
      · subst he
        exact .inl ⟨_, List.mem_append.mpr (.inr (List.mem_singleton.mpr rfl))⟩
      · have he : e = !err := by cases e <;> cases err <;> simp_all
        rw [he, hw2] at h2
        rw [he]
        rcases inv.here i cl _ k' hc h2 with ⟨hd, hm⟩ | hx
        · exact .inl ⟨hd, List.mem_append.mpr (.inl hm)⟩
        · exact .inr hx
    · rcases inv.here i cl' e k' h h2 with ⟨hd, hm⟩ | hx
      · exact .inl ⟨hd, List.mem_append.mpr (.inl hm)⟩
      · exact .inr hx

theorem hasWait_begun {p : Phase} (h : p = .begun) (e : Bool) : p.hasWait e = none := by subst h; cases e <;> rfl

theorem coreInv_step {cfg : Cfg} {a b : Core} (h : CoreStep cfg a b) (inv : CoreInv cfg a) : CoreInv cfg b := by
  cases h with
  | skip => exact inv
  | add m w cs sn cl h =>
    have hwn := hasWait_begun h
    have hrn : cl.phase.result = none := by rw [h]; rfl
    refine ⟨?_, ?_, ?_, inv.mapNd, inv.wokenNd, inv.disj, inv.idxW, ?_, ?_, ?_⟩
    · intro id hd hm
      obtain ⟨cl', k, h1, h2⟩ := inv.mapOk id hd hm
      exact ⟨cl', k, append_get h1 _, h2⟩
    · intro v hv
      obtain ⟨cl', k, h1, h2⟩ := inv.wokenOk v hv
      exact ⟨cl', k, append_get h1 _, h2⟩
    · intro i cl' err f j h1 h2
      rcases append_get_cases h1 with h1 | ⟨_, rfl⟩
      · exact inv.doneOk i cl' err f j h1 h2
      · rw [hrn] at h2; cases h2
    · intro v hv i cl' err f j h1 h2
      rcases append_get_cases h1 with h1 | ⟨_, rfl⟩
      · exact inv.idxWD v hv i cl' err f j h1 h2
      · rw [hrn] at h2; cases h2
    · intro i cl1 i' cl2 err err' f f' j h1 h2 h3 h4
      rcases append_get_cases h1 with h1 | ⟨_, rfl⟩
      · rcases append_get_cases h3 with h3 | ⟨_, rfl⟩
        · exact inv.idxD i cl1 i' cl2 err err' f f' j h1 h2 h3 h4
        · rw [hrn] at h4; cases h4
      · rw [hrn] at h2; cases h2
    · intro i cl' err k h1 h2
      rcases append_get_cases h1 with h1 | ⟨_, rfl⟩
      · exact inv.here i cl' err k h1 h2
      · rw [hwn] at h2; cases h2
  | kind m w cs sn c cl k hc h =>
    exact coreInv_same inv hc _ rfl (fun err => by rw [h]; cases err <;> rfl)
  | dupOk m w cs sn c cl k hc h hd =>
    exact coreInv_same inv hc _ rfl (fun err => by rw [h]; cases err <;> rfl)
  | sent m w cs sn c cl k hc h =>
    exact coreInv_same inv hc _ rfl (fun err => by rw [h]; cases err <;> rfl)
  | regOk m w cs sn c cl k hc h hd =>
    exact coreInv_reg (cl2 := { cl with phase := .half k, reg_at := sn.length }) inv hc false k (by rw [h]; rfl) rfl
      (by rw [h]; rfl) rfl rfl rfl (Nat.le_refl _) (by rw [h]; intro hh; exact absurd rfl hh)
  | regErr m w cs sn c cl k hc h hd =>
    refine coreInv_reg (cl2 := { cl with phase := .registered k }) inv hc true k (by rw [h]; rfl) rfl
      (by rw [h]; rfl) rfl rfl rfl ?_ (fun _ => rfl)
    rcases inv.here c cl false k hc (by rw [h]; rfl) with ⟨hd', hm⟩ | ⟨v, hv, e⟩
    · obtain ⟨cl', _, h1, _, _, h4⟩ := inv.mapOk _ _ hm
      rw [show cs[c]? = some cl' from h1] at hc
      cases hc; exact h4
    · obtain ⟨cl', _, h1, _, _, h4, h5⟩ := inv.wokenOk v hv
      rw [e] at h1
      rw [show cs[c]? = some cl' from h1] at hc
      cases hc
      have := seen_lt h4
      exact Nat.le_trans h5 (Nat.le_of_lt this)
  | finish m w cs sn c cl p hc h hp =>
    refine coreInv_end inv hc p ?_ ?_
    · rcases hp with rfl | rfl | rfl <;> intro e <;> cases e <;> rfl
    · rcases hp with rfl | rfl | rfl <;> intro e f i hh <;> cases hh
  | take m w cs sn c cl k err v hc h hv hid =>
    refine coreInv_end inv hc _ ?_ ?_
    · intro e; cases e <;> rfl
    · intro e f i hh
      cases err
      · cases hh; exact ⟨v, hv, hid, rfl, rfl⟩
      · cases hh; exact ⟨v, hv, hid, rfl, rfl⟩
  | wake m w cs sn id hd f h he =>
    have hmemm : ∀ i h', (i, h') ∈ m.filter (fun x => x.1 != id) → (i, h') ∈ m ∧ i ≠ id := by
      intro i h' hv
      rw [List.mem_filter] at hv
      exact ⟨hv.1, by simpa using hv.2⟩
    refine ⟨?_, ?_, ?_, nodup_map_filter _ _ inv.mapNd, ?_, ?_, ?_, ?_, inv.idxD, ?_⟩
    · intro i h' hm
      obtain ⟨cl', k, h1, h2, h3, h4⟩ := inv.mapOk i h' (hmemm i h' hm).1
      exact ⟨cl', k, h1, h2, h3, by simp only [List.length_append]; exact Nat.le_trans h4 (Nat.le_add_right _ _)⟩
    · intro v hv
      simp only [List.mem_append, List.mem_singleton] at hv
      rcases hv with hv | rfl
      · obtain ⟨cl', k, h1, h2, h3, h4, h5⟩ := inv.wokenOk v hv
        exact ⟨cl', k, h1, h2, h3, seen_get h4, h5⟩
      · obtain ⟨cl', k, h1, h2, h3, h4⟩ := inv.mapOk id hd h
        exact ⟨cl', k, h1, h2, by rw [← h3]; exact he, by simp, h4⟩
    · intro i cl' err g j h1 h2
      obtain ⟨a, b⟩ := inv.doneOk i cl' err g j h1 h2
      exact ⟨seen_get a, b⟩
    · rw [List.map_append, List.nodup_append]
      refine ⟨inv.wokenNd, by simp, ?_⟩
      intro a ha b hb
      simp only [List.map_cons, List.map_nil, List.mem_singleton] at hb
      rw [List.mem_map] at ha
      obtain ⟨v, hv, rfl⟩ := ha
      rw [hb]
      exact inv.disj id hd h v hv
    · intro i h' hm v hv
      obtain ⟨hm, hne⟩ := hmemm i h' hm
      simp only [List.mem_append, List.mem_singleton] at hv
      rcases hv with hv | rfl
      · exact inv.disj i h' hm v hv
      · exact fun e => hne e.symm
    · rw [List.map_append, List.nodup_append]
      refine ⟨inv.idxW, by simp, ?_⟩
      intro a ha b hb
      simp only [List.map_cons, List.map_nil, List.mem_singleton] at hb
      subst hb
      rw [List.mem_map] at ha
      obtain ⟨v, hv, rfl⟩ := ha
      obtain ⟨_, _, _, _, _, h4, _⟩ := inv.wokenOk v hv
      exact Nat.ne_of_lt (seen_lt h4)
    · intro v hv i cl' err g j h1 h2
      simp only [List.mem_append, List.mem_singleton] at hv
      rcases hv with hv | rfl
      · exact inv.idxWD v hv i cl' err g j h1 h2
      · obtain ⟨a, _⟩ := inv.doneOk i cl' err g j h1 h2
        exact Nat.ne_of_gt (seen_lt a)
    · intro i cl' err k h1 h2
      rcases inv.here i cl' err k h1 h2 with ⟨h', hm⟩ | ⟨v, hv, e⟩
      · by_cases hi : (⟨i, err⟩ : WaitId) = id
        · exact .inr ⟨_, List.mem_append.mpr (.inr (List.mem_singleton.mpr rfl)), hi.symm⟩
        · exact .inl ⟨h', List.mem_filter.mpr ⟨hm, by simpa using hi⟩⟩
      · exact .inr ⟨v, List.mem_append.mpr (.inl hv), e⟩
  | nowake m w cs sn f h =>
    refine ⟨?_, ?_, ?_, inv.mapNd, inv.wokenNd, inv.disj, inv.idxW, inv.idxWD, inv.idxD, inv.here⟩
    · intro i h' hm
      obtain ⟨cl', k, h1, h2, h3, h4⟩ := inv.mapOk i h' hm
      exact ⟨cl', k, h1, h2, h3, by simp only [List.length_append]; exact Nat.le_trans h4 (Nat.le_add_right _ _)⟩
    · intro v hv
      obtain ⟨cl', k, h1, h2, h3, h4, h5⟩ := inv.wokenOk v hv
      exact ⟨cl', k, h1, h2, h3, seen_get h4, h5⟩
    · intro i cl' err g j h1 h2
      obtain ⟨a, b⟩ := inv.doneOk i cl' err g j h1 h2
      exact ⟨seen_get a, b⟩

theorem reachable_coreInv {cfg : Cfg} {s : Client} (h : Reachable cfg s) : CoreInv cfg s.core :=
  reachable_induct (fun s => CoreInv cfg s.core) (coreInv_new cfg) (fun _ _ _ inv hs => coreInv_step (step_core hs) inv) h

end PRpc
