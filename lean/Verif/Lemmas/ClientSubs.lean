import Verif.Lemmas.ClientOut
/-!
Helper lemmas about the client's subscriptions.
-/

namespace PRpc

/-- The part of the state that matters for exclusive subscriptions; `pend` is the frame the receive worker is holding
while it waits for room in a channel; `over` says that the worker has left its loop. -/
structure Exc where
  arr : List RpcFrame
  xl : List (Key × Nat)
  ch : List Chan
  pend : Option (RpcFrame × Nat)
  over : Bool

def InPc.pend : InPc → Option (RpcFrame × Nat)
  | .full f id _ => some (f, id)
  | _ => none

def InPc.over : InPc → Bool
  | .purge => true
  | .exited => true
  | _ => false

theorem over_recv_wake (h : Bool) (f : RpcFrame) : InPc.over (if h = true then .recv else .wake f) = false := by
  cases h <;> rfl

def Client.exc (s : Client) : Exc :=
  ⟨s.subs.arrived, s.subs.exclusive_list, s.subs.chans, s.in_pc.pend, s.in_pc.over⟩

/-- The frame's key matches the entry's. -/
abbrev matchE (f : RpcFrame) (e : Key × Nat) : Bool := key_match e.1 f.header.key

inductive EStep : Exc → Exc → Prop where
  | skip (e) : EStep e e
  | lose (a x c p) {o} : EStep ⟨a, x, c, p, o⟩ ⟨a, x, c, none, true⟩
  | waitGone (a x c f) (id : Nat) (hc : c[id]? = none) : EStep ⟨a, x, c, some (f, id), false⟩ ⟨a, x, c, none, false⟩
  | arriveNone (a x c f) (h : x.find? (matchE f) = none) : EStep ⟨a, x, c, none, false⟩ ⟨a ++ [f], x, c, none, false⟩
  | arriveOk (a x c f k) (id : Nat) (ch : Chan) (h : x.find? (matchE f) = some (k, id)) (hc : c[id]? = some ch)
    (ha : ch.rx_alive = true) : EStep ⟨a, x, c, none, false⟩ ⟨a ++ [f], x, c.set id { ch with queue := ch.queue ++ [f] }, none, false⟩
  | arriveDrop (a x c f k) (id : Nat) (ch : Chan) (h : x.find? (matchE f) = some (k, id)) (hc : c[id]? = some ch)
    (ha : ch.rx_alive = true) (hf : ch.cap ≤ ch.queue.length) :
    EStep ⟨a, x, c, none, false⟩ ⟨a ++ [f], x, c.set id { ch with dropped := true }, none, false⟩
  | arriveWait (a x c f k) (id : Nat) (ch : Chan) (h : x.find? (matchE f) = some (k, id)) (hc : c[id]? = some ch)
    (ha : ch.rx_alive = true) (hf : ch.cap ≤ ch.queue.length) : EStep ⟨a, x, c, none, false⟩ ⟨a ++ [f], x, c, some (f, id), false⟩
  | arriveDead (a x c f k) (id : Nat) (h : x.find? (matchE f) = some (k, id))
    (hc : ∀ ch, c[id]? = some ch → ch.rx_alive = false) :
    EStep ⟨a, x, c, none, false⟩ ⟨a ++ [f], x.filter fun e => !matchE f e, c, none, false⟩
  | waitOk (a x c f) (id : Nat) (ch : Chan) (hc : c[id]? = some ch) (ha : ch.rx_alive = true) :
    EStep ⟨a, x, c, some (f, id), false⟩ ⟨a, x, c.set id { ch with queue := ch.queue ++ [f] }, none, false⟩
  | waitDrop (a x c f) (id : Nat) (ch : Chan) (hc : c[id]? = some ch) :
    EStep ⟨a, x, c, some (f, id), false⟩ ⟨a, x, c.set id { ch with dropped := true }, none, false⟩
  | waitDead (a x c f) (id : Nat) (hc : ∀ ch, c[id]? = some ch → ch.rx_alive = false) :
    EStep ⟨a, x, c, some (f, id), false⟩ ⟨a, x.filter fun e => !matchE f e, c, none, false⟩
  | purge (a x c) : EStep ⟨a, x, c, none, true⟩ ⟨a, [], c, none, true⟩
  | fresh (a x c key) {o} (depth : Nat) (hd : depth ≠ 0) (h : find_entry x key = none) :
    EStep ⟨a, x, c, none, o⟩ ⟨a, x ++ [(key, c.length)], c ++ [Chan.new key depth a.length], none, o⟩
  | replace (a x c key) {o} (depth old : Nat) (hd : depth ≠ 0) (h : find_entry x key = some old) :
    EStep ⟨a, x, c, none, o⟩ ⟨a, set_entry key c.length x, c ++ [Chan.new key depth a.length], none, o⟩
  | recv (a x c p) {o} (id : Nat) (ch : Chan) (f q) (hc : c[id]? = some ch) (hq : ch.queue = f :: q) :
    EStep ⟨a, x, c, p, o⟩ ⟨a, x, c.set id { ch with queue := q, got := ch.got ++ [f] }, p, o⟩
  | dropRx (a x c p) {o} (id : Nat) (ch : Chan) (hc : c[id]? = some ch) :
    EStep ⟨a, x, c, p, o⟩ ⟨a, x, c.set id { ch with rx_alive := false, queue := [] }, p, o⟩

/-- `bcast_send` leaves everything but the broadcast receivers alone. -/
theorem bcast_send_eq (s : Subs) (b : Nat) (f : RpcFrame) :
    ∃ r, (bcast_send s b f).2 = { s with brxs := r } := by
  rw [bcast_send]; split
  · exact ⟨_, rfl⟩
  · exact ⟨s.brxs, rfl⟩

/-- What the first half of the table lookup does. -/
def lookupB (s : Subs) (f : RpcFrame) : Bool × Bool × Subs :=
  match s.broadcast_list.find? (matchE f) with
  | some (_, b) => (true, !(bcast_send s b f).1, (bcast_send s b f).2)
  | none => (false, false, s)

/-- The second half. -/
def lookupE (zero : Bool) (f : RpcFrame) (x : Bool × Bool × Subs) : Lookup × Subs :=
  match x.2.2.exclusive_list.find? (matchE f) with
  | some (_, id) =>
    match try_send x.2.2 id f with
    | (.Ok, s) => (.done true, retain_subs s f.header.key false x.2.1)
    | (.Full, s) =>
      if zero then (.done true, retain_subs (note_dropped s id) f.header.key false x.2.1)
      else (.full id x.2.1, s)
    | (.Closed, s) => (.done true, retain_subs s f.header.key true x.2.1)
  | none => (.done x.1, retain_subs x.2.2 f.header.key false x.2.1)

theorem subs_lookup_eq (zero : Bool) (s : Subs) (f : RpcFrame) :
    subs_lookup zero s f = lookupE zero f (lookupB { s with arrived := s.arrived ++ [f] } f) := by
  rw [subs_lookup, lookupB]
  simp only [matchE]
  cases List.find? (fun e : Key × Nat => key_match e.1 f.header.key) s.broadcast_list with
  | none => rfl
  | some e => rfl

theorem lookupB_exc (s : Subs) (f : RpcFrame) : (lookupB s f).2.2.arrived = s.arrived ∧
    (lookupB s f).2.2.exclusive_list = s.exclusive_list ∧ (lookupB s f).2.2.chans = s.chans := by
  rw [lookupB]
  split
  · obtain ⟨r, hr⟩ := bcast_send_eq s (by assumption) f
    simp only [hr, and_self]
  · exact ⟨rfl, rfl, rfl⟩

theorem try_send_cases (s : Subs) (id : Nat) (f : RpcFrame) :
    (∃ c, s.chans[id]? = some c ∧ c.rx_alive = true ∧
      try_send s id f = (.Ok, { s with chans := s.chans.set id { c with queue := c.queue ++ [f] } })) ∨
    (∃ c, s.chans[id]? = some c ∧ c.rx_alive = true ∧ c.cap ≤ c.queue.length ∧ try_send s id f = (.Full, s)) ∨
    ((∀ c, s.chans[id]? = some c → c.rx_alive = false) ∧ try_send s id f = (.Closed, s)) := by
  rw [try_send]
  split
  · rename_i h
    exact .inr (.inr ⟨(by rw [h]; intro c hc; cases hc), rfl⟩)
  · rename_i c h
    split
    · rename_i ha
      exact .inr (.inr ⟨(by rw [h]; intro c hc; cases hc; simpa using ha), rfl⟩)
    · rename_i ha
      split
      · rename_i hf
        exact .inr (.inl ⟨c, h, by simpa using ha, hf, rfl⟩)
      · exact .inl ⟨c, h, by simpa using ha, rfl⟩

theorem retain_exc (s : Subs) (key : VarKey) (rx rm : Bool) :
    (retain_subs s key rx rm).arrived = s.arrived ∧ (retain_subs s key rx rm).chans = s.chans ∧
    (retain_subs s key rx rm).exclusive_list =
      if rx then s.exclusive_list.filter (fun e => !key_match e.1 key) else s.exclusive_list := by
  rw [retain_subs]
  cases rx <;> cases rm <;> exact ⟨rfl, rfl, rfl⟩

theorem note_dropped_exc {s : Subs} {id : Nat} {c : Chan} (h : s.chans[id]? = some c) :
    note_dropped s id = { s with chans := s.chans.set id { c with dropped := true } } := by
  rw [note_dropped, h]

/-- The table lookup as an `EStep`. -/
theorem subs_lookup_exc (zero : Bool) (s : Subs) (f : RpcFrame) (pc : InPc)
    (hpc : ∀ h, (subs_lookup zero s f).1 = .done h → pc.pend = none)
    (hpc' : ∀ id rm, (subs_lookup zero s f).1 = .full id rm → pc.pend = some (f, id)) :
    EStep ⟨s.arrived, s.exclusive_list, s.chans, none, false⟩
      ⟨(subs_lookup zero s f).2.arrived, (subs_lookup zero s f).2.exclusive_list, (subs_lookup zero s f).2.chans, pc.pend, false⟩ := by
  rw [subs_lookup_eq] at hpc hpc' ⊢
  generalize hx : lookupB { s with arrived := s.arrived ++ [f] } f = x at hpc hpc' ⊢
  have h3 := lookupB_exc { s with arrived := s.arrived ++ [f] } f
  rw [hx] at h3
  obtain ⟨handled, rm, t⟩ := x
  obtain ⟨ha, hl, hc⟩ := h3
  simp only at ha hl hc
  simp only [lookupE] at hpc hpc' ⊢
  rw [hl] at hpc hpc' ⊢
  cases hf : s.exclusive_list.find? (matchE f) with
  | none =>
    simp only [hf] at hpc ⊢
    obtain ⟨r1, r2, r3⟩ := retain_exc t f.header.key false rm
    rw [hpc _ rfl, r1, r2, r3, ha, hc]
    simp only [hl]
    exact .arriveNone _ _ _ f hf
  | some e =>
    obtain ⟨k, id⟩ := e
    simp only [hf] at hpc hpc' ⊢
    rcases try_send_cases t id f with ⟨c, h1, h2, h3⟩ | ⟨c, h1, h2, h3, h4⟩ | ⟨h1, h2⟩
    · simp only [h3] at hpc ⊢
      obtain ⟨r1, r2, r3⟩ := retain_exc { t with chans := t.chans.set id { c with queue := c.queue ++ [f] } } f.header.key false rm
      rw [hpc _ rfl, r1, r2, r3]
      simp only [ha, hl, hc]
      rw [hc] at h1
      exact .arriveOk _ _ _ f k id c hf h1 h2
    · simp only [h4] at hpc hpc' ⊢
      cases zero with
      | true =>
        simp only [if_true] at hpc ⊢
        obtain ⟨r1, r2, r3⟩ := retain_exc (note_dropped t id) f.header.key false rm
        rw [hpc _ rfl, r1, r2, r3, note_dropped_exc h1]
        simp only [ha, hl, hc]
        rw [hc] at h1
        exact .arriveDrop _ _ _ f k id c hf h1 h2 h3
      | false =>
        simp only [Bool.false_eq_true, if_false] at hpc' ⊢
        rw [hpc' _ _ rfl, ha, hl, hc]
        rw [hc] at h1
        exact .arriveWait _ _ _ f k id c hf h1 h2 h3
    · simp only [h2] at hpc ⊢
      obtain ⟨r1, r2, r3⟩ := retain_exc t f.header.key true rm
      rw [hpc _ rfl, r1, r2, r3]
      simp only [ha, hl, hc, if_true]
      rw [hc] at h1
      exact .arriveDead _ _ _ f k id hf h1

theorem pend_recv_wake (h : Bool) (f : RpcFrame) : InPc.pend (if h = true then .recv else .wake f) = none := by
  cases h <;> rfl

theorem step_exc {cfg : Cfg} {s s' : Client} {l : Label} (h : step cfg s l = some s') : EStep s.exc s'.exc := by
  have same : s'.subs = s.subs → s'.in_pc.pend = s.in_pc.pend → s'.in_pc.over = s.in_pc.over → EStep s.exc s'.exc := by
    intro h1 h2 h3
    have : s'.exc = s.exc := by simp only [Client.exc, h1, h2, h3]
    rw [this]; exact .skip _
  have lf : s.lock_free = true → s.in_pc.pend = none := by
    intro hl
    rw [Client.lock_free] at hl
    split at hl
    · cases hl
    · rename_i hn
      cases hp : s.in_pc with
      | full f id rm => exact absurd hp (hn f id rm)
      | _ => rfl
  cases l with
  | in_poll =>
    simp only [step, in_poll] at h
    split at h
    · cases h
    · split at h
      · cases h; exact .lose _ _ _ _
      · cases h; exact .skip _
  | in_lookup =>
    simp only [step, in_lookup] at h
    split at h
    · rename_i f hp _
      split at h
      · rename_i hd sb he
        cases h
        have := subs_lookup_exc cfg.zero s.subs f .recv (fun _ _ => rfl) (fun id rm e => by rw [he] at e; cases e)
        rw [he] at this
        simp only [Client.exc, after_lookup, pend_recv_wake, over_recv_wake, hp]
        exact this
      · rename_i id rm sb he
        cases h
        have := subs_lookup_exc cfg.zero s.subs f (.full f id rm) (fun _ e => by rw [he] at e; cases e)
          (fun id rm e => by rw [he] at e; cases e; rfl)
        rw [he] at this
        simp only [Client.exc, hp]
        exact this
    · cases h
  | in_full_send =>
    simp only [step, in_full_send] at h
    split at h
    · rename_i f id rm hp _
      rcases try_send_cases s.subs id f with ⟨c, h1, h2, h3⟩ | ⟨c, h1, h2, h3, h4⟩ | ⟨h1, h2⟩
      · rw [h3] at h
        cases h
        obtain ⟨r1, r2, r3⟩ := retain_exc { s.subs with chans := s.subs.chans.set id { c with queue := c.queue ++ [f] } } f.header.key false rm
        simp only [Client.exc, after_lookup, pend_recv_wake, over_recv_wake, hp, r1, r2, r3]
        exact .waitOk _ _ _ f id c h1 h2
      · rw [h4] at h; cases h
      · rw [h2] at h
        cases h
        obtain ⟨r1, r2, r3⟩ := retain_exc s.subs f.header.key true rm
        simp only [Client.exc, after_lookup, pend_recv_wake, over_recv_wake, hp, r1, r2, r3]
        exact .waitDead _ _ _ f id h1
    · cases h
  | in_full_timeout =>
    simp only [step, in_full_timeout] at h
    split at h
    · rename_i f id rm hp _
      cases h
      obtain ⟨r1, r2, r3⟩ := retain_exc (note_dropped s.subs id) f.header.key false rm
      simp only [Client.exc, after_lookup, pend_recv_wake, over_recv_wake, hp, r1, r2, r3]
      cases hc : s.subs.chans[id]? with
      | none =>
        rw [note_dropped, hc]
        exact .waitGone _ _ _ f id hc
      | some c =>
        rw [note_dropped_exc hc]
        exact .waitDrop _ _ _ f id c hc
    · cases h
  | in_purge =>
    simp only [step] at h
    split at h
    · rename_i hp
      cases h
      simp only [Client.exc, hp]
      exact .purge _ _ _
    · cases h
  | sub_excl key depth =>
    simp only [step] at h
    split at h
    · rename_i hh
      cases h
      simp only [Client.exc, lf hh.2, subscribe_inner_exclusive]
      split
      · exact .skip _
      · rename_i hd
        split
        · exact .skip _
        · split
          · rename_i old ho
            split
            · exact .skip _
            · exact .replace _ _ _ key depth old hd ho
          · rename_i ho
            exact .fresh _ _ _ key depth hd ho
    · cases h
  | sub_repl key depth =>
    simp only [step] at h
    split at h
    · rename_i hh
      cases h
      simp only [Client.exc, lf hh.2, subscribe_inner]
      split
      · exact .skip _
      · rename_i hd
        split
        · exact .skip _
        · split
          · rename_i old ho
            exact .replace _ _ _ key depth old hd ho
          · rename_i ho
            exact .fresh _ _ _ key depth hd ho
    · cases h
  | sub_multi key depth =>
    simp only [step] at h
    split at h
    · rename_i hh
      cases h
      simp only [Client.exc, subscribe_multi_inner]
      repeat' split
      all_goals exact .skip _
    · cases h
  | recv_excl id =>
    simp only [step] at h
    cases h
    simp only [Client.exc, sub_recv]
    split
    · exact .skip _
    · rename_i c hc
      split
      · rename_i f q hq
        exact .recv _ _ _ _ id c f q hc hq
      · split <;> exact .skip _
  | recv_multi id =>
    simp only [step] at h
    cases h
    simp only [Client.exc, multi_recv]
    repeat' split
    all_goals exact .skip _
  | drop_excl id =>
    simp only [step] at h
    cases h
    simp only [Client.exc, sub_drop]
    split
    · exact .skip _
    · rename_i c hc
      exact .dropRx _ _ _ _ id c hc
  | drop_multi id =>
    simp only [step] at h
    cases h
    simp only [Client.exc, multi_drop]
    split <;> exact .skip _
  | in_recv r =>
    simp only [step, in_recv] at h
    split at h
    · rename_i hp
      repeat' split at h
      all_goals first
        | (cases h; done)
        | (cases h; exact same rfl (by simp only [hp.1]; rfl) (by simp only [hp.1]; rfl))
        | (cases h; exact same rfl rfl rfl)
        | (cases h; exact .lose _ _ _ _)
    · cases h
  | in_wake w =>
    simp only [step, in_wake] at h
    split at h
    · rename_i hp _
      repeat' split at h
      all_goals first
        | (cases h; done)
        | (cases h; exact same rfl (by simp only [hp]; rfl) (by simp only [hp]; rfl))
    · cases h
  | _ =>
    simp only [step, send_resp_begin, call_reg_ok, call_reg_err, call_send, call_take, publish_raw_begin, pub_send,
      out_poll, out_recv, out_done, Client.set_phase, Client.drop_waits] at h
    repeat' split at h
    all_goals first
      | (cases h; done)
      | (cases h; exact .skip _)
      | (cases h; split <;> exact .skip _)


/-! ### Invariant of the exclusive subscriptions -/

theorem get_lt {α : Type} {l : List α} {i : Nat} {x : α} (h : l[i]? = some x) : i < l.length := by
  rcases Nat.lt_or_ge i l.length with h' | h'
  · exact h'
  · rw [List.getElem?_eq_none h'] at h; cases h

theorem get_set {α : Type} {l : List α} {i : Nat} {x : α} (h : l[i]? = some x) {y : α} {j : Nat} {z : α}
    (hz : (l.set i y)[j]? = some z) : (j = i ∧ z = y) ∨ (j ≠ i ∧ l[j]? = some z) := by
  rw [List.getElem?_set] at hz
  by_cases e : i = j
  · rw [if_pos e, if_pos (get_lt h)] at hz
    cases hz
    exact .inl ⟨e.symm, rfl⟩
  · rw [if_neg e] at hz
    exact .inr ⟨Ne.symm e, hz⟩

theorem get_snoc {α : Type} {l : List α} {x : α} {j : Nat} {z : α} (hz : (l ++ [x])[j]? = some z) :
    (j = l.length ∧ z = x) ∨ l[j]? = some z := by
  rcases Nat.lt_trichotomy j l.length with h' | h' | h'
  · rw [List.getElem?_append_left h'] at hz; exact .inr hz
  · subst h'
    rw [List.getElem?_append_right (Nat.le_refl _)] at hz
    simp at hz
    exact .inl ⟨rfl, hz.symm⟩
  · rw [List.getElem?_eq_none (by simp; omega)] at hz; cases hz

theorem set_get_self {α : Type} {l : List α} {i : Nat} {x : α} (h : l[i]? = some x) (y : α) : (l.set i y)[i]? = some y := by
  rw [List.getElem?_set, if_pos rfl, if_pos (get_lt h)]

theorem set_get_ne {α : Type} {l : List α} {i j : Nat} (y : α) (h : j ≠ i) : (l.set i y)[j]? = l[j]? := by
  rw [List.getElem?_set, if_neg (Ne.symm h)]

/-- The frames of channel `c`'s topic among those that arrived since it was created. -/
def topicFrames (a : List RpcFrame) (key : Key) (since : Nat) : List RpcFrame :=
  (a.drop since).filter fun f => key_match key f.header.key

theorem topicFrames_snoc {a : List RpcFrame} {key : Key} {since : Nat} (h : since ≤ a.length) (f : RpcFrame) :
    topicFrames (a ++ [f]) key since = topicFrames a key since ++ (if key_match key f.header.key then [f] else []) := by
  rw [topicFrames, topicFrames, List.drop_append_of_le_length h, List.filter_append]
  congr 1
  rw [List.filter_cons, List.filter_nil]

def pendOf (p : Option (RpcFrame × Nat)) (id : Nat) : List RpcFrame :=
  match p with
  | some (f, i) => if i = id then [f] else []
  | none => []

structure EInv (e : Exc) : Prop where
  nd : (e.xl.map Prod.fst).Nodup
  ent : ∀ k (id : Nat), (k, id) ∈ e.xl → ∃ c, e.ch[id]? = some c ∧ c.key = k
  since : ∀ (id : Nat) c, e.ch[id]? = some c → c.since ≤ e.arr.length
  sub : ∀ (id : Nat) c, e.ch[id]? = some c →
    (c.got ++ (c.queue ++ pendOf e.pend id)).Sublist (topicFrames e.arr c.key c.since)
  pendOk : ∀ f id, e.pend = some (f, id) → ∃ k, (k, id) ∈ e.xl ∧ key_match k f.header.key = true ∧ f ∈ e.arr

theorem find_entry_none {x : List (Key × Nat)} {key : Key} (h : find_entry x key = none) : key ∉ x.map Prod.fst := by
  rw [find_entry, Option.map_eq_none_iff, List.find?_eq_none] at h
  intro hm
  obtain ⟨e, he, rfl⟩ := List.mem_map.mp hm
  exact h e he (by simp)

theorem find_entry_some {x : List (Key × Nat)} {key : Key} {id : Nat} (h : find_entry x key = some id) : (key, id) ∈ x := by
  rw [find_entry, Option.map_eq_some_iff] at h
  obtain ⟨e, he, rfl⟩ := h
  have h1 := List.find?_some he
  have h2 := List.mem_of_find?_eq_some he
  simp only [decide_eq_true_eq] at h1
  rw [← h1]; exact h2

theorem set_entry_fst (key : Key) (id : Nat) (x : List (Key × Nat)) :
    (set_entry key id x).map Prod.fst = x.map Prod.fst := by
  induction x with
  | nil => rfl
  | cons e l ih =>
    rw [set_entry]
    split
    · rfl
    · rw [List.map_cons, List.map_cons, ih]

theorem set_entry_mem {key : Key} {id : Nat} {x : List (Key × Nat)} (nd : (x.map Prod.fst).Nodup) {k : Key} {j : Nat}
    (h : (k, j) ∈ set_entry key id x) : (k = key ∧ j = id) ∨ (k ≠ key ∧ (k, j) ∈ x) := by
  induction x with
  | nil => cases h
  | cons e l ih =>
    rw [List.map_cons, List.nodup_cons] at nd
    rw [set_entry] at h
    split at h
    · rename_i he
      rcases List.mem_cons.mp h with h | h
      · cases h; exact .inl ⟨he, rfl⟩
      · refine .inr ⟨?_, List.mem_cons.mpr (.inr h)⟩
        intro hk
        exact nd.1 (by rw [he, ← hk]; exact List.mem_map.mpr ⟨_, h, rfl⟩)
    · rename_i he
      rcases List.mem_cons.mp h with h | h
      · cases h; exact .inr ⟨he, List.mem_cons.mpr (.inl rfl)⟩
      · rcases ih nd.2 h with h | ⟨h1, h2⟩
        · exact .inl h
        · exact .inr ⟨h1, List.mem_cons.mpr (.inr h2)⟩

theorem find_mem {x : List (Key × Nat)} {f : RpcFrame} {k : Key} {id : Nat} (h : x.find? (matchE f) = some (k, id)) :
    (k, id) ∈ x ∧ key_match k f.header.key = true :=
  ⟨List.mem_of_find?_eq_some h, List.find?_some (p := matchE f) h⟩

theorem einv_new : EInv Client.new.exc where
  nd := by simp [Client.exc, Client.new, Subs.new]
  ent := by intro k id h; simp [Client.exc, Client.new, Subs.new] at h
  since := by intro id c h; simp [Client.exc, Client.new, Subs.new] at h
  sub := by intro id c h; simp [Client.exc, Client.new, Subs.new] at h
  pendOk := by intro f id h; simp [Client.exc, Client.new, InPc.pend] at h

/-- Changing one channel, keeping its key. -/
theorem einv_set {a x c p o} (inv : EInv ⟨a, x, c, p, o⟩) {id : Nat} {ch : Chan} (hc : c[id]? = some ch) (y : Chan)
    (hk : y.key = ch.key) (hs : y.since = ch.since) (a' : List RpcFrame) (p' : Option (RpcFrame × Nat)) (o' : Bool)
    (hl : a.length ≤ a'.length)
    (hsub : (y.got ++ (y.queue ++ pendOf p' id)).Sublist (topicFrames a' ch.key ch.since))
    (hoth : ∀ j cj, j ≠ id → c[j]? = some cj →
      (cj.got ++ (cj.queue ++ pendOf p' j)).Sublist (topicFrames a' cj.key cj.since))
    (hp : ∀ f id, p' = some (f, id) → ∃ k, (k, id) ∈ x ∧ key_match k f.header.key = true ∧ f ∈ a') :
    EInv ⟨a', x, c.set id y, p', o'⟩ where
  nd := inv.nd
  ent := by
    intro k j hj
    obtain ⟨cj, h1, h2⟩ := inv.ent k j hj
    by_cases e : j = id
    · subst e
      simp only at h1
      rw [hc] at h1; cases h1
      exact ⟨y, set_get_self hc y, hk.trans h2⟩
    · exact ⟨cj, (set_get_ne y e).trans h1, h2⟩
  since := by
    intro j cj hj
    rcases get_set hc hj with ⟨rfl, rfl⟩ | ⟨_, h⟩
    · rw [hs]; exact Nat.le_trans (inv.since j ch hc) hl
    · exact Nat.le_trans (inv.since j cj h) hl
  sub := by
    intro j cj hj
    rcases get_set hc hj with ⟨rfl, rfl⟩ | ⟨hne, h⟩
    · simp only [hk, hs]; exact hsub
    · exact hoth j cj hne h
  pendOk := hp

theorem sub_arrive {a x c p o} (inv : EInv ⟨a, x, c, p, o⟩) (f : RpcFrame) {j : Nat} {cj : Chan} (h : c[j]? = some cj) :
    (cj.got ++ (cj.queue ++ pendOf p j)).Sublist (topicFrames (a ++ [f]) cj.key cj.since) := by
  rw [topicFrames_snoc (inv.since j cj h)]
  exact (inv.sub j cj h).trans (List.sublist_append_left _ _)

theorem sub_snoc {a x c o} (inv : EInv ⟨a, x, c, none, o⟩) {f : RpcFrame} {j : Nat} {cj : Chan} (h : c[j]? = some cj)
    (hm : key_match cj.key f.header.key = true) :
    (cj.got ++ ((cj.queue ++ [f]) ++ [])).Sublist (topicFrames (a ++ [f]) cj.key cj.since) := by
  rw [topicFrames_snoc (inv.since j cj h), if_pos hm, List.append_nil, ← List.append_assoc]
  have := inv.sub j cj h
  simp only [pendOf, List.append_nil] at this
  exact List.Sublist.append this (List.Sublist.refl _)

theorem einv_step {e e' : Exc} (hs : EStep e e') (inv : EInv e) : EInv e' := by
  have weak : ∀ {c : List Chan} {a x p o}, EInv ⟨a, x, c, p, o⟩ → ∀ {j : Nat} {cj : Chan}, c[j]? = some cj →
      (cj.got ++ (cj.queue ++ [])).Sublist (topicFrames a cj.key cj.since) := by
    intro c a x p o inv j cj h
    refine List.Sublist.trans ?_ (inv.sub j cj h)
    rw [List.append_nil, ← List.append_assoc]
    exact List.sublist_append_left _ _
  cases hs with
  | skip => exact inv
  | lose a x c p => exact ⟨inv.nd, inv.ent, inv.since, fun j cj h => weak inv h, fun f id h => by cases h⟩
  | waitGone a x c f id hc => exact ⟨inv.nd, inv.ent, inv.since, fun j cj h => weak inv h, fun f id h => by cases h⟩
  | arriveNone a x c f h =>
    exact ⟨inv.nd, inv.ent, fun j cj h => Nat.le_trans (inv.since j cj h) (by simp),
      fun j cj h => sub_arrive inv f h, fun f id h => by cases h⟩
  | arriveOk a x c f k id ch h hc ha =>
    obtain ⟨c', h1, h2⟩ := inv.ent k id (find_mem h).1
    simp only at h1
    rw [hc] at h1; cases h1
    exact einv_set inv hc { ch with queue := ch.queue ++ [f] } rfl rfl _ none _ (by simp) (sub_snoc inv hc (by rw [h2]; exact (find_mem h).2))
      (fun j cj _ hj => sub_arrive inv f hj) (fun f id h => by cases h)
  | arriveDrop a x c f k id ch h hc ha hf =>
    exact einv_set inv hc { ch with dropped := true } rfl rfl _ none _ (by simp) (by have t := sub_arrive inv f hc; exact t)
      (fun j cj _ hj => sub_arrive inv f hj) (fun f id h => by cases h)
  | arriveWait a x c f k id ch h hc ha hf =>
    refine ⟨inv.nd, inv.ent, fun j cj h => Nat.le_trans (inv.since j cj h) (by simp), ?_, ?_⟩
    · intro j cj hj
      simp only [pendOf]
      split
      · rename_i e
        subst e
        obtain ⟨c', h1, h2⟩ := inv.ent k id (find_mem h).1
        have := sub_snoc inv hj (f := f) (by
          simp only at h1 hj
          rw [h1] at hj; cases hj
          rw [h2]; exact (find_mem h).2)
        rwa [List.append_nil] at this
      · exact sub_arrive inv f hj
    · intro f' id' he; cases he; exact ⟨k, (find_mem h).1, (find_mem h).2, by simp⟩
  | arriveDead a x c f k id h hc =>
    exact ⟨List.Nodup.sublist (List.Sublist.map _ List.filter_sublist) inv.nd,
      fun k j hj => inv.ent k j (List.mem_filter.mp hj).1, fun j cj h => Nat.le_trans (inv.since j cj h) (by simp),
      fun j cj h => sub_arrive inv f h, fun f id h => by cases h⟩
  | waitOk a x c f id ch hc ha =>
    refine einv_set inv hc { ch with queue := ch.queue ++ [f] } rfl rfl _ none _ (Nat.le_refl _) ?_ (fun j cj _ hj => weak inv hj) (fun f id h => by cases h)
    have := inv.sub id ch hc
    simp only [pendOf, if_true] at this
    simpa [pendOf] using this
  | waitDrop a x c f id ch hc =>
    exact einv_set inv hc { ch with dropped := true } rfl rfl _ none _ (Nat.le_refl _) (by have t := weak inv hc; exact t) (fun j cj _ hj => weak inv hj) (fun f id h => by cases h)
  | waitDead a x c f id hc =>
    exact ⟨List.Nodup.sublist (List.Sublist.map _ List.filter_sublist) inv.nd,
      fun k j hj => inv.ent k j (List.mem_filter.mp hj).1, inv.since,
      fun j cj h => weak inv h, fun f id h => by cases h⟩
  | purge a x c =>
    exact ⟨by simp, fun k j hj => (by cases hj), inv.since, inv.sub, fun f id h => by cases h⟩
  | fresh a x c key depth hd h =>
    refine ⟨?_, ?_, ?_, ?_, fun f id h => by cases h⟩
    · rw [List.map_append, List.nodup_append]
      refine ⟨inv.nd, by simp, ?_⟩
      intro k hk k' hk' e
      simp only [List.map_cons, List.map_nil, List.mem_singleton] at hk'
      subst e; subst hk'
      exact find_entry_none h hk
    · intro k j hj
      rcases List.mem_append.mp hj with hj | hj
      · obtain ⟨cj, h1, h2⟩ := inv.ent k j hj
        exact ⟨cj, by rw [List.getElem?_append_left (get_lt h1)]; exact h1, h2⟩
      · simp only [List.mem_singleton] at hj
        cases hj
        exact ⟨Chan.new key depth a.length, by simp, rfl⟩
    · intro j cj hj
      rcases get_snoc hj with ⟨rfl, rfl⟩ | hj
      · exact Nat.le_refl _
      · exact inv.since j cj hj
    · intro j cj hj
      rcases get_snoc hj with ⟨rfl, rfl⟩ | hj
      · simp [Chan.new, pendOf]
      · exact inv.sub j cj hj
  | replace a x c key depth old hd h =>
    refine ⟨?_, ?_, ?_, ?_, fun f id h => by cases h⟩
    · simp only; rw [set_entry_fst]; exact inv.nd
    · intro k j hj
      rcases set_entry_mem inv.nd hj with ⟨rfl, rfl⟩ | ⟨_, hj⟩
      · exact ⟨Chan.new k depth a.length, by simp, rfl⟩
      · obtain ⟨cj, h1, h2⟩ := inv.ent k j hj
        exact ⟨cj, by rw [List.getElem?_append_left (get_lt h1)]; exact h1, h2⟩
    · intro j cj hj
      rcases get_snoc hj with ⟨rfl, rfl⟩ | hj
      · exact Nat.le_refl _
      · exact inv.since j cj hj
    · intro j cj hj
      rcases get_snoc hj with ⟨rfl, rfl⟩ | hj
      · simp [Chan.new, pendOf]
      · exact inv.sub j cj hj
  | recv a x c p id ch f q hc hq =>
    refine einv_set inv hc { ch with queue := q, got := ch.got ++ [f] } rfl rfl _ p _ (Nat.le_refl _) ?_ (fun j cj _ hj => inv.sub j cj hj) inv.pendOk
    have := inv.sub id ch hc
    rw [hq] at this
    simpa using this
  | dropRx a x c p id ch hc =>
    refine einv_set inv hc { ch with rx_alive := false, queue := [] } rfl rfl _ p _ (Nat.le_refl _) ?_ (fun j cj _ hj => inv.sub j cj hj) inv.pendOk
    refine List.Sublist.trans ?_ (inv.sub id ch hc)
    exact List.Sublist.append (List.Sublist.refl _) (List.Sublist.append (List.nil_sublist _) (List.Sublist.refl _))

theorem reachable_einv {cfg : Cfg} {s : Client} (h : Reachable cfg s) : EInv s.exc :=
  reachable_induct (fun s => EInv s.exc) einv_new (fun _ _ _ inv hs => einv_step (step_exc hs) inv) h


/-- No frame that arrived matches two different topics subscribed to. -/
def NoCol (e : Exc) : Prop := ∀ f ∈ e.arr, ∀ c1 ∈ e.ch, ∀ c2 ∈ e.ch,
  key_match c1.key f.header.key = true → key_match c2.key f.header.key = true → c1.key = c2.key

/-- What a channel holds and will hold. -/
def Chan.held (c : Chan) (p : Option (RpcFrame × Nat)) (id : Nat) : List RpcFrame := c.got ++ (c.queue ++ pendOf p id)

structure CInv (e : Exc) : Prop where
  dead : ∀ (id : Nat) c, e.ch[id]? = some c → c.rx_alive = false → c.queue = []
  preD : NoCol e → ∀ (id : Nat) c, e.ch[id]? = some c → c.dropped = false → c.got <+: topicFrames e.arr c.key c.since
  pre : NoCol e → ∀ (id : Nat) c, e.ch[id]? = some c → c.dropped = false → c.rx_alive = true →
    c.held e.pend id <+: topicFrames e.arr c.key c.since
  eq : NoCol e → e.over = false → ∀ k (id : Nat) c, (k, id) ∈ e.xl → e.ch[id]? = some c → c.dropped = false →
    c.rx_alive = true → c.held e.pend id = topicFrames e.arr c.key c.since

theorem cinv_new : CInv Client.new.exc where
  dead := by intro id c h; simp [Client.exc, Client.new, Subs.new] at h
  preD := by intro _ id c h; simp [Client.exc, Client.new, Subs.new] at h
  pre := by intro _ id c h; simp [Client.exc, Client.new, Subs.new] at h
  eq := by intro _ _ k id c h; simp [Client.exc, Client.new, Subs.new] at h

theorem mem_key_set {c : List Chan} {id : Nat} {ch y : Chan} (hc : c[id]? = some ch) (hk : y.key = ch.key) {z : Chan}
    (hz : z ∈ c) : ∃ z' ∈ c.set id y, z'.key = z.key := by
  obtain ⟨j, hj⟩ := List.mem_iff_getElem?.mp hz
  by_cases e : j = id
  · subst e
    rw [hc] at hj; cases hj
    exact ⟨y, List.mem_iff_getElem?.mpr ⟨j, set_get_self hc y⟩, hk⟩
  · exact ⟨z, List.mem_iff_getElem?.mpr ⟨j, (set_get_ne y e).trans hj⟩, rfl⟩

theorem noCol_back {a a' x x' c c' p p' o o'} (h : NoCol ⟨a', x', c', p', o'⟩) (ha : ∀ f ∈ a, f ∈ a')
    (hc : ∀ z ∈ c, ∃ z' ∈ c', z'.key = z.key) : NoCol ⟨a, x, c, p, o⟩ := by
  intro f hf c1 h1 c2 h2 m1 m2
  obtain ⟨z1, g1, e1⟩ := hc c1 h1
  obtain ⟨z2, g2, e2⟩ := hc c2 h2
  rw [← e1, ← e2]
  exact h f (ha f hf) z1 g1 z2 g2 (by rw [e1]; exact m1) (by rw [e2]; exact m2)

theorem noCol_set {a a' x x' c p p' o o'} {id : Nat} {ch y : Chan} (hc : c[id]? = some ch) (hk : y.key = ch.key)
    (ha : ∀ f ∈ a, f ∈ a') (h : NoCol ⟨a', x', c.set id y, p', o'⟩) : NoCol ⟨a, x, c, p, o⟩ :=
  noCol_back h ha (fun _ hz => mem_key_set hc hk hz)

theorem prefix_snoc {a : List RpcFrame} {key : Key} {since : Nat} {l : List RpcFrame} (hs : since ≤ a.length)
    (h : l <+: topicFrames a key since) (f : RpcFrame) : l <+: topicFrames (a ++ [f]) key since := by
  rw [topicFrames_snoc hs]
  exact h.trans (List.prefix_append _ _)

/-- Only one entry of the table matches a frame, if there is no collision. -/
theorem other_unmatched {a x c p o} {f : RpcFrame} {k k' : Key} {id j : Nat} {cj ch : Chan}
    (inv : EInv ⟨a, x, c, p, o⟩) (nc : ∀ c1 ∈ c, ∀ c2 ∈ c,
      key_match c1.key f.header.key = true → key_match c2.key f.header.key = true → c1.key = c2.key)
    (h : (k, id) ∈ x) (hm : key_match k f.header.key = true) (hc : c[id]? = some ch) (hj : (k', j) ∈ x)
    (hcj : c[j]? = some cj) (hne : j ≠ id) : key_match cj.key f.header.key = false := by
  cases hb : key_match cj.key f.header.key with
  | false => rfl
  | true =>
    obtain ⟨c1, g1, e1⟩ := inv.ent k id h
    obtain ⟨c2, g2, e2⟩ := inv.ent k' j hj
    simp only at g1 g2
    rw [hc] at g1; cases g1
    rw [hcj] at g2; cases g2
    have hk := nc ch (List.mem_iff_getElem?.mpr ⟨id, hc⟩) cj (List.mem_iff_getElem?.mpr ⟨j, hcj⟩) (by rw [e1]; exact hm) hb
    rw [e1, e2] at hk
    have := inj_of_nodup_map inv.nd h hj hk
    cases this
    exact absurd rfl hne

theorem held_ne {c : Chan} {f : RpcFrame} {id j : Nat} (h : j ≠ id) : c.held (some (f, id)) j = c.held none j := by
  rw [Chan.held, Chan.held, pendOf, pendOf, if_neg (Ne.symm h)]

/-- Steps that leave list, arrivals and keys alone: only channel `id` changes. -/
theorem cinv_set {a x c p o} (inv : CInv ⟨a, x, c, p, o⟩) {id : Nat} {ch : Chan} (hc : c[id]? = some ch) (y : Chan)
    (hk : y.key = ch.key) (hs : y.since = ch.since) (p' : Option (RpcFrame × Nat))
    (hd : y.rx_alive = false → y.queue = [])
    (hdrop : y.dropped = false → ch.dropped = false)
    (hpreD : y.dropped = false → ch.got <+: topicFrames a ch.key ch.since →
      (ch.rx_alive = true → ch.held p id <+: topicFrames a ch.key ch.since) → y.got <+: topicFrames a ch.key ch.since)
    (halive : y.rx_alive = true → ch.rx_alive = true)
    (hheld : y.dropped = false → y.rx_alive = true → y.held p' id = ch.held p id)
    (hoth : ∀ (j : Nat) cj, j ≠ id → c[j]? = some cj → cj.held p' j = cj.held p j) :
    CInv ⟨a, x, c.set id y, p', o⟩ where
  dead := by
    intro j cj hj hal
    rcases get_set hc hj with ⟨rfl, rfl⟩ | ⟨_, h⟩
    · exact hd hal
    · exact inv.dead j cj h hal
  preD := by
    intro nc j cj hj hdr
    have nc' := noCol_set (x := x) (p := p) (o := o) hc hk (fun f hf => hf) nc
    rcases get_set hc hj with ⟨rfl, rfl⟩ | ⟨_, h⟩
    · simp only [hk, hs]
      exact hpreD hdr (inv.preD nc' j ch hc (hdrop hdr)) (fun hal => inv.pre nc' j ch hc (hdrop hdr) hal)
    · exact inv.preD nc' j cj h hdr
  pre := by
    intro nc j cj hj hdr hal
    have nc' := noCol_set (x := x) (p := p) (o := o) hc hk (fun f hf => hf) nc
    rcases get_set hc hj with ⟨rfl, rfl⟩ | ⟨hne, h⟩
    · simp only [hk, hs]
      rw [hheld hdr hal]
      exact inv.pre nc' j ch hc (hdrop hdr) (halive hal)
    · simp only
      rw [hoth j cj hne h]
      exact inv.pre nc' j cj h hdr hal
  eq := by
    intro nc ho k j cj hm hj hdr hal
    have nc' := noCol_set (x := x) (p := p) (o := o) hc hk (fun f hf => hf) nc
    rcases get_set hc hj with ⟨rfl, rfl⟩ | ⟨hne, h⟩
    · simp only [hk, hs]
      rw [hheld hdr hal]
      exact inv.eq nc' ho k j ch hm hc (hdrop hdr) (halive hal)
    · simp only
      rw [hoth j cj hne h]
      exact inv.eq nc' ho k j cj hm h hdr hal

/-- An arriving frame that goes to the entry `(k, id)`: channel `id` becomes `y`. -/
theorem cinv_arrive {a x c} (inv : CInv ⟨a, x, c, none, false⟩) (ei : EInv ⟨a, x, c, none, false⟩) {f : RpcFrame} {k : Key}
    {id : Nat} {ch : Chan} (h : x.find? (matchE f) = some (k, id)) (hc : c[id]? = some ch) (ha : ch.rx_alive = true)
    (y : Chan) (p' : Option (RpcFrame × Nat)) (hk : y.key = ch.key) (hs : y.since = ch.since) (hy : y.rx_alive = true)
    (hg : y.got = ch.got) (hdrop : y.dropped = false → ch.dropped = false)
    (hheld : y.dropped = false → y.held p' id = ch.held none id ++ [f])
    (hoth : ∀ (j : Nat) (cj : Chan), j ≠ id → cj.held p' j = cj.held none j) :
    CInv ⟨a ++ [f], x, c.set id y, p', false⟩ := by
  obtain ⟨hx, hm⟩ := find_mem h
  have back : NoCol ⟨a ++ [f], x, c.set id y, p', false⟩ → NoCol ⟨a, x, c, none, false⟩ :=
    noCol_set hc hk (fun g hg => List.mem_append.mpr (.inl hg))
  have here : NoCol ⟨a ++ [f], x, c.set id y, p', false⟩ → ∀ c1 ∈ c, ∀ c2 ∈ c,
      key_match c1.key f.header.key = true → key_match c2.key f.header.key = true → c1.key = c2.key := by
    intro nc c1 h1 c2 h2 m1 m2
    obtain ⟨z1, g1, e1⟩ := mem_key_set hc hk h1
    obtain ⟨z2, g2, e2⟩ := mem_key_set hc hk h2
    rw [← e1, ← e2]
    exact nc f (by simp) z1 g1 z2 g2 (by rw [e1]; exact m1) (by rw [e2]; exact m2)
  have hkey : ch.key = k := by
    obtain ⟨c', g1, g2⟩ := ei.ent k id hx
    simp only at g1
    rw [hc] at g1; cases g1; exact g2
  have heq : NoCol ⟨a ++ [f], x, c.set id y, p', false⟩ → y.dropped = false →
      y.held p' id = topicFrames (a ++ [f]) ch.key ch.since := by
    intro nc hd
    rw [hheld hd, topicFrames_snoc (ei.since id ch hc), hkey, if_pos hm, ← hkey]
    congr 1
    exact inv.eq (back nc) rfl k id ch hx hc (hdrop hd) ha
  refine ⟨?_, ?_, ?_, ?_⟩
  · intro j cj hj hal
    rcases get_set hc hj with ⟨rfl, rfl⟩ | ⟨_, h⟩
    · rw [hy] at hal; cases hal
    · exact inv.dead j cj h hal
  · intro nc j cj hj hdr
    rcases get_set hc hj with ⟨rfl, rfl⟩ | ⟨_, h⟩
    · simp only [hk, hs, hg]
      exact prefix_snoc (ei.since j ch hc) (inv.preD (back nc) j ch hc (hdrop hdr)) f
    · exact prefix_snoc (ei.since j cj h) (inv.preD (back nc) j cj h hdr) f
  · intro nc j cj hj hdr hal
    rcases get_set hc hj with ⟨rfl, rfl⟩ | ⟨hne, h⟩
    · simp only [hk, hs]
      rw [heq nc hdr]
      exact List.prefix_refl _
    · simp only
      rw [hoth j cj hne]
      exact prefix_snoc (ei.since j cj h) (inv.pre (back nc) j cj h hdr hal) f
  · intro nc _ k' j cj hm' hj hdr hal
    rcases get_set hc hj with ⟨rfl, rfl⟩ | ⟨hne, h⟩
    · simp only [hk, hs]
      exact heq nc hdr
    · simp only
      rw [hoth j cj hne, topicFrames_snoc (ei.since j cj h), other_unmatched ei (here nc) hx hm hc hm' h hne,
        if_neg (by simp), List.append_nil]
      exact inv.eq (back nc) rfl k' j cj hm' h hdr hal

theorem cinv_step {e e' : Exc} (hs : EStep e e') (ei : EInv e) (inv : CInv e) : CInv e' := by
  have snoc : ∀ {a x x' c p o f p' o'}, NoCol ⟨a ++ [f], x', c, p', o'⟩ → NoCol ⟨a, x, c, p, o⟩ := by
    intro a x x' c p o f p' o' h
    exact noCol_back h (fun g hg => List.mem_append.mpr (.inl hg)) (fun z hz => ⟨z, hz, rfl⟩)
  have push : ∀ {a x x' c c' p o p' o'} {y : Chan}, c' = c ++ [y] → NoCol ⟨a, x', c', p', o'⟩ → NoCol ⟨a, x, c, p, o⟩ := by
    intro a x x' c c' p o p' o' y hc h
    subst hc
    exact noCol_back h (fun g hg => hg) (fun z hz => ⟨z, List.mem_append.mpr (.inl hz), rfl⟩)
  have cut : ∀ (c : Chan) p id l, c.held p id <+: l → c.held none id <+: l := by
    intro c p id l h
    refine List.IsPrefix.trans ?_ h
    rw [Chan.held, Chan.held, pendOf, List.append_nil, ← List.append_assoc]
    exact List.prefix_append _ _
  cases hs with
  | skip => exact inv
  | lose a x c p =>
    exact ⟨inv.dead, inv.preD, fun nc j cj hj hd ha => cut _ _ _ _ (inv.pre nc j cj hj hd ha), fun _ h => by cases h⟩
  | waitGone a x c f id hc =>
    obtain ⟨k, hk, _⟩ := ei.pendOk f id rfl
    obtain ⟨ch, h1, _⟩ := ei.ent k id hk
    rw [hc] at h1; cases h1
  | arriveNone a x c f h =>
    refine ⟨inv.dead, ?_, ?_, ?_⟩
    · intro nc j cj hj hd
      exact prefix_snoc (ei.since j cj hj) (inv.preD (snoc nc) j cj hj hd) f
    · intro nc j cj hj hd ha
      exact prefix_snoc (ei.since j cj hj) (inv.pre (snoc nc) j cj hj hd ha) f
    · intro nc _ k j cj hm hj hd ha
      have hn : key_match cj.key f.header.key = false := by
        obtain ⟨c', g1, g2⟩ := ei.ent k j hm
        simp only at g1 hj
        rw [hj] at g1; cases g1
        rw [g2]
        have := List.find?_eq_none.mp h (k, j) hm
        simpa using this
      simp only
      rw [topicFrames_snoc (ei.since j cj hj), hn, if_neg (by simp), List.append_nil]
      exact inv.eq (snoc nc) rfl k j cj hm hj hd ha
  | arriveOk a x c f k id ch h hc ha =>
    exact cinv_arrive inv ei h hc ha _ none rfl rfl ha rfl (fun h => h) (fun _ => by simp [Chan.held, pendOf])
      (fun _ _ _ => rfl)
  | arriveDrop a x c f k id ch h hc ha hf =>
    exact cinv_arrive inv ei h hc ha { ch with dropped := true } none rfl rfl ha rfl (fun h => by cases h) (fun h => by cases h)
      (fun _ _ _ => rfl)
  | arriveWait a x c f k id ch h hc ha hf =>
    have := cinv_arrive inv ei h hc ha ch (some (f, id)) rfl rfl ha rfl (fun h => h) (fun _ => by simp [Chan.held, pendOf])
      (fun j cj hne => held_ne hne)
    have e : c.set id ch = c := by
      refine List.ext_getElem? (fun j => ?_)
      by_cases hj : j = id
      · subst hj; rw [set_get_self hc, hc]
      · rw [set_get_ne _ hj]
    rwa [e] at this
  | arriveDead a x c f k id h hc =>
    refine ⟨inv.dead, ?_, ?_, ?_⟩
    · intro nc j cj hj hd
      exact prefix_snoc (ei.since j cj hj) (inv.preD (snoc nc) j cj hj hd) f
    · intro nc j cj hj hd ha
      exact prefix_snoc (ei.since j cj hj) (inv.pre (snoc nc) j cj hj hd ha) f
    · intro nc _ k j cj hm hj hd ha
      obtain ⟨hm, hn⟩ := List.mem_filter.mp hm
      have hn : key_match cj.key f.header.key = false := by
        obtain ⟨c', g1, g2⟩ := ei.ent k j hm
        simp only at g1 hj
        rw [hj] at g1; cases g1
        rw [g2]
        simpa using hn
      simp only
      rw [topicFrames_snoc (ei.since j cj hj), hn, if_neg (by simp), List.append_nil]
      exact inv.eq (snoc nc) rfl k j cj hm hj hd ha
  | waitOk a x c f id ch hc ha =>
    exact cinv_set inv hc { ch with queue := ch.queue ++ [f] } rfl rfl none (fun h => by rw [show ch.rx_alive = false from h] at ha; cases ha) (fun h => h)
      (fun _ h _ => h) (fun h => h) (fun _ _ => by simp [Chan.held, pendOf]) (fun j cj hne _ => (held_ne hne).symm)
  | waitDrop a x c f id ch hc =>
    exact cinv_set inv hc { ch with dropped := true } rfl rfl none (fun h => inv.dead id ch hc h) (fun h => by cases h)
      (fun h => by cases h) (fun h => h) (fun h => by cases h) (fun j cj hne _ => (held_ne hne).symm)
  | waitDead a x c f id hc =>
    refine ⟨inv.dead, inv.preD, fun nc j cj hj hd ha => cut _ _ _ _ (inv.pre nc j cj hj hd ha), ?_⟩
    intro nc _ k j cj hm hj hd ha
    by_cases e : j = id
    · subst e
      rw [hc cj hj] at ha; cases ha
    · have := inv.eq nc rfl k j cj (List.mem_filter.mp hm).1 hj hd ha
      simp only at this ⊢
      rwa [held_ne e] at this
  | purge a x c => exact ⟨inv.dead, inv.preD, inv.pre, fun _ _ k j cj hm => by cases hm⟩
  | fresh a x c key depth hd h =>
    have new : ∀ {cj : Chan}, cj = Chan.new key depth a.length → topicFrames a cj.key cj.since = [] ∧
        (∀ id, cj.held none id = []) ∧ cj.got = [] ∧ cj.queue = [] := by
      intro cj e; subst e
      simp [Chan.new, Chan.held, topicFrames, pendOf]
    refine ⟨?_, ?_, ?_, ?_⟩
    · intro j cj hj hal
      rcases get_snoc hj with ⟨rfl, e⟩ | hj
      · exact (new e).2.2.2
      · exact inv.dead j cj hj hal
    · intro nc j cj hj hdr
      rcases get_snoc hj with ⟨rfl, e⟩ | hj
      · simp only; rw [(new e).2.2.1]; exact List.nil_prefix
      · exact inv.preD (push rfl nc) j cj hj hdr
    · intro nc j cj hj hdr hal
      rcases get_snoc hj with ⟨rfl, e⟩ | hj
      · simp only; rw [(new e).2.1]; exact List.nil_prefix
      · exact inv.pre (push rfl nc) j cj hj hdr hal
    · intro nc ho k j cj hm hj hdr hal
      rcases get_snoc hj with ⟨rfl, e⟩ | hj
      · simp only; rw [(new e).2.1, (new e).1]
      · rcases List.mem_append.mp hm with hm | hm
        · exact inv.eq (push rfl nc) ho k j cj hm hj hdr hal
        · simp only [List.mem_singleton] at hm
          cases hm
          exact (Nat.lt_irrefl _ (get_lt (l := c) hj)).elim
  | replace a x c key depth old hd h =>
    have new : ∀ {cj : Chan}, cj = Chan.new key depth a.length → topicFrames a cj.key cj.since = [] ∧
        (∀ id, cj.held none id = []) ∧ cj.got = [] ∧ cj.queue = [] := by
      intro cj e; subst e
      simp [Chan.new, Chan.held, topicFrames, pendOf]
    refine ⟨?_, ?_, ?_, ?_⟩
    · intro j cj hj hal
      rcases get_snoc hj with ⟨rfl, e⟩ | hj
      · exact (new e).2.2.2
      · exact inv.dead j cj hj hal
    · intro nc j cj hj hdr
      rcases get_snoc hj with ⟨rfl, e⟩ | hj
      · simp only; rw [(new e).2.2.1]; exact List.nil_prefix
      · exact inv.preD (push rfl nc) j cj hj hdr
    · intro nc j cj hj hdr hal
      rcases get_snoc hj with ⟨rfl, e⟩ | hj
      · simp only; rw [(new e).2.1]; exact List.nil_prefix
      · exact inv.pre (push rfl nc) j cj hj hdr hal
    · intro nc ho k j cj hm hj hdr hal
      rcases get_snoc hj with ⟨rfl, e⟩ | hj'
      · simp only; rw [(new e).2.1, (new e).1]
      · rcases set_entry_mem ei.nd hm with ⟨rfl, rfl⟩ | ⟨_, hm⟩
        · exact (Nat.lt_irrefl _ (get_lt (l := c) hj')).elim
        · exact inv.eq (push rfl nc) ho k j cj hm hj' hdr hal
  | recv a x c p id ch f q hc hq =>
    refine cinv_set inv hc { ch with queue := q, got := ch.got ++ [f] } rfl rfl p ?_ (fun h => h) ?_ (fun h => h) ?_
      (fun j cj _ _ => rfl)
    · intro hal
      have := inv.dead id ch hc hal
      rw [hq] at this; cases this
    · intro hd h1 h2
      have hal : ch.rx_alive = true := by
        cases hb : ch.rx_alive with
        | true => rfl
        | false =>
          have := inv.dead id ch hc hb
          rw [hq] at this; cases this
      refine List.IsPrefix.trans ?_ (h2 hal)
      rw [Chan.held, hq]
      exact ⟨q ++ pendOf p id, by simp⟩
    · intro _ _
      simp [Chan.held, hq]
  | dropRx a x c p id ch hc =>
    exact cinv_set inv hc { ch with rx_alive := false, queue := [] } rfl rfl p (fun _ => rfl) (fun h => h)
      (fun _ h _ => h) (fun h => by cases h) (fun _ h => by cases h) (fun j cj _ _ => rfl)

theorem reachable_cinv {cfg : Cfg} {s : Client} (h : Reachable cfg s) : CInv s.exc :=
  (reachable_induct (fun s => EInv s.exc ∧ CInv s.exc) ⟨einv_new, cinv_new⟩
    (fun _ _ _ inv hs => ⟨einv_step (step_exc hs) inv.1, cinv_step (step_exc hs) inv.1 inv.2⟩) h).2


/-- A live exclusive subscription that was not replaced is registered as long as the worker runs. -/
def RegInv (e : Exc) : Prop := NoCol e → e.over = false → ∀ (id : Nat) c, e.ch[id]? = some c → c.rx_alive = true →
  (∃ (j : Nat) (cj : Chan), id < j ∧ e.ch[j]? = some cj ∧ cj.key = c.key) ∨ (c.key, id) ∈ e.xl

theorem regInv_set {a a' x c p p' o} {id : Nat} {ch y : Chan} (inv : RegInv ⟨a, x, c, p, o⟩) (hc : c[id]? = some ch)
    (hk : y.key = ch.key) (ha : ∀ f ∈ a, f ∈ a') (hal : y.rx_alive = true → ch.rx_alive = true) :
    RegInv ⟨a', x, c.set id y, p', o⟩ := by
  intro nc ho j cj hj hl
  have nc' := noCol_set (x := x) (p := p) (o := o) hc hk ha nc
  have get : ∀ (j : Nat) cj, c[j]? = some cj → ∃ cj', (c.set id y)[j]? = some cj' ∧ cj'.key = cj.key := by
    intro i ci hi
    by_cases e : i = id
    · rw [e] at hi
      rw [hc] at hi; cases hi
      exact ⟨y, by rw [e]; exact set_get_self hc y, hk⟩
    · exact ⟨ci, (set_get_ne y e).trans hi, rfl⟩
  have go : ∀ cj0, c[j]? = some cj0 → cj0.rx_alive = true → cj.key = cj0.key →
      (∃ (i : Nat) (ci : Chan), j < i ∧ (c.set id y)[i]? = some ci ∧ ci.key = cj.key) ∨ (cj.key, j) ∈ x := by
    intro cj0 h0 h1 h2
    rcases inv nc' ho j cj0 h0 h1 with ⟨i, ci, h3, h4, h5⟩ | h
    · obtain ⟨ci', g1, g2⟩ := get i ci h4
      exact .inl ⟨i, ci', h3, g1, by rw [g2, h5, h2]⟩
    · exact .inr (by rw [h2]; exact h)
  rcases get_set hc hj with ⟨rfl, rfl⟩ | ⟨_, h⟩
  · exact go ch hc (hal hl) hk
  · exact go cj h hl rfl

/-- Removing every entry that matches a frame matched by a dead subscription's entry removes no live one. -/
theorem regInv_dead {a a' x c p p' o} {f : RpcFrame} {k : Key} {id : Nat} (ei : EInv ⟨a, x, c, p, o⟩) (inv : RegInv ⟨a, x, c, p, o⟩)
    (hx : (k, id) ∈ x) (hm : key_match k f.header.key = true) (hf : f ∈ a') (ha : ∀ f ∈ a, f ∈ a')
    (hc : ∀ ch, c[id]? = some ch → ch.rx_alive = false) :
    RegInv ⟨a', x.filter fun e => !matchE f e, c, p', o⟩ := by
  intro nc ho j cj hj hl
  have nc' : NoCol ⟨a, x, c, p, o⟩ := noCol_back nc ha (fun z hz => ⟨z, hz, rfl⟩)
  rcases inv nc' ho j cj hj hl with h | h
  · exact .inl h
  · refine .inr (List.mem_filter.mpr ⟨h, ?_⟩)
    cases hb : key_match cj.key f.header.key with
    | false => simp [hb]
    | true =>
      obtain ⟨ch, g1, g2⟩ := ei.ent k id hx
      simp only at g1 hj
      have e := nc f hf ch (List.mem_iff_getElem?.mpr ⟨id, g1⟩) cj (List.mem_iff_getElem?.mpr ⟨j, hj⟩)
        (by rw [g2]; exact hm) hb
      rw [← e, g2] at h
      have := inj_of_nodup_map ei.nd hx h rfl
      cases this
      rw [hc cj hj] at hl; cases hl

theorem set_entry_here {key : Key} {id : Nat} {x : List (Key × Nat)} (h : key ∈ x.map Prod.fst) : (key, id) ∈ set_entry key id x := by
  induction x with
  | nil => cases h
  | cons e l ih =>
    rw [set_entry]
    split
    · rename_i he; rw [he]; exact List.mem_cons.mpr (.inl rfl)
    · rename_i he
      rw [List.map_cons] at h
      rcases List.mem_cons.mp h with h | h
      · exact absurd h.symm he
      · exact List.mem_cons.mpr (.inr (ih h))

theorem set_entry_other {key k : Key} {id j : Nat} {x : List (Key × Nat)} (h : (k, j) ∈ x) (hne : k ≠ key) :
    (k, j) ∈ set_entry key id x := by
  induction x with
  | nil => cases h
  | cons e l ih =>
    rw [set_entry]
    split
    · rename_i he
      rcases List.mem_cons.mp h with h | h
      · subst h; exact absurd he hne
      · exact List.mem_cons.mpr (.inr h)
    · rcases List.mem_cons.mp h with h | h
      · exact List.mem_cons.mpr (.inl h)
      · exact List.mem_cons.mpr (.inr (ih h))

theorem regInv_step {e e' : Exc} (hs : EStep e e') (ei : EInv e) (inv : RegInv e) : RegInv e' := by
  have snoc : ∀ {a : List RpcFrame} {f}, ∀ g ∈ a, g ∈ a ++ [f] := fun g hg => List.mem_append.mpr (.inl hg)
  cases hs with
  | skip => exact inv
  | lose => intro _ h; cases h
  | waitGone a x c f id hc => exact fun nc => inv nc
  | arriveNone a x c f h => exact fun nc => inv (noCol_back nc snoc (fun z hz => ⟨z, hz, rfl⟩))
  | arriveOk a x c f k id ch h hc ha => exact regInv_set inv hc rfl snoc (fun h => h)
  | arriveDrop a x c f k id ch h hc ha hf =>
    exact regInv_set (y := { ch with dropped := true }) inv hc rfl snoc (fun h => h)
  | arriveWait a x c f k id ch h hc ha hf => exact fun nc => inv (noCol_back nc snoc (fun z hz => ⟨z, hz, rfl⟩))
  | arriveDead a x c f k id h hc => exact regInv_dead ei inv (find_mem h).1 (find_mem h).2 (by simp) snoc hc
  | waitOk a x c f id ch hc ha => exact regInv_set inv hc rfl (fun _ h => h) (fun h => h)
  | waitDrop a x c f id ch hc =>
    exact regInv_set (y := { ch with dropped := true }) inv hc rfl (fun _ h => h) (fun h => h)
  | waitDead a x c f id hc =>
    obtain ⟨k, h1, h2, h3⟩ := ei.pendOk f id rfl
    exact regInv_dead ei inv h1 h2 h3 (fun _ h => h) hc
  | purge a x c => intro _ h; cases h
  | fresh a x c key depth hd h =>
    intro nc ho j cj hj hl
    have nc' : NoCol ⟨a, x, c, none, false⟩ := noCol_back nc (fun _ h => h) (fun z hz => ⟨z, List.mem_append.mpr (.inl hz), rfl⟩)
    simp only at ho; subst ho
    rcases get_snoc hj with ⟨rfl, rfl⟩ | hj'
    · exact .inr (List.mem_append.mpr (.inr (by simp [Chan.new])))
    · rcases inv nc' rfl j cj hj' hl with ⟨i, ci, h3, h4, h5⟩ | h
      · exact .inl ⟨i, ci, h3, by rw [List.getElem?_append_left (get_lt h4)]; exact h4, h5⟩
      · exact .inr (List.mem_append.mpr (.inl h))
  | replace a x c key depth old hd h =>
    intro nc ho j cj hj hl
    have nc' : NoCol ⟨a, x, c, none, false⟩ := noCol_back nc (fun _ h => h) (fun z hz => ⟨z, List.mem_append.mpr (.inl hz), rfl⟩)
    simp only at ho; subst ho
    rcases get_snoc hj with ⟨rfl, rfl⟩ | hj'
    · exact .inr (set_entry_here (List.mem_map.mpr ⟨_, find_entry_some h, rfl⟩))
    · rcases inv nc' rfl j cj hj' hl with ⟨i, ci, h3, h4, h5⟩ | h
      · exact .inl ⟨i, ci, h3, by rw [List.getElem?_append_left (get_lt h4)]; exact h4, h5⟩
      · by_cases hk : cj.key = key
        · exact .inl ⟨c.length, _, get_lt hj', by simp; rfl, by rw [hk]; rfl⟩
        · exact .inr (set_entry_other h hk)
  | recv a x c p id ch f q hc hq =>
    exact regInv_set (y := { ch with queue := q, got := ch.got ++ [f] }) inv hc rfl (fun _ h => h) (fun h => h)
  | dropRx a x c p id ch hc =>
    exact regInv_set (y := { ch with rx_alive := false, queue := [] }) inv hc rfl (fun _ h => h) (fun h => by cases h)

theorem reachable_regInv {cfg : Cfg} {s : Client} (h : Reachable cfg s) : RegInv s.exc :=
  (reachable_induct (fun s => EInv s.exc ∧ RegInv s.exc)
    ⟨einv_new, by intro _ _ id c h; simp [Client.exc, Client.new, Subs.new] at h⟩
    (fun _ _ _ inv hs => ⟨einv_step (step_exc hs) inv.1, regInv_step (step_exc hs) inv.1 inv.2⟩) h).2

end PRpc
