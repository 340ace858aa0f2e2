import Verif.Lemmas.ClientSubs
/-!
Helper lemmas about the client's broadcast subscriptions.
-/

namespace PRpc

/-- The part of the state that matters for broadcast subscriptions; `rm` is the frame whose matching entry will be removed
once the receive worker is done waiting for room in an exclusive channel. -/
structure Bc where
  arr : List RpcFrame
  bl : List (Key × Nat)
  caps : List Nat
  rx : List BRx
  rm : Option RpcFrame
  over : Bool

def InPc.rm : InPc → Option RpcFrame
  | .full f _ true => some f
  | _ => none

def Client.bc (s : Client) : Bc :=
  ⟨s.subs.arrived, s.subs.broadcast_list, s.subs.bchans, s.subs.brxs, s.in_pc.rm, s.in_pc.over⟩

/-- A receiver is listening to channel `b`. -/
abbrev onChan (b : Nat) (r : BRx) : Bool := r.alive && r.chan == b

inductive BStep : Bc → Bc → Prop where
  | skip (e) : BStep e e
  | lose (a x c r m) {o} : BStep ⟨a, x, c, r, m, o⟩ ⟨a, x, c, r, none, true⟩
  | arriveNone (a x c r f) (h : x.find? (matchE f) = none) :
    BStep ⟨a, x, c, r, none, false⟩ ⟨a ++ [f], x, c, r, none, false⟩
  | arriveOk (a x c r f k) (b : Nat) (h : x.find? (matchE f) = some (k, b)) (hl : r.any (onChan b) = true) :
    BStep ⟨a, x, c, r, none, false⟩
      ⟨a ++ [f], x, c, r.map fun y => if onChan b y then y.push (c.getD b 1) f else y, none, false⟩
  | arriveDead (a x c r f k) (b : Nat) (h : x.find? (matchE f) = some (k, b)) (hl : r.any (onChan b) = false) :
    BStep ⟨a, x, c, r, none, false⟩ ⟨a ++ [f], x.filter fun e => !matchE f e, c, r, none, false⟩
  | arriveWait (a x c r f k) (b : Nat) (h : x.find? (matchE f) = some (k, b)) (hl : r.any (onChan b) = false) :
    BStep ⟨a, x, c, r, none, false⟩ ⟨a ++ [f], x, c, r, some f, false⟩
  | remove (a x c r f) : BStep ⟨a, x, c, r, some f, false⟩ ⟨a, x.filter fun e => !matchE f e, c, r, none, false⟩
  | purge (a x c r) : BStep ⟨a, x, c, r, none, true⟩ ⟨a, [], c, r, none, true⟩
  | join (a x c r key) {o} (b : Nat) (h : find_entry x key = some b) :
    BStep ⟨a, x, c, r, none, o⟩ ⟨a, x, c, r ++ [⟨b, [], 0, true, key, a.length, [], 0⟩], none, o⟩
  | fresh (a x c r key) {o} (depth : Nat) (hd : depth ≠ 0) (h : find_entry x key = none) :
    BStep ⟨a, x, c, r, none, o⟩ ⟨a, x ++ [(key, c.length)], c ++ [next_pow2 depth depth],
      r ++ [⟨c.length, [], 0, true, key, a.length, [], 0⟩], none, o⟩
  | lag (a x c r m) {o} (id : Nat) (y : BRx) (hy : r[id]? = some y) :
    BStep ⟨a, x, c, r, m, o⟩ ⟨a, x, c, r.set id { y with missed := 0 }, m, o⟩
  | recv (a x c r m) {o} (id : Nat) (y : BRx) (f q) (hy : r[id]? = some y) (hq : y.pending = f :: q) (hm : y.missed = 0) :
    BStep ⟨a, x, c, r, m, o⟩ ⟨a, x, c, r.set id { y with pending := q, got := y.got ++ [f] }, m, o⟩
  | dropRx (a x c r m) {o} (id : Nat) (y : BRx) (hy : r[id]? = some y) :
    BStep ⟨a, x, c, r, m, o⟩ ⟨a, x, c, r.set id { y with alive := false, pending := [] }, m, o⟩

theorem try_send_bc (s : Subs) (id : Nat) (f : RpcFrame) : ∃ c, (try_send s id f).2 = { s with chans := c } := by
  rw [try_send]; split
  · exact ⟨s.chans, rfl⟩
  · split
    · exact ⟨s.chans, rfl⟩
    · split
      · exact ⟨s.chans, rfl⟩
      · exact ⟨_, rfl⟩

theorem note_dropped_bc (s : Subs) (id : Nat) : ∃ c, note_dropped s id = { s with chans := c } := by
  rw [note_dropped]; split
  · exact ⟨s.chans, rfl⟩
  · exact ⟨_, rfl⟩

theorem retain_bc (s : Subs) (key : VarKey) (rx rm : Bool) :
    (retain_subs s key rx rm).arrived = s.arrived ∧ (retain_subs s key rx rm).bchans = s.bchans ∧
    (retain_subs s key rx rm).brxs = s.brxs ∧ (retain_subs s key rx rm).broadcast_list =
      if rm then s.broadcast_list.filter (fun e => !key_match e.1 key) else s.broadcast_list := by
  rw [retain_subs]
  cases rx <;> cases rm <;> exact ⟨rfl, rfl, rfl, rfl⟩

/-- The second half of the lookup only does the removal, now or later. -/
theorem lookupE_bc (zero : Bool) (f : RpcFrame) (x : Bool × Bool × Subs) :
    (lookupE zero f x).2.arrived = x.2.2.arrived ∧ (lookupE zero f x).2.bchans = x.2.2.bchans ∧
    (lookupE zero f x).2.brxs = x.2.2.brxs ∧
    ((∃ h, (lookupE zero f x).1 = .done h) ∧ (lookupE zero f x).2.broadcast_list =
      (if x.2.1 then x.2.2.broadcast_list.filter (fun e => !matchE f e) else x.2.2.broadcast_list) ∨
     (∃ id, (lookupE zero f x).1 = .full id x.2.1) ∧ (lookupE zero f x).2.broadcast_list = x.2.2.broadcast_list) := by
  obtain ⟨handled, rm, t⟩ := x
  simp only [lookupE]
  split
  · rename_i id _
    rcases try_send_cases t id f with ⟨c, _, _, h3⟩ | ⟨c, h1, _, _, h4⟩ | ⟨_, h2⟩
    · rw [h3]
      obtain ⟨r1, r2, r3, r4⟩ := retain_bc { t with chans := t.chans.set id { c with queue := c.queue ++ [f] } } f.header.key false rm
      exact ⟨r1, r2, r3, .inl ⟨⟨_, rfl⟩, r4⟩⟩
    · rw [h4]
      cases zero with
      | true =>
        obtain ⟨r1, r2, r3, r4⟩ := retain_bc (note_dropped t id) f.header.key false rm
        obtain ⟨c', hc'⟩ := note_dropped_bc t id
        simp only [if_true]
        rw [hc'] at r1 r2 r3 r4 ⊢
        exact ⟨r1, r2, r3, .inl ⟨⟨_, rfl⟩, r4⟩⟩
      | false => exact ⟨rfl, rfl, rfl, .inr ⟨⟨id, rfl⟩, rfl⟩⟩
    · rw [h2]
      obtain ⟨r1, r2, r3, r4⟩ := retain_bc t f.header.key true rm
      exact ⟨r1, r2, r3, .inl ⟨⟨_, rfl⟩, r4⟩⟩
  · obtain ⟨r1, r2, r3, r4⟩ := retain_bc t f.header.key false rm
    exact ⟨r1, r2, r3, .inl ⟨⟨_, rfl⟩, r4⟩⟩

theorem subs_lookup_bc (zero : Bool) (s : Subs) (f : RpcFrame) :
    (∀ h, (subs_lookup zero s f).1 = .done h →
      BStep ⟨s.arrived, s.broadcast_list, s.bchans, s.brxs, none, false⟩
        ⟨(subs_lookup zero s f).2.arrived, (subs_lookup zero s f).2.broadcast_list, (subs_lookup zero s f).2.bchans,
          (subs_lookup zero s f).2.brxs, none, false⟩) ∧
    (∀ id rm, (subs_lookup zero s f).1 = .full id rm →
      BStep ⟨s.arrived, s.broadcast_list, s.bchans, s.brxs, none, false⟩
        ⟨(subs_lookup zero s f).2.arrived, (subs_lookup zero s f).2.broadcast_list, (subs_lookup zero s f).2.bchans,
          (subs_lookup zero s f).2.brxs, (InPc.full f id rm).rm, false⟩) := by
  rw [subs_lookup_eq]
  obtain ⟨e1, e2, e3, e4⟩ := lookupE_bc zero f (lookupB { s with arrived := s.arrived ++ [f] } f)
  generalize hL : lookupE zero f (lookupB { s with arrived := s.arrived ++ [f] } f) = L at e1 e2 e3 e4 ⊢
  rw [e1, e2, e3]
  rw [lookupB] at e1 e2 e3 e4 ⊢
  simp only at e1 e2 e3 e4 ⊢
  cases hf : s.broadcast_list.find? (matchE f) with
  | none =>
    simp only [hf, Bool.false_eq_true, if_false] at e4 ⊢
    have hb : L.2.broadcast_list = s.broadcast_list := by
      rcases e4 with ⟨_, e⟩ | ⟨_, e⟩ <;> exact e
    rw [hb]
    refine ⟨fun _ _ => .arriveNone _ _ _ _ f hf, fun id rm h => ?_⟩
    rcases e4 with ⟨⟨h', e⟩, _⟩ | ⟨⟨id', e⟩, _⟩
    · rw [e] at h; cases h
    · rw [e] at h; cases h
      exact .arriveNone _ _ _ _ f hf
  | some e =>
    obtain ⟨k, b⟩ := e
    simp only [hf] at e4 ⊢
    rw [bcast_send] at e4 ⊢
    by_cases hl : s.brxs.any (onChan b) = true
    · simp only [hl, if_true, Bool.not_true, Bool.false_eq_true, if_false] at e4 ⊢
      have hb : L.2.broadcast_list = s.broadcast_list := by
        rcases e4 with ⟨_, e⟩ | ⟨_, e⟩ <;> exact e
      rw [hb]
      refine ⟨fun _ _ => .arriveOk _ _ _ _ f k b hf hl, fun id rm h => ?_⟩
      rcases e4 with ⟨⟨h', e⟩, _⟩ | ⟨⟨id', e⟩, _⟩
      · rw [e] at h; cases h
      · rw [e] at h; cases h
        exact .arriveOk _ _ _ _ f k b hf hl
    · have hl' : s.brxs.any (onChan b) = false := by simpa using hl
      simp only [hl', Bool.false_eq_true, if_false, Bool.not_false, if_true] at e4 ⊢
      refine ⟨fun h0 h => ?_, fun id rm h => ?_⟩
      · rcases e4 with ⟨⟨h', e⟩, e5⟩ | ⟨⟨id', e⟩, _⟩
        · rw [e5]
          exact .arriveDead _ _ _ _ f k b hf hl'
        · rw [e] at h; cases h
      · rcases e4 with ⟨⟨h', e⟩, _⟩ | ⟨⟨id', e⟩, e5⟩
        · rw [e] at h; cases h
        · rw [e] at h; cases h
          rw [e5]
          exact .arriveWait _ _ _ _ f k b hf hl'

theorem rm_recv_wake (h : Bool) (f : RpcFrame) : InPc.rm (if h = true then .recv else .wake f) = none := by
  cases h <;> rfl

theorem step_bc {cfg : Cfg} {s s' : Client} {l : Label} (h : step cfg s l = some s') : BStep s.bc s'.bc := by
  have same : s'.subs = s.subs → s'.in_pc.rm = s.in_pc.rm → s'.in_pc.over = s.in_pc.over → BStep s.bc s'.bc := by
    intro h1 h2 h3
    have : s'.bc = s.bc := by simp only [Client.bc, h1, h2, h3]
    rw [this]; exact .skip _
  have lf : s.lock_free = true → s.in_pc.rm = none := by
    intro hl
    rw [Client.lock_free] at hl
    split at hl
    · cases hl
    · rename_i hn
      cases hp : s.in_pc with
      | full f id rm => exact absurd hp (hn f id rm)
      | _ => rfl
  cases l with
  | in_poll =>
    simp only [step, in_poll] at h
    split at h
    · cases h
    · split at h
      · cases h; exact .lose _ _ _ _ _
      · cases h; exact .skip _
  | in_lookup =>
    simp only [step, in_lookup] at h
    split at h
    · rename_i f hp _
      have hb := subs_lookup_bc cfg.zero s.subs f
      split at h
      · rename_i hd sb he
        cases h
        rw [he] at hb
        simp only [Client.bc, after_lookup, rm_recv_wake, over_recv_wake, hp]
        exact hb.1 hd rfl
      · rename_i id rm sb he
        cases h
        rw [he] at hb
        simp only [Client.bc, hp]
        exact hb.2 id rm rfl
    · cases h
  | in_full_send =>
    simp only [step, in_full_send] at h
    split at h
    · rename_i f id rm hp _
      rcases try_send_cases s.subs id f with ⟨c, h1, h2, h3⟩ | ⟨c, h1, h2, h3, h4⟩ | ⟨h1, h2⟩
      · rw [h3] at h
        cases h
        obtain ⟨r1, r2, r3, r4⟩ := retain_bc { s.subs with chans := s.subs.chans.set id { c with queue := c.queue ++ [f] } } f.header.key false rm
        simp only [Client.bc, after_lookup, rm_recv_wake, over_recv_wake, hp, r1, r2, r3, r4]
        cases rm
        · exact .skip _
        · exact .remove _ _ _ _ f
      · rw [h4] at h; cases h
      · rw [h2] at h
        cases h
        obtain ⟨r1, r2, r3, r4⟩ := retain_bc s.subs f.header.key true rm
        simp only [Client.bc, after_lookup, rm_recv_wake, over_recv_wake, hp, r1, r2, r3, r4]
        cases rm
        · exact .skip _
        · exact .remove _ _ _ _ f
    · cases h
  | in_full_timeout =>
    simp only [step, in_full_timeout] at h
    split at h
    · rename_i f id rm hp _
      cases h
      obtain ⟨r1, r2, r3, r4⟩ := retain_bc (note_dropped s.subs id) f.header.key false rm
      obtain ⟨c', hc'⟩ := note_dropped_bc s.subs id
      simp only [Client.bc, after_lookup, rm_recv_wake, over_recv_wake, hp, r1, r2, r3, r4]
      rw [hc']
      cases rm
      · exact .skip _
      · exact .remove _ _ _ _ f
    · cases h
  | in_purge =>
    simp only [step] at h
    split at h
    · rename_i hp
      cases h
      simp only [Client.bc, hp]
      exact .purge _ _ _ _
    · cases h
  | sub_excl key depth =>
    simp only [step] at h
    split at h
    · rename_i hh
      cases h
      simp only [Client.bc, subscribe_inner_exclusive]
      repeat' split
      all_goals exact .skip _
    · cases h
  | sub_repl key depth =>
    simp only [step] at h
    split at h
    · rename_i hh
      cases h
      simp only [Client.bc, subscribe_inner]
      repeat' split
      all_goals exact .skip _
    · cases h
  | sub_multi key depth =>
    simp only [step] at h
    split at h
    · rename_i hh
      cases h
      simp only [Client.bc, lf hh.2, subscribe_multi_inner]
      split
      · exact .skip _
      · split
        · rename_i b hb
          exact .join _ _ _ _ key b hb
        · rename_i hb
          split
          · exact .skip _
          · rename_i hd
            exact .fresh _ _ _ _ key depth hd hb
    · cases h
  | recv_excl id =>
    simp only [step] at h
    cases h
    simp only [Client.bc, sub_recv]
    repeat' split
    all_goals exact .skip _
  | recv_multi id =>
    simp only [step] at h
    cases h
    simp only [Client.bc, multi_recv]
    split
    · exact .skip _
    · rename_i y hy
      split
      · exact .lag _ _ _ _ _ id y hy
      · rename_i hm
        split
        · rename_i f q hq
          exact .recv _ _ _ _ _ id y f q hy hq (by omega)
        · split <;> exact .skip _
  | drop_excl id =>
    simp only [step] at h
    cases h
    simp only [Client.bc, sub_drop]
    split <;> exact .skip _
  | drop_multi id =>
    simp only [step] at h
    cases h
    simp only [Client.bc, multi_drop]
    split
    · exact .skip _
    · rename_i y hy
      exact .dropRx _ _ _ _ _ id y hy
  | in_recv r =>
    simp only [step, in_recv] at h
    split at h
    · rename_i hp
      repeat' split at h
      all_goals first
        | (cases h; done)
        | (cases h; exact same rfl (by simp only [hp.1]; rfl) (by simp only [hp.1]; rfl))
        | (cases h; exact same rfl rfl rfl)
        | (cases h; exact .lose _ _ _ _ _)
    · cases h
  | in_wake w =>
    simp only [step, in_wake] at h
    split at h
    · rename_i hp _
      repeat' split at h
      all_goals first
        | (cases h; done)
        | (cases h; exact same rfl (by simp only [hp]; rfl) (by simp only [hp]; rfl))
    · cases h
  | _ =>
    simp only [step, send_resp_begin, call_reg_ok, call_reg_err, call_send, call_take, publish_raw_begin, pub_send,
      out_poll, out_recv, out_done, Client.set_phase, Client.drop_waits] at h
    repeat' split at h
    all_goals first
      | (cases h; done)
      | (cases h; exact .skip _)
      | (cases h; split <;> exact .skip _)


/-! ### Invariants -/

structure BInv (e : Bc) : Prop where
  nd : (e.bl.map Prod.fst).Nodup
  injB : ∀ k k' b, (k, b) ∈ e.bl → (k', b) ∈ e.bl → k = k'
  ent : ∀ k b, (k, b) ∈ e.bl → b < e.caps.length
  rxLt : ∀ r ∈ e.rx, r.chan < e.caps.length
  key : ∀ k b, (k, b) ∈ e.bl → ∀ r ∈ e.rx, r.chan = b → r.key = k
  since : ∀ r ∈ e.rx, r.since ≤ e.arr.length
  sub : ∀ r ∈ e.rx, (r.got ++ r.pending).Sublist (topicFrames e.arr r.key r.since)
  miss : ∀ r ∈ e.rx, r.missed ≤ r.lost
  dead : ∀ r ∈ e.rx, r.alive = false → r.pending = []
  rmOk : ∀ f, e.rm = some f → f ∈ e.arr ∧ ∃ k b, (k, b) ∈ e.bl ∧ key_match k f.header.key = true ∧
    e.rx.any (onChan b) = false

theorem binv_new : BInv Client.new.bc where
  nd := by simp [Client.bc, Client.new, Subs.new]
  injB := by intro k k' b h; simp [Client.bc, Client.new, Subs.new] at h
  ent := by intro k b h; simp [Client.bc, Client.new, Subs.new] at h
  rxLt := by intro r h; simp [Client.bc, Client.new, Subs.new] at h
  key := by intro k b h; simp [Client.bc, Client.new, Subs.new] at h
  since := by intro r h; simp [Client.bc, Client.new, Subs.new] at h
  sub := by intro r h; simp [Client.bc, Client.new, Subs.new] at h
  miss := by intro r h; simp [Client.bc, Client.new, Subs.new] at h
  dead := by intro r h; simp [Client.bc, Client.new, Subs.new] at h
  rmOk := by intro f h; simp [Client.bc, Client.new, InPc.rm] at h

theorem push_fields (cap : Nat) (f : RpcFrame) (r : BRx) : (r.push cap f).chan = r.chan ∧ (r.push cap f).alive = r.alive ∧
    (r.push cap f).key = r.key ∧ (r.push cap f).since = r.since ∧ (r.push cap f).got = r.got ∧
    ((r.push cap f).pending = r.pending ++ [f] ∧ (r.push cap f).missed = r.missed ∧ (r.push cap f).lost = r.lost ∨
     (r.push cap f).pending = (r.pending ++ [f]).tail ∧ (r.push cap f).missed = r.missed + 1 ∧
       (r.push cap f).lost = r.lost + 1) := by
  simp only [BRx.push]
  split
  · exact ⟨rfl, rfl, rfl, rfl, rfl, .inl ⟨rfl, rfl, rfl⟩⟩
  · exact ⟨rfl, rfl, rfl, rfl, rfl, .inr ⟨rfl, rfl, rfl⟩⟩

theorem tail_sublist' {α : Type} (l : List α) : l.tail.Sublist l := by
  cases l with
  | nil => exact List.Sublist.refl _
  | cons a l => exact List.sublist_cons_self a l

theorem bsub_arrive {a : List RpcFrame} {r : BRx} (hs : r.since ≤ a.length) (f : RpcFrame) {l : List RpcFrame}
    (h : l.Sublist (topicFrames a r.key r.since)) : l.Sublist (topicFrames (a ++ [f]) r.key r.since) := by
  rw [topicFrames_snoc hs]
  exact h.trans (List.sublist_append_left _ _)

/-- Changing one receiver. -/
theorem binv_set {a x c r m o} (inv : BInv ⟨a, x, c, r, m, o⟩) {id : Nat} {y : BRx} (hy : r[id]? = some y) (z : BRx)
    (h1 : z.chan = y.chan) (h2 : z.key = y.key) (h3 : z.since = y.since) (h4 : (z.got ++ z.pending).Sublist (y.got ++ y.pending))
    (h5 : z.missed ≤ z.lost) (h6 : z.alive = false → z.pending = []) (h7 : z.alive = true → y.alive = true) :
    BInv ⟨a, x, c, r.set id z, m, o⟩ := by
  have hyr : y ∈ r := List.mem_iff_getElem?.mpr ⟨id, hy⟩
  have mem : ∀ w ∈ r.set id z, w = z ∨ w ∈ r := by
    intro w hw
    rcases List.mem_or_eq_of_mem_set hw with h | h
    · exact .inr h
    · exact .inl h
  refine ⟨inv.nd, inv.injB, inv.ent, ?_, ?_, ?_, ?_, ?_, ?_, ?_⟩
  · intro w hw
    rcases mem w hw with rfl | h
    · rw [h1]; exact inv.rxLt y hyr
    · exact inv.rxLt w h
  · intro k b hk w hw hc
    rcases mem w hw with rfl | h
    · rw [h2]; exact inv.key k b hk y hyr (h1.symm.trans hc)
    · exact inv.key k b hk w h hc
  · intro w hw
    rcases mem w hw with rfl | h
    · rw [h3]; exact inv.since y hyr
    · exact inv.since w h
  · intro w hw
    rcases mem w hw with rfl | h
    · rw [h2, h3]; exact h4.trans (inv.sub y hyr)
    · exact inv.sub w h
  · intro w hw
    rcases mem w hw with rfl | h
    · exact h5
    · exact inv.miss w h
  · intro w hw
    rcases mem w hw with rfl | h
    · exact h6
    · exact inv.dead w h
  · intro f hf
    obtain ⟨g1, k, b, g2, g3, g4⟩ := inv.rmOk f hf
    refine ⟨g1, k, b, g2, g3, ?_⟩
    rw [List.any_eq_false] at g4 ⊢
    intro w hw hb
    rcases mem w hw with rfl | h
    · simp only [onChan, Bool.and_eq_true, beq_iff_eq] at hb
      exact g4 y hyr (by simp [onChan, h7 hb.1, ← h1, hb.2])
    · exact g4 w h hb

theorem binv_step {e e' : Bc} (hs : BStep e e') (inv : BInv e) : BInv e' := by
  have filt : ∀ {a x c r m o} (f : RpcFrame), BInv ⟨a, x, c, r, m, o⟩ → BInv ⟨a, x.filter fun e => !matchE f e, c, r, none, o⟩ := by
    intro a x c r m o f inv
    exact ⟨List.Nodup.sublist (List.Sublist.map _ List.filter_sublist) inv.nd,
      fun k k' b h h' => inv.injB k k' b (List.mem_filter.mp h).1 (List.mem_filter.mp h').1,
      fun k b h => inv.ent k b (List.mem_filter.mp h).1, inv.rxLt, fun k b h => inv.key k b (List.mem_filter.mp h).1,
      inv.since, inv.sub, inv.miss, inv.dead, fun f h => by cases h⟩
  have arr : ∀ {a x c r o} (f : RpcFrame), BInv ⟨a, x, c, r, none, o⟩ → BInv ⟨a ++ [f], x, c, r, none, o⟩ := by
    intro a x c r o f inv
    exact ⟨inv.nd, inv.injB, inv.ent, inv.rxLt, inv.key, fun w hw => Nat.le_trans (inv.since w hw) (by simp),
      fun w hw => bsub_arrive (inv.since w hw) f (inv.sub w hw), inv.miss, inv.dead, fun f h => by cases h⟩
  have newrx : ∀ {a x c r o} (b : Nat) (key : Key), BInv ⟨a, x, c, r, none, o⟩ → b < c.length →
      (∀ k, (k, b) ∈ x → k = key) → BInv ⟨a, x, c, r ++ [⟨b, [], 0, true, key, a.length, [], 0⟩], none, o⟩ := by
    intro a x c r o b key inv hb hk
    have mem : ∀ w ∈ r ++ [(⟨b, [], 0, true, key, a.length, [], 0⟩ : BRx)], w ∈ r ∨ w = ⟨b, [], 0, true, key, a.length, [], 0⟩ := by
      intro w hw
      rcases List.mem_append.mp hw with h | h
      · exact .inl h
      · exact .inr (List.mem_singleton.mp h)
    refine ⟨inv.nd, inv.injB, inv.ent, ?_, ?_, ?_, ?_, ?_, ?_, fun f h => by cases h⟩
    · intro w hw
      rcases mem w hw with h | rfl
      · exact inv.rxLt w h
      · exact hb
    · intro k b' hk' w hw hc
      rcases mem w hw with h | rfl
      · exact inv.key k b' hk' w h hc
      · simp only at hc
        subst hc
        exact (hk k hk').symm
    · intro w hw
      rcases mem w hw with h | rfl
      · exact inv.since w h
      · exact Nat.le_refl _
    · intro w hw
      rcases mem w hw with h | rfl
      · exact inv.sub w h
      · simp
    · intro w hw
      rcases mem w hw with h | rfl
      · exact inv.miss w h
      · exact Nat.le_refl _
    · intro w hw
      rcases mem w hw with h | rfl
      · exact inv.dead w h
      · intro h; cases h
  cases hs with
  | skip => exact inv
  | lose a x c r m =>
    exact ⟨inv.nd, inv.injB, inv.ent, inv.rxLt, inv.key, inv.since, inv.sub, inv.miss, inv.dead, fun f h => by cases h⟩
  | arriveNone a x c r f h => exact arr f inv
  | arriveOk a x c r f k b h hl =>
    have hx := find_mem h
    have mem : ∀ w ∈ r.map (fun y => if onChan b y then y.push (c.getD b 1) f else y),
        w ∈ r ∨ ∃ y ∈ r, y.alive = true ∧ y.chan = b ∧ w = y.push (c.getD b 1) f := by
      intro w hw
      obtain ⟨y, hy, e⟩ := List.mem_map.mp hw
      split at e
      · rename_i hb
        simp only [onChan, Bool.and_eq_true, beq_iff_eq] at hb
        exact .inr ⟨y, hy, hb.1, hb.2, e.symm⟩
      · subst e; exact .inl hy
    refine ⟨inv.nd, inv.injB, inv.ent, ?_, ?_, ?_, ?_, ?_, ?_, fun f h => by cases h⟩
    · intro w hw
      rcases mem w hw with h | ⟨y, hy, ha, hc, rfl⟩
      · exact inv.rxLt w h
      · rw [(push_fields _ f y).1]; exact inv.rxLt y hy
    · intro k' b' hk' w hw hc'
      rcases mem w hw with h | ⟨y, hy, ha, hc, rfl⟩
      · exact inv.key k' b' hk' w h hc'
      · rw [(push_fields _ f y).1] at hc'
        rw [(push_fields _ f y).2.2.1]
        exact inv.key k' b' hk' y hy hc'
    · intro w hw
      rcases mem w hw with h | ⟨y, hy, ha, hc, rfl⟩
      · exact Nat.le_trans (inv.since w h) (by simp)
      · rw [(push_fields _ f y).2.2.2.1]; exact Nat.le_trans (inv.since y hy) (by simp)
    · intro w hw
      rcases mem w hw with h | ⟨y, hy, ha, hc, rfl⟩
      · exact bsub_arrive (inv.since w h) f (inv.sub w h)
      · obtain ⟨_, _, p3, p4, p5, p6⟩ := push_fields (c.getD b 1) f y
        have hk : y.key = k := inv.key k b hx.1 y hy hc
        simp only
        rw [p3, p4, p5, topicFrames_snoc (inv.since y hy), hk, if_pos hx.2, ← hk]
        have h0 : (y.got ++ (y.pending ++ [f])).Sublist (topicFrames a y.key y.since ++ [f]) := by
          rw [← List.append_assoc]
          exact List.Sublist.append (inv.sub y hy) (List.Sublist.refl _)
        rcases p6 with ⟨p6, _⟩ | ⟨p6, _⟩
        · rw [p6]; exact h0
        · rw [p6]
          exact (List.Sublist.append (List.Sublist.refl _) (tail_sublist' _)).trans h0
    · intro w hw
      rcases mem w hw with h | ⟨y, hy, ha, hc, rfl⟩
      · exact inv.miss w h
      · have := inv.miss y hy
        rcases (push_fields (c.getD b 1) f y).2.2.2.2.2 with ⟨_, p7, p8⟩ | ⟨_, p7, p8⟩ <;> omega
    · intro w hw hal
      rcases mem w hw with h | ⟨y, hy, ha, hc, rfl⟩
      · exact inv.dead w h hal
      · rw [(push_fields _ f y).2.1, ha] at hal; cases hal
  | arriveDead a x c r f k b h hl => exact filt f (arr f inv)
  | arriveWait a x c r f k b h hl =>
    have i := arr f inv
    refine ⟨i.nd, i.injB, i.ent, i.rxLt, i.key, i.since, i.sub, i.miss, i.dead, ?_⟩
    intro f' hf
    cases hf
    exact ⟨by simp, k, b, (find_mem h).1, (find_mem h).2, hl⟩
  | remove a x c r f => exact filt f inv
  | purge a x c r =>
    exact ⟨by simp, fun k k' b h => (by cases h), fun k b h => (by cases h), inv.rxLt, fun k b h => (by cases h), inv.since,
      inv.sub, inv.miss, inv.dead, fun f h => by cases h⟩
  | join a x c r key b h =>
    have hx := find_entry_some h
    exact newrx b key inv (inv.ent key b hx) (fun k hk => inv.injB k key b hk hx)
  | fresh a x c r key depth hd h =>
    have hn := find_entry_none h
    have mem : ∀ k b, (k, b) ∈ x ++ [(key, c.length)] → (k, b) ∈ x ∧ b < c.length ∨ k = key ∧ b = c.length := by
      intro k b hm
      rcases List.mem_append.mp hm with h | h
      · exact .inl ⟨h, inv.ent k b h⟩
      · simp only [List.mem_singleton, Prod.mk.injEq] at h
        exact .inr h
    have : ∀ o, BInv ⟨a, x ++ [(key, c.length)], c ++ [next_pow2 depth depth], r, none, o⟩ := by
      intro o
      refine ⟨?_, ?_, ?_, ?_, ?_, inv.since, inv.sub, inv.miss, inv.dead, fun f h => by cases h⟩
      · rw [List.map_append, List.nodup_append]
        refine ⟨inv.nd, by simp, ?_⟩
        intro k hk k' hk' e
        simp only [List.map_cons, List.map_nil, List.mem_singleton] at hk'
        subst e; subst hk'
        exact hn hk
      · intro k k' b h1 h2
        rcases mem k b h1 with ⟨g1, l1⟩ | ⟨g1, l1⟩ <;> rcases mem k' b h2 with ⟨g2, l2⟩ | ⟨g2, l2⟩
        · exact inv.injB k k' b g1 g2
        · omega
        · omega
        · rw [g1, g2]
      · intro k b h1
        rw [List.length_append]
        rcases mem k b h1 with ⟨_, l1⟩ | ⟨_, l1⟩ <;> simp <;> omega
      · intro w hw
        have := inv.rxLt w hw
        simp only at this
        simp only [List.length_append, List.length_cons, List.length_nil]
        omega
      · intro k b h1 w hw hc
        rcases mem k b h1 with ⟨g1, l1⟩ | ⟨g1, l1⟩
        · exact inv.key k b g1 w hw hc
        · have := inv.rxLt w hw
          simp only at this
          omega
    refine newrx c.length key (this _) (by simp) ?_
    intro k hk
    rcases mem k _ hk with ⟨_, l1⟩ | ⟨g1, _⟩
    · omega
    · exact g1
  | lag a x c r m id y hy =>
    have hyr : y ∈ r := List.mem_iff_getElem?.mpr ⟨id, hy⟩
    exact binv_set inv hy _ rfl rfl rfl (List.Sublist.refl _) (Nat.zero_le _) (inv.dead y hyr) (fun h => h)
  | recv a x c r m id y f q hy hq hm =>
    have hyr : y ∈ r := List.mem_iff_getElem?.mpr ⟨id, hy⟩
    refine binv_set inv hy { y with pending := q, got := y.got ++ [f] } rfl rfl rfl ?_ (inv.miss y hyr) ?_ (fun h => h)
    · rw [hq]; simp
    · intro h
      have := inv.dead y hyr h
      rw [hq] at this; cases this
  | dropRx a x c r m id y hy =>
    have hyr : y ∈ r := List.mem_iff_getElem?.mpr ⟨id, hy⟩
    exact binv_set inv hy { y with alive := false, pending := [] } rfl rfl rfl
      (List.Sublist.append (List.Sublist.refl _) (List.nil_sublist _)) (inv.miss y hyr) (fun _ => rfl) (fun h => by cases h)

/-- No frame that arrived matches two different topics subscribed to. -/
def NoColB (e : Bc) : Prop := ∀ f ∈ e.arr, ∀ r1 ∈ e.rx, ∀ r2 ∈ e.rx,
  key_match r1.key f.header.key = true → key_match r2.key f.header.key = true → r1.key = r2.key

structure BCInv (e : Bc) : Prop where
  own : ∀ k b, (k, b) ∈ e.bl → ∃ r ∈ e.rx, r.key = k
  reg : NoColB e → e.over = false → ∀ r ∈ e.rx, r.alive = true → (r.key, r.chan) ∈ e.bl
  count : NoColB e → ∀ r ∈ e.rx, r.alive = true →
    r.got.length + r.pending.length + r.lost = (topicFrames e.arr r.key r.since).length
  preD : NoColB e → ∀ r ∈ e.rx, r.lost = 0 → r.got <+: topicFrames e.arr r.key r.since

theorem bcinv_new : BCInv Client.new.bc where
  own := by intro k b h; simp [Client.bc, Client.new, Subs.new] at h
  reg := by intro _ _ r h; simp [Client.bc, Client.new, Subs.new] at h
  count := by intro _ r h; simp [Client.bc, Client.new, Subs.new] at h
  preD := by intro _ r h; simp [Client.bc, Client.new, Subs.new] at h

theorem noColB_back {a a' x x' c c' r r' m m' o o'} (h : NoColB ⟨a', x', c', r', m', o'⟩) (ha : ∀ f ∈ a, f ∈ a')
    (hc : ∀ z ∈ r, ∃ z' ∈ r', z'.key = z.key) : NoColB ⟨a, x, c, r, m, o⟩ := by
  intro f hf c1 h1 c2 h2 m1 m2
  obtain ⟨z1, g1, e1⟩ := hc c1 h1
  obtain ⟨z2, g2, e2⟩ := hc c2 h2
  rw [← e1, ← e2]
  exact h f (ha f hf) z1 g1 z2 g2 (by rw [e1]; exact m1) (by rw [e2]; exact m2)

theorem mem_bkey_set {r : List BRx} {id : Nat} {y z : BRx} (hy : r[id]? = some y) (hk : z.key = y.key) {w : BRx}
    (hw : w ∈ r) : ∃ w' ∈ r.set id z, w'.key = w.key := by
  obtain ⟨j, hj⟩ := List.mem_iff_getElem?.mp hw
  by_cases e : j = id
  · subst e
    rw [hy] at hj; cases hj
    exact ⟨z, List.mem_iff_getElem?.mpr ⟨j, set_get_self hy z⟩, hk⟩
  · exact ⟨w, List.mem_iff_getElem?.mpr ⟨j, (set_get_ne z e).trans hj⟩, rfl⟩

theorem bcinv_set {a x c r m o} (inv : BCInv ⟨a, x, c, r, m, o⟩) {id : Nat} {y : BRx} (hy : r[id]? = some y) (z : BRx)
    (h1 : z.chan = y.chan) (h2 : z.key = y.key) (h3 : z.since = y.since) (hl : z.lost = y.lost)
    (h4 : z.alive = true → z.got.length + z.pending.length = y.got.length + y.pending.length)
    (h5 : ∀ l, y.got <+: l → (y.alive = true → y.got ++ y.pending = l) → z.got <+: l)
    (bi : BInv ⟨a, x, c, r, m, o⟩)
    (h7 : z.alive = true → y.alive = true) : BCInv ⟨a, x, c, r.set id z, m, o⟩ := by
  have hyr : y ∈ r := List.mem_iff_getElem?.mpr ⟨id, hy⟩
  have back : NoColB ⟨a, x, c, r.set id z, m, o⟩ → NoColB ⟨a, x, c, r, m, o⟩ :=
    fun nc => noColB_back nc (fun _ h => h) (fun w hw => mem_bkey_set hy h2 hw)
  have mem : ∀ w ∈ r.set id z, w = z ∨ w ∈ r := by
    intro w hw
    rcases List.mem_or_eq_of_mem_set hw with h | h
    · exact .inr h
    · exact .inl h
  refine ⟨?_, ?_, ?_, ?_⟩
  · intro k b hk
    obtain ⟨w, hw, e⟩ := inv.own k b hk
    obtain ⟨w', hw', e'⟩ := mem_bkey_set hy h2 hw
    exact ⟨w', hw', e'.trans e⟩
  · intro nc ho w hw hal
    rcases mem w hw with rfl | h
    · rw [h2, h1]; exact inv.reg (back nc) ho y hyr (h7 hal)
    · exact inv.reg (back nc) ho w h hal
  · intro nc w hw hal
    rcases mem w hw with rfl | h
    · rw [h2, h3, hl, h4 hal]; exact inv.count (back nc) y hyr (h7 hal)
    · exact inv.count (back nc) w h hal
  · intro nc w hw hl0
    rcases mem w hw with rfl | h
    · rw [h2, h3]
      refine h5 _ (inv.preD (back nc) y hyr (hl ▸ hl0)) (fun hal => ?_)
      refine (bi.sub y hyr).eq_of_length ?_
      have := inv.count (back nc) y hyr hal
      rw [List.length_append]
      have : y.lost = 0 := hl ▸ hl0
      omega
    · exact inv.preD (back nc) w h hl0

/-- Removing the entries that match a frame matched by an entry without live receivers. -/
theorem bcinv_filter {a x c r m o} {f : RpcFrame} {k : Key} {b : Nat} (inv : BCInv ⟨a, x, c, r, m, o⟩) (bi : BInv ⟨a, x, c, r, m, o⟩)
    (hx : (k, b) ∈ x) (hm : key_match k f.header.key = true) (hf : f ∈ a) (hl : r.any (onChan b) = false) :
    BCInv ⟨a, x.filter fun e => !matchE f e, c, r, none, o⟩ := by
  refine ⟨fun k b h => inv.own k b (List.mem_filter.mp h).1, ?_, inv.count, inv.preD⟩
  intro nc ho w hw hal
  have h := inv.reg nc ho w hw hal
  refine List.mem_filter.mpr ⟨h, ?_⟩
  cases hb : key_match w.key f.header.key with
  | false => simp [hb]
  | true =>
    obtain ⟨w', hw', e⟩ := inv.own k b hx
    have e2 := nc f hf w' hw' w hw (by rw [e]; exact hm) hb
    rw [← e2, e] at h
    have := inj_of_nodup_map bi.nd hx h rfl
    cases this
    rw [List.any_eq_false] at hl
    exact absurd (by simp [onChan, hal]) (hl w hw)

theorem bcinv_arrive {a x c r} {f : RpcFrame} (inv : BCInv ⟨a, x, c, r, none, false⟩) (bi : BInv ⟨a, x, c, r, none, false⟩)
    (hno : NoColB ⟨a ++ [f], x, c, r, none, false⟩ → ∀ w ∈ r, w.alive = true → key_match w.key f.header.key = false)
    (m' : Option RpcFrame) : BCInv ⟨a ++ [f], x, c, r, m', false⟩ := by
  have back : NoColB ⟨a ++ [f], x, c, r, m', false⟩ → NoColB ⟨a, x, c, r, none, false⟩ :=
    fun nc => noColB_back nc (fun g hg => List.mem_append.mpr (.inl hg)) (fun w hw => ⟨w, hw, rfl⟩)
  refine ⟨inv.own, fun nc ho => inv.reg (back nc) ho, ?_, ?_⟩
  · intro nc w hw hal
    have hn := hno nc w hw hal
    simp only
    rw [topicFrames_snoc (bi.since w hw), hn, if_neg (by simp), List.append_nil]
    exact inv.count (back nc) w hw hal
  · intro nc w hw hl0
    exact prefix_snoc (bi.since w hw) (inv.preD (back nc) w hw hl0) f

theorem bcinv_step {e e' : Bc} (hs : BStep e e') (bi : BInv e) (inv : BCInv e) : BCInv e' := by
  have dead : ∀ {a x c r f k b}, BCInv ⟨a, x, c, r, none, false⟩ → BInv ⟨a, x, c, r, none, false⟩ →
      x.find? (matchE f) = some (k, b) → r.any (onChan b) = false → NoColB ⟨a ++ [f], x, c, r, none, false⟩ →
      ∀ w ∈ r, w.alive = true → key_match w.key f.header.key = false := by
    intro a x c r f k b inv bi h hl nc w hw hal
    cases hb : key_match w.key f.header.key with
    | false => rfl
    | true =>
      obtain ⟨hx, hm⟩ := find_mem h
      obtain ⟨w', hw', e⟩ := inv.own k b hx
      have e2 := nc f (by simp) w' hw' w hw (by rw [e]; exact hm) hb
      have back : NoColB ⟨a, x, c, r, none, false⟩ :=
        noColB_back nc (fun g hg => List.mem_append.mpr (.inl hg)) (fun w hw => ⟨w, hw, rfl⟩)
      have h := inv.reg back rfl w hw hal
      rw [← e2, e] at h
      have := inj_of_nodup_map bi.nd hx h rfl
      cases this
      rw [List.any_eq_false] at hl
      exact absurd (by simp [onChan, hal]) (hl w hw)
  have newrx : ∀ {a x x' c c' r o} (b : Nat) (key : Key), BCInv ⟨a, x, c, r, none, o⟩ → (∀ e ∈ x, e ∈ x') →
      (key, b) ∈ x' → (∀ k b', (k, b') ∈ x' → (k, b') ∈ x ∨ k = key) →
      BCInv ⟨a, x', c', r ++ [⟨b, [], 0, true, key, a.length, [], 0⟩], none, o⟩ := by
    intro a x x' c c' r o b key inv hsub hb hk
    have mem : ∀ w ∈ r ++ [(⟨b, [], 0, true, key, a.length, [], 0⟩ : BRx)], w ∈ r ∨ w = ⟨b, [], 0, true, key, a.length, [], 0⟩ := by
      intro w hw
      rcases List.mem_append.mp hw with h | h
      · exact .inl h
      · exact .inr (List.mem_singleton.mp h)
    have back : NoColB ⟨a, x', c', r ++ [⟨b, [], 0, true, key, a.length, [], 0⟩], none, o⟩ → NoColB ⟨a, x, c, r, none, o⟩ :=
      fun nc => noColB_back nc (fun g hg => hg) (fun w hw => ⟨w, List.mem_append.mpr (.inl hw), rfl⟩)
    refine ⟨?_, ?_, ?_, ?_⟩
    · intro k b' h
      rcases hk k b' h with h | rfl
      · obtain ⟨w, hw, e⟩ := inv.own k b' h
        exact ⟨w, List.mem_append.mpr (.inl hw), e⟩
      · exact ⟨_, List.mem_append.mpr (.inr (List.mem_singleton.mpr rfl)), rfl⟩
    · intro nc ho w hw hal
      rcases mem w hw with h | rfl
      · exact hsub _ (inv.reg (back nc) ho w h hal)
      · exact hb
    · intro nc w hw hal
      rcases mem w hw with h | rfl
      · exact inv.count (back nc) w h hal
      · simp [topicFrames]
    · intro nc w hw hl0
      rcases mem w hw with h | rfl
      · exact inv.preD (back nc) w h hl0
      · exact List.nil_prefix
  cases hs with
  | skip => exact inv
  | lose a x c r m => exact ⟨inv.own, fun _ h => (by cases h), inv.count, inv.preD⟩
  | arriveNone a x c r f h =>
    refine bcinv_arrive inv bi (fun nc w hw hal => ?_) none
    have back : NoColB ⟨a, x, c, r, none, false⟩ :=
      noColB_back nc (fun g hg => List.mem_append.mpr (.inl hg)) (fun w hw => ⟨w, hw, rfl⟩)
    have := List.find?_eq_none.mp h _ (inv.reg back rfl w hw hal)
    simpa using this
  | arriveOk a x c r f k b h hl =>
    obtain ⟨hx, hm⟩ := find_mem h
    have mem : ∀ w ∈ r.map (fun y => if onChan b y then y.push (c.getD b 1) f else y),
        (w ∈ r ∧ onChan b w = false) ∨ ∃ y ∈ r, y.alive = true ∧ y.chan = b ∧ w = y.push (c.getD b 1) f := by
      intro w hw
      obtain ⟨y, hy, e⟩ := List.mem_map.mp hw
      split at e
      · rename_i hb
        simp only [onChan, Bool.and_eq_true, beq_iff_eq] at hb
        exact .inr ⟨y, hy, hb.1, hb.2, e.symm⟩
      · rename_i hb
        subst e; exact .inl ⟨hy, by simpa using hb⟩
    have fwd : ∀ w ∈ r, ∃ w' ∈ r.map (fun y => if onChan b y then y.push (c.getD b 1) f else y), w'.key = w.key := by
      intro w hw
      refine ⟨_, List.mem_map.mpr ⟨w, hw, rfl⟩, ?_⟩
      split
      · exact (push_fields _ f w).2.2.1
      · rfl
    have back : NoColB ⟨a ++ [f], x, c, r.map (fun y => if onChan b y then y.push (c.getD b 1) f else y), none, false⟩ →
        NoColB ⟨a, x, c, r, none, false⟩ :=
      fun nc => noColB_back nc (fun g hg => List.mem_append.mpr (.inl hg)) fwd
    have nc1 : NoColB ⟨a ++ [f], x, c, r.map (fun y => if onChan b y then y.push (c.getD b 1) f else y), none, false⟩ →
        NoColB ⟨a ++ [f], x, c, r, none, false⟩ := fun nc => noColB_back nc (fun g hg => hg) fwd
    refine ⟨?_, ?_, ?_, ?_⟩
    · intro k' b' h'
      obtain ⟨w, hw, e⟩ := inv.own k' b' h'
      obtain ⟨w', hw', e'⟩ := fwd w hw
      exact ⟨w', hw', e'.trans e⟩
    · intro nc ho w hw hal
      rcases mem w hw with ⟨h, _⟩ | ⟨y, hy, ha, hc, rfl⟩
      · exact inv.reg (back nc) ho w h hal
      · rw [(push_fields _ f y).2.2.1, (push_fields _ f y).1]
        exact inv.reg (back nc) ho y hy ha
    · intro nc w hw hal
      simp only
      rcases mem w hw with ⟨h, hb⟩ | ⟨y, hy, ha, hc, rfl⟩
      · have hn : key_match w.key f.header.key = false := by
          cases hbm : key_match w.key f.header.key with
          | false => rfl
          | true =>
            obtain ⟨w', hw', e⟩ := inv.own k b hx
            have e2 := nc1 nc f (by simp) w' hw' w h (by rw [e]; exact hm) hbm
            have h' := inv.reg (back nc) rfl w h hal
            rw [← e2, e] at h'
            have := inj_of_nodup_map bi.nd hx h' rfl
            cases this
            simp [onChan, hal] at hb
        rw [topicFrames_snoc (bi.since w h), hn, if_neg (by simp), List.append_nil]
        exact inv.count (back nc) w h hal
      · obtain ⟨_, _, p3, p4, p5, p6⟩ := push_fields (c.getD b 1) f y
        have hk : y.key = k := bi.key k b hx y hy hc
        rw [p3, p4, p5, topicFrames_snoc (bi.since y hy), hk, if_pos hm, ← hk, List.length_append]
        have h0 := inv.count (back nc) y hy ha
        simp only at h0
        rcases p6 with ⟨p6, _, p8⟩ | ⟨p6, _, p8⟩
        · rw [p6, p8]; simp; omega
        · rw [p6, p8]; simp; omega
    · intro nc w hw hl0
      simp only
      rcases mem w hw with ⟨h, hb⟩ | ⟨y, hy, ha, hc, rfl⟩
      · exact prefix_snoc (bi.since w h) (inv.preD (back nc) w h hl0) f
      · obtain ⟨_, _, p3, p4, p5, p6⟩ := push_fields (c.getD b 1) f y
        rw [p3, p4, p5]
        refine prefix_snoc (bi.since y hy) (inv.preD (back nc) y hy ?_) f
        rcases p6 with ⟨_, _, p8⟩ | ⟨_, _, p8⟩ <;> omega
  | arriveDead a x c r f k b h hl =>
    have i := bcinv_arrive inv bi (fun nc => dead inv bi h hl nc) none
    have bi' : BInv ⟨a ++ [f], x, c, r, none, false⟩ :=
      ⟨bi.nd, bi.injB, bi.ent, bi.rxLt, bi.key, fun w hw => Nat.le_trans (bi.since w hw) (by simp),
        fun w hw => bsub_arrive (bi.since w hw) f (bi.sub w hw), bi.miss, bi.dead, fun f h => by cases h⟩
    exact bcinv_filter i bi' (find_mem h).1 (find_mem h).2 (by simp) hl
  | arriveWait a x c r f k b h hl => exact bcinv_arrive inv bi (fun nc => dead inv bi h hl nc) (some f)
  | remove a x c r f =>
    obtain ⟨g1, k, b, g2, g3, g4⟩ := bi.rmOk f rfl
    exact bcinv_filter inv bi g2 g3 g1 g4
  | purge a x c r => exact ⟨fun k b h => (by cases h), fun _ h => (by cases h), inv.count, inv.preD⟩
  | join a x c r key b h => exact newrx b key inv (fun e he => he) (find_entry_some h) (fun k b' h => .inl h)
  | fresh a x c r key depth hd h =>
    refine newrx c.length key inv (fun e he => List.mem_append.mpr (.inl he)) (by simp) ?_
    intro k b' h
    rcases List.mem_append.mp h with h | h
    · exact .inl h
    · simp only [List.mem_singleton, Prod.mk.injEq] at h
      exact .inr h.1
  | lag a x c r m id y hy =>
    exact bcinv_set inv hy { y with missed := 0 } rfl rfl rfl rfl (fun _ => rfl) (fun l h _ => h) bi (fun h => h)
  | recv a x c r m id y f q hy hq hm =>
    have hyr : y ∈ r := List.mem_iff_getElem?.mpr ⟨id, hy⟩
    refine bcinv_set inv hy { y with pending := q, got := y.got ++ [f] } rfl rfl rfl rfl ?_ ?_ bi (fun h => h)
    · intro _; rw [hq]; simp; omega
    · intro l h1 h2
      have hal : y.alive = true := by
        cases hb : y.alive with
        | true => rfl
        | false =>
          have := bi.dead y hyr hb
          rw [hq] at this; cases this
      rw [← h2 hal, hq]
      exact ⟨q, by simp⟩
  | dropRx a x c r m id y hy =>
    exact bcinv_set inv hy { y with alive := false, pending := [] } rfl rfl rfl rfl (fun h => by cases h)
      (fun l h _ => h) bi (fun h => by cases h)

theorem reachable_bcinv {cfg : Cfg} {s : Client} (h : Reachable cfg s) : BInv s.bc ∧ BCInv s.bc :=
  reachable_induct (fun s => BInv s.bc ∧ BCInv s.bc) ⟨binv_new, bcinv_new⟩
    (fun _ _ _ inv hs => ⟨binv_step (step_bc hs) inv.1, bcinv_step (step_bc hs) inv.1 inv.2⟩) h

end PRpc
