import Verif.Spec.Held
import Verif.Lemmas.ClientLag
import Verif.Lemmas.ClientQueue
/-! Helper lemmas for C92. -/

namespace PRpc

open Spec

/-! ### Lists -/

theorem length_le_of_nodup {α : Type} [DecidableEq α] : ∀ (l : List α), l.Nodup → ∀ (m : List α), (∀ x ∈ l, x ∈ m) → l.length ≤ m.length
  | [], _, _, _ => Nat.zero_le _
  | x :: l, nd, m, hm => by
    have hx := hm x (by simp)
    rw [List.nodup_cons] at nd
    have := length_le_of_nodup l nd.2 (m.erase x) (fun y hy => by
      have hne : y ≠ x := fun e => nd.1 (e ▸ hy)
      exact (List.mem_erase_of_ne hne).mpr (hm y (by simp [hy])))
    have hl := List.length_erase_of_mem hx
    have : 0 < m.length := List.length_pos_of_mem hx
    simp only [List.length_cons]; omega

theorem sum_le_filter {α : Type} (f : α → Nat) (p : α → Bool) (d : Nat) (l : List α) (h1 : ∀ x ∈ l, p x = false → f x = 0)
    (h2 : ∀ x ∈ l, f x ≤ d) : (l.map f).sum ≤ d * (l.filter p).length := by
  induction l with
  | nil => simp
  | cons x l ih =>
    have ih := ih (fun y hy => h1 y (by simp [hy])) (fun y hy => h2 y (by simp [hy]))
    rw [List.map_cons, List.sum_cons, List.filter_cons]
    cases hp : p x with
    | false => rw [h1 x (by simp) hp]; simpa using ih
    | true =>
      have := h2 x (by simp)
      rw [if_pos rfl, List.length_cons, Nat.mul_succ]; omega

/-! ### Queues -/

/-- Every queue fits its capacity. -/
def QOk (s : Subs) : Prop := ∀ c ∈ s.chans, c.queue.length ≤ c.cap

theorem qok_set {s s' : Subs} (h : QOk s) {id : Nat} {c : Chan} (hs : s'.chans = s.chans.set id c) (hc : c.queue.length ≤ c.cap) :
    QOk s' := by
  intro x hx
  rw [hs] at hx
  rcases List.mem_or_eq_of_mem_set hx with h' | h'
  · exact h x h'
  · exact h' ▸ hc

theorem qok_of_chans {s s' : Subs} (h : QOk s) (hs : s'.chans = s.chans) : QOk s' := by
  intro x hx; rw [hs] at hx; exact h x hx

theorem qok_try_send {s : Subs} (h : QOk s) (id : Nat) (f : RpcFrame) : QOk (try_send s id f).2 := by
  rw [try_send]
  split
  · exact h
  · rename_i c hc
    split
    · exact h
    · split
      · exact h
      · refine qok_set h rfl ?_
        show (c.queue ++ [f]).length ≤ c.cap
        rw [List.length_append, List.length_singleton]; omega

theorem qok_note {s : Subs} (h : QOk s) (id : Nat) : QOk (note_dropped s id) := by
  rw [note_dropped]
  split
  · exact h
  · rename_i c hc
    exact qok_set h rfl (h c (List.mem_of_getElem? hc))

theorem qok_retain {s : Subs} (h : QOk s) (key : VarKey) (a b : Bool) : QOk (retain_subs s key a b) :=
  qok_of_chans h (retain_exc s key a b).2.1

theorem qok_lookup {s : Subs} (h : QOk s) (zero : Bool) (f : RpcFrame) : QOk (subs_lookup zero s f).2 := by
  rw [subs_lookup_eq]
  have hb : QOk (lookupB { s with arrived := s.arrived ++ [f] } f).2.2 :=
    qok_of_chans h (lookupB_exc { s with arrived := s.arrived ++ [f] } f).2.2
  revert hb
  generalize lookupB { s with arrived := s.arrived ++ [f] } f = x
  intro hb
  rw [lookupE]
  split
  · rename_i id _
    have ht := qok_try_send hb id f
    split
    · rename_i s1 e; rw [e] at ht; exact qok_retain ht _ _ _
    · rename_i s1 e; rw [e] at ht
      split
      · exact qok_retain (qok_note ht id) _ _ _
      · exact ht
    · rename_i s1 e; rw [e] at ht; exact qok_retain ht _ _ _
  · exact qok_retain hb _ _ _

theorem qok_new {s s' : Subs} (h : QOk s) {key : Key} {depth since : Nat} (hs : s'.chans = s.chans ++ [Chan.new key depth since]) :
    QOk s' := by
  intro x hx
  rw [hs, List.mem_append, List.mem_singleton] at hx
  rcases hx with hx | rfl
  · exact h x hx
  · exact Nat.zero_le _

theorem step_qok {cfg : Cfg} {s s' : Client} {l : Label} (h : step cfg s l = some s') (hq : QOk s.subs) : QOk s'.subs := by
  cases l with
  | in_lookup =>
    simp only [step, in_lookup] at h
    split at h
    · rename_i f _ _
      have hb := qok_lookup hq cfg.zero f
      split at h <;> (rename_i he; cases h; rw [he] at hb; exact hb)
    · cases h
  | in_full_send =>
    simp only [step, in_full_send] at h
    split at h
    · rename_i f id rm _ _
      have ht := qok_try_send hq id f
      split at h
      · rename_i sb he; cases h; rw [he] at ht; exact qok_retain ht _ _ _
      · cases h
      · rename_i sb he; cases h; rw [he] at ht; exact qok_retain ht _ _ _
    · cases h
  | in_full_timeout =>
    simp only [step, in_full_timeout] at h
    split at h
    · cases h; exact qok_retain (qok_note hq _) _ _ _
    · cases h
  | sub_excl key depth =>
    simp only [step, subscribe_inner_exclusive] at h
    split at h
    · cases h
      repeat' split
      all_goals first
        | exact hq
        | exact qok_new hq rfl
    · cases h
  | sub_repl key depth =>
    simp only [step, subscribe_inner] at h
    split at h
    · cases h
      repeat' split
      all_goals first
        | exact hq
        | exact qok_new hq rfl
    · cases h
  | sub_multi key depth =>
    simp only [step, subscribe_multi_inner] at h
    split at h
    · cases h
      repeat' split
      all_goals exact hq
    · cases h
  | recv_excl id =>
    simp only [step, sub_recv] at h
    cases h
    split
    · exact hq
    · rename_i c hc
      have := hq c (List.mem_of_getElem? hc)
      split
      · rename_i f q e
        refine qok_set hq rfl ?_
        rw [e, List.length_cons] at this
        show q.length ≤ c.cap
        omega
      · split <;> exact hq
  | drop_excl id =>
    simp only [step, sub_drop] at h
    cases h
    split
    · exact hq
    · exact qok_set hq rfl (Nat.zero_le _)
  | _ =>
    simp only [step, send_resp_begin, call_reg_ok, call_reg_err, call_send, call_take, publish_raw_begin, pub_send,
      out_poll, out_recv, out_done, in_poll, in_recv, in_wake, subs_purge, multi_drop, multi_recv,
      Client.set_phase, Client.drop_waits] at h
    repeat' split at h
    all_goals first
      | (cases h; done)
      | (cases h; exact hq)
      | (cases h; split <;> exact hq)
      | (cases h; (repeat' split) <;> exact hq)

theorem reachable_qok {cfg : Cfg} {s : Client} (h : Reachable cfg s) : QOk s.subs :=
  reachable_induct (fun s => QOk s.subs) (fun c hc => by cases hc) (fun _ _ _ hq hs => step_qok hs hq) h

/-- Every receiver of a broadcast channel holds no more than the channel's capacity. -/
def BQOk (e : Bc) : Prop := ∀ r ∈ e.rx, r.pending.length ≤ e.caps.getD r.chan 1

theorem push_length (cap : Nat) (f : RpcFrame) (r : BRx) (h : r.pending.length ≤ cap) : (r.push cap f).pending.length ≤ cap := by
  unfold BRx.push
  dsimp only
  split
  · assumption
  · simpa using h

theorem bqok_set {a a' x x' c r m m' o o'} {id : Nat} {y : BRx} (h : BQOk ⟨a, x, c, r, m, o⟩)
    (hy : y.pending.length ≤ c.getD y.chan 1) : BQOk ⟨a', x', c, r.set id y, m', o'⟩ := by
  intro z hz
  rcases List.mem_or_eq_of_mem_set hz with h' | h'
  · exact h z h'
  · exact h' ▸ hy

theorem bqok_step {e e' : Bc} (hs : BStep e e') (inv : BInv e) (h : BQOk e) : BQOk e' := by
  cases hs with
  | skip => exact h
  | lose => exact h
  | arriveNone => exact h
  | arriveOk a x c r f k b hf hl =>
    intro z hz
    obtain ⟨y, hy, rfl⟩ := List.mem_map.mp hz
    have hyl := h y hy
    show (if onChan b y then y.push (c.getD b 1) f else y).pending.length ≤ c.getD _ 1
    split
    · rename_i ho
      simp only [onChan, Bool.and_eq_true, beq_iff_eq] at ho
      rw [(push_fields _ f y).1, ho.2]
      rw [show y.chan = b from ho.2] at hyl
      exact push_length _ f y hyl
    · exact hyl
  | arriveDead => exact h
  | arriveWait => exact h
  | remove => exact h
  | purge => exact h
  | join a x c r key b hb =>
    intro z hz
    rcases List.mem_append.mp hz with hz | hz
    · exact h z hz
    · rw [List.mem_singleton] at hz; subst hz; exact Nat.zero_le _
  | fresh a x c r key depth hd hn =>
    intro z hz
    rcases List.mem_append.mp hz with hz | hz
    · have := h z hz
      have hlt := inv.rxLt z hz
      simp only at hlt this ⊢
      rw [List.getD_eq_getElem?_getD, List.getElem?_append_left hlt, ← List.getD_eq_getElem?_getD]
      exact this
    · rw [List.mem_singleton] at hz; subst hz; exact Nat.zero_le _
  | lag a x c r m id y hy => exact bqok_set h (h y (List.mem_of_getElem? hy))
  | recv a x c r m id y f q hy hq hm =>
    have := h y (List.mem_of_getElem? hy)
    rw [hq, List.length_cons] at this
    exact bqok_set h (y := { y with pending := q, got := y.got ++ [f] }) (by simp only at this ⊢; omega)
  | dropRx a x c r m id y hy => exact bqok_set h (Nat.zero_le _)

theorem reachable_bqok {cfg : Cfg} {s : Client} (h : Reachable cfg s) : BQOk s.bc := by
  obtain ⟨ls, h⟩ := h
  refine (run_induct (fun s => (BInv s.bc ∧ BCInv s.bc) ∧ BQOk s.bc) (fun s l s' hi hs => ?_) ls _ _ ⟨⟨binv_new, bcinv_new⟩, ?_⟩ h).2
  · exact ⟨⟨binv_step (step_bc hs) hi.1.1, bcinv_step (step_bc hs) hi.1.1 hi.1.2⟩, bqok_step (step_bc hs) hi.1.1 hi.2⟩
  · intro r hr; cases hr

/-! ### Capacities and topics -/

theorem next_pow2_lt (n f : Nat) : next_pow2 n f < 2 * n ∨ next_pow2 n f = 1 := by
  induction f with
  | zero => exact .inr rfl
  | succ f ih =>
    rw [next_pow2]
    split
    · exact ih
    · rename_i h
      left
      have : 2 ^ (f + 1) = 2 * 2 ^ f := by rw [Nat.pow_succ, Nat.mul_comm]
      omega

theorem next_pow2_lt' (n : Nat) (hn : 0 < n) : next_pow2 n n < 2 * n := by
  rcases next_pow2_lt n n with h | h
  · exact h
  · rw [h]; omega

/-- The depth and the topic of every exclusive subscription ever made. -/
def Subs.made (s : Subs) : List (Nat × Key) := s.chans.map fun c => (c.cap, c.key)

/-- The topic of every multi-subscription ever made. -/
def Subs.joined (s : Subs) : List Key := s.brxs.map BRx.key

theorem made_set {s s' : Subs} {id : Nat} {c y : Chan} (hc : s.chans[id]? = some c) (hs : s'.chans = s.chans.set id y)
    (hy : y.cap = c.cap ∧ y.key = c.key) : s'.made = s.made := by
  rw [Subs.made, hs, List.map_set, hy.1, hy.2, Subs.made]
  apply List.ext_getElem?
  intro j
  rw [List.getElem?_set]
  split
  · rename_i e
    subst e
    rw [List.length_map, if_pos (get_lt hc), List.getElem?_map, hc]; rfl
  · rfl

theorem made_of_chans {s s' : Subs} (h : s'.chans = s.chans) : s'.made = s.made := by rw [Subs.made, h, Subs.made]

theorem joined_of_brxs {s s' : Subs} (h : s'.brxs = s.brxs) : s'.joined = s.joined := by rw [Subs.joined, h, Subs.joined]

theorem joined_set {s s' : Subs} {id : Nat} {c y : BRx} (hc : s.brxs[id]? = some c) (hs : s'.brxs = s.brxs.set id y)
    (hy : y.key = c.key) : s'.joined = s.joined := by
  rw [Subs.joined, hs, List.map_set, hy, Subs.joined]
  apply List.ext_getElem?
  intro j
  rw [List.getElem?_set]
  split
  · rename_i e
    subst e
    rw [List.length_map, if_pos (get_lt hc), List.getElem?_map, hc]; rfl
  · rfl

theorem made_try_send (s : Subs) (id : Nat) (f : RpcFrame) : (try_send s id f).2.made = s.made := by
  rw [try_send]
  split
  · rfl
  · rename_i c hc
    split
    · rfl
    · split
      · rfl
      · exact made_set hc rfl ⟨rfl, rfl⟩

theorem made_note (s : Subs) (id : Nat) : (note_dropped s id).made = s.made := by
  rw [note_dropped]
  split
  · rfl
  · rename_i c hc
    exact made_set hc rfl ⟨rfl, rfl⟩

theorem made_retain (s : Subs) (key : VarKey) (a b : Bool) : (retain_subs s key a b).made = s.made :=
  made_of_chans (retain_exc s key a b).2.1

theorem made_lookup (s : Subs) (zero : Bool) (f : RpcFrame) : (subs_lookup zero s f).2.made = s.made := by
  rw [subs_lookup_eq]
  have hb : (lookupB { s with arrived := s.arrived ++ [f] } f).2.2.made = s.made :=
    made_of_chans (lookupB_exc { s with arrived := s.arrived ++ [f] } f).2.2
  revert hb
  generalize lookupB { s with arrived := s.arrived ++ [f] } f = x
  intro hb
  rw [lookupE]
  split
  · rename_i id _
    have ht := made_try_send x.2.2 id f
    split
    · rename_i s1 e; rw [e] at ht; exact (made_retain _ _ _ _).trans (ht.trans hb)
    · rename_i s1 e; rw [e] at ht
      split
      · exact (made_retain _ _ _ _).trans ((made_note _ _).trans (ht.trans hb))
      · exact ht.trans hb
    · rename_i s1 e; rw [e] at ht; exact (made_retain _ _ _ _).trans (ht.trans hb)
  · exact (made_retain _ _ _ _).trans hb

/-- Only the two ways of subscribing exclusively make a channel, of the depth and for the topic asked for. -/
theorem step_made {cfg : Cfg} {s s' : Client} {l : Label} (h : step cfg s l = some s') :
    s'.subs.made = s.subs.made ∨ ∃ key depth, (l = .sub_excl key depth ∨ l = .sub_repl key depth) ∧
      s'.subs.made = s.subs.made ++ [(depth, key)] := by
  cases l with
  | in_lookup =>
    left
    simp only [step, in_lookup] at h
    split at h
    · rename_i f _ _
      have hb := made_lookup s.subs cfg.zero f
      split at h <;> (rename_i he; cases h; rw [he] at hb; exact hb)
    · cases h
  | in_full_send =>
    left
    simp only [step, in_full_send] at h
    split at h
    · rename_i f id rm _ _
      have ht := made_try_send s.subs id f
      split at h
      · rename_i sb he; cases h; rw [he] at ht; exact (made_retain _ _ _ _).trans ht
      · cases h
      · rename_i sb he; cases h; rw [he] at ht; exact (made_retain _ _ _ _).trans ht
    · cases h
  | in_full_timeout =>
    left
    simp only [step, in_full_timeout] at h
    split at h
    · cases h; exact (made_retain _ _ _ _).trans (made_note _ _)
    · cases h
  | sub_excl key depth =>
    simp only [step, subscribe_inner_exclusive] at h
    split at h
    · cases h
      repeat' split
      all_goals first
        | exact .inl rfl
        | exact .inr ⟨key, depth, .inl rfl, by simp [Subs.made, Chan.new]⟩
    · cases h
  | sub_repl key depth =>
    simp only [step, subscribe_inner] at h
    split at h
    · cases h
      repeat' split
      all_goals first
        | exact .inl rfl
        | exact .inr ⟨key, depth, .inr rfl, by simp [Subs.made, Chan.new]⟩
    · cases h
  | sub_multi key depth =>
    left
    simp only [step, subscribe_multi_inner] at h
    split at h
    · cases h
      repeat' split
      all_goals rfl
    · cases h
  | recv_excl id =>
    left
    simp only [step, sub_recv] at h
    cases h
    split
    · rfl
    · rename_i c hc
      split
      · exact made_set hc rfl ⟨rfl, rfl⟩
      · split <;> rfl
  | drop_excl id =>
    left
    simp only [step, sub_drop] at h
    cases h
    split
    · rfl
    · rename_i c hc; exact made_set hc rfl ⟨rfl, rfl⟩
  | _ =>
    left
    simp only [step, send_resp_begin, call_reg_ok, call_reg_err, call_send, call_take, publish_raw_begin, pub_send,
      out_poll, out_recv, out_done, in_poll, in_recv, in_wake, subs_purge, multi_drop, multi_recv,
      Client.set_phase, Client.drop_waits] at h
    repeat' split at h
    all_goals first
      | (cases h; done)
      | (cases h; rfl)
      | (cases h; split <;> rfl)
      | (cases h; (repeat' split) <;> rfl)

theorem joined_lookup (s : Subs) (zero : Bool) (f : RpcFrame) : (subs_lookup zero s f).2.joined = s.joined := by
  rw [subs_lookup_eq, joined_of_brxs (lookupE_bc zero f (lookupB { s with arrived := s.arrived ++ [f] } f)).2.2.1, lookupB]
  split
  · rename_i b _
    rw [bcast_send]
    split
    · simp only [Subs.joined, List.map_map]
      refine List.map_congr_left (fun y _ => ?_)
      show (if (y.alive && y.chan == b) = true then y.push (s.bchans.getD b 1) f else y).key = y.key
      split
      · unfold BRx.push; dsimp only; split <;> rfl
      · rfl
    · rfl
  · rfl

/-- Only subscribing makes a receiver. -/
theorem step_joined {cfg : Cfg} {s s' : Client} {l : Label} (h : step cfg s l = some s') :
    s'.subs.joined = s.subs.joined ∨ ∃ key depth, l = .sub_multi key depth ∧ s'.subs.joined = s.subs.joined ++ [key] := by
  cases l with
  | in_lookup =>
    left
    simp only [step, in_lookup] at h
    split at h
    · rename_i f _ _
      have hb := joined_lookup s.subs cfg.zero f
      split at h <;> (rename_i he; cases h; rw [he] at hb; exact hb)
    · cases h
  | in_full_send =>
    left
    simp only [step, in_full_send] at h
    split at h
    · rename_i f id rm _ _
      obtain ⟨c, hc⟩ := try_send_bc s.subs id f
      split at h
      · rename_i sb he
        cases h
        rw [he] at hc
        have hc' : sb.brxs = s.subs.brxs := by simp only at hc; rw [hc]
        exact joined_of_brxs ((retain_bc sb f.header.key false rm).2.2.1.trans hc')
      · cases h
      · rename_i sb he
        cases h
        rw [he] at hc
        have hc' : sb.brxs = s.subs.brxs := by simp only at hc; rw [hc]
        exact joined_of_brxs ((retain_bc sb f.header.key true rm).2.2.1.trans hc')
    · cases h
  | in_full_timeout =>
    left
    simp only [step, in_full_timeout] at h
    split at h
    · rename_i f id rm _ _
      cases h
      obtain ⟨c', hc'⟩ := note_dropped_bc s.subs id
      exact joined_of_brxs ((retain_bc (note_dropped s.subs id) f.header.key false rm).2.2.1.trans (by rw [hc']))
    · cases h
  | sub_multi key depth =>
    simp only [step, subscribe_multi_inner] at h
    split at h
    · cases h
      repeat' split
      all_goals first
        | exact .inl rfl
        | exact .inr ⟨key, depth, rfl, by simp [Subs.joined]⟩
    · cases h
  | recv_multi id =>
    left
    simp only [step, multi_recv] at h
    cases h
    split
    · rfl
    · rename_i c hc
      split
      · exact joined_set hc rfl rfl
      · split
        · exact joined_set hc rfl rfl
        · split <;> rfl
  | drop_multi id =>
    left
    simp only [step, multi_drop] at h
    cases h
    split
    · rfl
    · rename_i c hc; exact joined_set hc rfl rfl
  | _ =>
    left
    simp only [step, send_resp_begin, call_reg_ok, call_reg_err, call_send, call_take, publish_raw_begin, pub_send,
      out_poll, out_recv, out_done, in_poll, in_recv, in_wake, subs_purge, sub_drop, sub_recv, subscribe_inner,
      subscribe_inner_exclusive, Client.set_phase, Client.drop_waits] at h
    repeat' split at h
    all_goals first
      | (cases h; done)
      | (cases h; rfl)
      | (cases h; split <;> rfl)
      | (cases h; (repeat' split) <;> rfl)

/-- What the subscriptions made so far ask for, when every subscription is to a topic of `K` and of depth at most `d`. -/
structure Within (K : List Key) (d : Nat) (s : Client) : Prop where
  made : ∀ p ∈ s.subs.made, p.1 ≤ d ∧ p.2 ∈ K
  bcap : ∀ n ∈ s.subs.bchans, n < 2 * d
  joined : ∀ k ∈ s.subs.joined, k ∈ K

theorem within_run {cfg : Cfg} {K : List Key} {d : Nat} : ∀ (ls : List Label) (s s' : Client), Within K d s → Subscribed K d ls →
    run cfg ls s = some s' → Within K d s' := by
  intro ls
  induction ls with
  | nil => intro s s' hw _ h; cases h; exact hw
  | cons l ls ih =>
    intro s s' hw hK h
    rw [run] at h
    cases e : step cfg s l with
    | none => rw [e] at h; cases h
    | some t =>
      rw [e] at h
      have hl := hK l (by simp)
      refine ih t s' ⟨?_, ?_, ?_⟩ (fun x hx => hK x (by simp [hx])) h
      · rcases step_made e with hm | ⟨key, depth, hl', hm⟩
        · rw [hm]; exact hw.made
        · have hk : key ∈ K ∧ depth ≤ d := by
            rcases hl' with rfl | rfl <;> exact hl
          intro p hp
          rw [hm, List.mem_append, List.mem_singleton] at hp
          rcases hp with hp | rfl
          · exact hw.made p hp
          · exact ⟨hk.2, hk.1⟩
      · rcases step_caps e with hm | ⟨key, depth, rfl, hm, _⟩
        · rw [hm]; exact hw.bcap
        · intro n hn
          rw [hm, List.mem_append, List.mem_singleton] at hn
          rcases hn with hn | rfl
          · exact hw.bcap n hn
          · have h0 : 0 < depth := by
              rcases Nat.eq_zero_or_pos depth with h0 | h0
              · subst h0
                simp only [step, subscribe_multi_inner] at e
                split at e
                · cases e
                  have := congrArg List.length hm
                  revert this
                  repeat' split
                  all_goals simp_all
                · cases e
              · exact h0
            exact Nat.lt_of_lt_of_le (next_pow2_lt' depth h0) (Nat.mul_le_mul_left 2 hl.2)
      · rcases step_joined e with hm | ⟨key, depth, rfl, hm⟩
        · rw [hm]; exact hw.joined
        · intro k hk
          rw [hm, List.mem_append, List.mem_singleton] at hk
          rcases hk with hk | rfl
          · exact hw.joined k hk
          · exact hl.1

theorem within_new (K : List Key) (d : Nat) : Within K d Client.new :=
  ⟨(fun _ hp => nomatch hp), (fun _ hn => nomatch hn), (fun _ hk => nomatch hk)⟩

/-! ### Calls -/

/-- The positions of the calls under way. -/
def openIdx (cs : List Call) : List Nat := (List.range cs.length).filter fun i =>
  (cs[i]?).any underWay

theorem range_filter_length {α : Type} (p : α → Bool) (l : List α) :
    ((List.range l.length).filter fun i => (l[i]?).any p).length = (l.filter p).length := by
  refine snoc_induct (P := fun l => ((List.range l.length).filter fun i => (l[i]?).any p).length =
    (l.filter p).length) rfl (fun l x ih => ?_) l
  rw [List.length_append, List.length_singleton, List.range_succ, List.filter_append, List.length_append, List.filter_append,
    List.length_append, ← ih]
  congr 1
  · congr 1
    refine List.filter_congr (fun i hi => ?_)
    rw [List.getElem?_append_left (List.mem_range.mp hi)]
  · simp only [List.filter_cons, List.filter_nil, List.getElem?_concat_length, Option.any_some]
    split <;> rfl

theorem openIdx_length (s : Client) : (openIdx s.calls).length = openCalls s := by
  rw [openIdx, openCalls]
  exact range_filter_length _ _

theorem openIdx_mem {cs : List Call} {c : Nat} {cl : Call} {err : Bool} {k : VarKeyKind} (hc : cs[c]? = some cl)
    (hw : cl.phase.hasWait err = some k) : c ∈ openIdx cs := by
  rw [openIdx, List.mem_filter]
  refine ⟨List.mem_range.mpr (get_lt hc), ?_⟩
  rw [hc]
  show underWay cl = true
  unfold underWay
  revert hw
  cases cl.phase <;> cases err <;> simp [Phase.hasWait]

theorem waits_le {cfg : Cfg} {s : Client} (h : Reachable cfg s) : s.map.length + s.woken.length ≤ 2 * openCalls s := by
  have inv := reachable_coreInv h
  have hn : (s.map.map Prod.fst ++ s.woken.map Woken.id).Nodup := by
    rw [List.nodup_append]
    refine ⟨inv.mapNd, inv.wokenNd, ?_⟩
    intro a ha b hb e
    obtain ⟨x, hx, rfl⟩ := List.mem_map.mp ha
    obtain ⟨w, hw, rfl⟩ := List.mem_map.mp hb
    exact inv.disj x.1 x.2 hx w hw e.symm
  have := length_le_of_nodup _ hn ((openIdx s.calls).flatMap fun c => [⟨c, false⟩, ⟨c, true⟩]) (by
    have mk : ∀ (id : WaitId), id.call ∈ openIdx s.calls →
        id ∈ (openIdx s.calls).flatMap fun c => [(⟨c, false⟩ : WaitId), ⟨c, true⟩] := by
      intro id hid
      refine List.mem_flatMap.mpr ⟨id.call, hid, ?_⟩
      obtain ⟨c, err⟩ := id
      cases err <;> simp
    intro id hid
    rcases List.mem_append.mp hid with hid | hid
    · obtain ⟨x, hx, rfl⟩ := List.mem_map.mp hid
      obtain ⟨cl, k, hc, hw, _⟩ := inv.mapOk x.1 x.2 hx
      exact mk _ (openIdx_mem hc hw)
    · obtain ⟨w, hw, rfl⟩ := List.mem_map.mp hid
      obtain ⟨cl, k, hc, hw, _⟩ := inv.wokenOk w hw
      exact mk _ (openIdx_mem hc hw))
  rw [List.length_append, List.length_map, List.length_map] at this
  refine Nat.le_trans this ?_
  rw [← openIdx_length]
  generalize openIdx s.calls = l
  induction l with
  | nil => exact Nat.le_refl _
  | cons x l ih => simp only [List.flatMap_cons, List.length_append, List.length_cons, List.length_nil]; omega

/-! ### Entries nobody listens to -/

/-- Subscribe to each of the topics in both ways and drop the subscriptions at once. -/
def churn : Nat → List Key → List Label
  | _, [] => []
  | i, k :: K => .sub_excl k 1 :: .drop_excl i :: .sub_multi k 1 :: .drop_multi i :: churn (i + 1) K

theorem find_entry_of_not_mem {x : List (Key × Nat)} {key : Key} (h : key ∉ x.map Prod.fst) : find_entry x key = none := by
  rw [find_entry, Option.map_eq_none_iff, List.find?_eq_none]
  rintro ⟨k, i⟩ hm
  simp only [decide_eq_true_eq]
  rintro rfl
  exact h (List.mem_map.mpr ⟨_, hm, rfl⟩)

theorem churn_run (cfg : Cfg) : ∀ (K : List Key) (i : Nat) (s : Client), s.handles = true → s.in_pc = .recv → s.subs.stopped = false →
    s.subs.chans.length = i → s.subs.brxs.length = i → s.subs.chans.filter (·.rx_alive) = [] → s.subs.brxs.filter (·.alive) = [] →
    (s.subs.exclusive_list.map Prod.fst ++ K).Nodup → (s.subs.broadcast_list.map Prod.fst ++ K).Nodup →
    ∃ s', run cfg (churn i K) s = some s' ∧ s'.subs.exclusive_list.map Prod.fst = s.subs.exclusive_list.map Prod.fst ++ K ∧
      s'.subs.broadcast_list.map Prod.fst = s.subs.broadcast_list.map Prod.fst ++ K ∧
      s'.subs.chans.filter (·.rx_alive) = [] ∧ s'.subs.brxs.filter (·.alive) = [] ∧ s'.calls = s.calls ∧ s'.in_pc = .recv := by
  intro K
  induction K with
  | nil =>
    intro i s h1 h2 h3 h4 h5 h6 h7 h8 h9
    exact ⟨s, rfl, by simp, by simp, h6, h7, rfl, h2⟩
  | cons k K ih =>
    intro i s h1 h2 h3 h4 h5 h6 h7 h8 h9
    have hx : find_entry s.subs.exclusive_list k = none := find_entry_of_not_mem (fun h => by
      rw [List.nodup_append] at h8; exact h8.2.2 k h k (by simp) rfl)
    have hb : find_entry s.subs.broadcast_list k = none := find_entry_of_not_mem (fun h => by
      rw [List.nodup_append] at h9; exact h9.2.2 k h k (by simp) rfl)
    have step4 : ∃ t, run cfg [.sub_excl k 1, .drop_excl i, .sub_multi k 1, .drop_multi i] s = some t ∧
        t.handles = true ∧ t.in_pc = .recv ∧ t.subs.stopped = false ∧ t.calls = s.calls ∧
        t.subs.chans = s.subs.chans ++ [{ Chan.new k 1 s.subs.arrived.length with rx_alive := false, queue := [] }] ∧
        (∃ b, t.subs.brxs = s.subs.brxs ++ [⟨b, [], 0, false, k, s.subs.arrived.length, [], 0⟩]) ∧
        t.subs.exclusive_list = s.subs.exclusive_list ++ [(k, i)] ∧
        ∃ b, t.subs.broadcast_list = s.subs.broadcast_list ++ [(k, b)] := by
      have e1 : (subscribe_inner_exclusive s.subs k 1).2 = { s.subs with
          chans := s.subs.chans ++ [Chan.new k 1 s.subs.arrived.length]
          exclusive_list := s.subs.exclusive_list ++ [(k, i)] } := by
        simp [subscribe_inner_exclusive, h3, hx, h4]
      have e2 : ∀ u : Subs, u.chans = s.subs.chans ++ [Chan.new k 1 s.subs.arrived.length] → sub_drop u i = { u with
          chans := s.subs.chans ++ [{ Chan.new k 1 s.subs.arrived.length with rx_alive := false, queue := [] }] } := by
        intro u hu
        rw [sub_drop, hu, ← h4, List.getElem?_concat_length]
        simp [List.set_append_right]
      have e3 : ∀ u : Subs, u.stopped = false → u.brxs = s.subs.brxs → u.broadcast_list = s.subs.broadcast_list →
          u.arrived = s.subs.arrived → (subscribe_multi_inner u k 1).2 = { u with
            broadcast_list := s.subs.broadcast_list ++ [(k, u.bchans.length)]
            bchans := u.bchans ++ [next_pow2 1 1]
            brxs := s.subs.brxs ++ [⟨u.bchans.length, [], 0, true, k, s.subs.arrived.length, [], 0⟩] } := by
        intro u hu1 hu2 hu3 hu4
        simp [subscribe_multi_inner, hu1, hu2, hu3, hu4, hb]
      have e4 : ∀ (u : Subs) (b : Nat), u.brxs = s.subs.brxs ++ [⟨b, [], 0, true, k, s.subs.arrived.length, [], 0⟩] →
          multi_drop u i = { u with brxs := s.subs.brxs ++ [⟨b, [], 0, false, k, s.subs.arrived.length, [], 0⟩] } := by
        intro u b hu
        rw [multi_drop, hu, ← h5, List.getElem?_concat_length]
        simp [List.set_append_right]
      have hl : ∀ u, Client.lock_free { s with subs := u } = true := fun u => by unfold Client.lock_free; dsimp only; rw [h2]
      have s1 : ∀ u, step cfg { s with subs := u } (.sub_excl k 1) = some { s with subs := (subscribe_inner_exclusive u k 1).2 } := by
        intro u; simp only [step]; rw [if_pos ⟨h1, hl u⟩]
      have s3 : ∀ u, step cfg { s with subs := u } (.sub_multi k 1) = some { s with subs := (subscribe_multi_inner u k 1).2 } := by
        intro u; simp only [step]; rw [if_pos ⟨h1, hl u⟩]
      have hrun : run cfg [.sub_excl k 1, .drop_excl i, .sub_multi k 1, .drop_multi i] s = some { s with
          subs := multi_drop (subscribe_multi_inner (sub_drop (subscribe_inner_exclusive s.subs k 1).2 i) k 1).2 i } := by
        have s1' := s1 s.subs
        rw [show { s with subs := s.subs } = s from rfl] at s1'
        simp only [run, s1']
        rw [show step cfg { s with subs := (subscribe_inner_exclusive s.subs k 1).2 } (.drop_excl i) =
          some { s with subs := sub_drop (subscribe_inner_exclusive s.subs k 1).2 i } from rfl]
        simp only [s3]
        rfl
      rw [e1, e2 _ rfl, e3] at hrun
      · rw [e4 _ _ rfl] at hrun
        exact ⟨_, hrun, h1, h2, h3, rfl, rfl, ⟨_, rfl⟩, rfl, ⟨_, rfl⟩⟩
      · exact h3
      · rfl
      · rfl
      · rfl
    obtain ⟨t, ht, t1, t2, t3, t4, t5, ⟨b, t6⟩, t7, b', t8⟩ := step4
    obtain ⟨s', r1, r2, r3, r4, r5, r6, r7⟩ := ih (i + 1) t t1 t2 t3 (by rw [t5]; simp [h4]) (by rw [t6]; simp [h5])
      (by rw [t5, List.filter_append, h6]; rfl) (by rw [t6, List.filter_append, h7]; rfl)
      (by rw [t7]; simpa [List.append_assoc] using h8) (by rw [t8]; simpa [List.append_assoc] using h9)
    refine ⟨s', ?_, by rw [r2, t7]; simp, by rw [r3, t8]; simp, r4, r5, r6.trans t4, r7⟩
    rw [show churn i (k :: K) = [.sub_excl k 1, .drop_excl i, .sub_multi k 1, .drop_multi i] ++ churn (i + 1) K from rfl, run_append, ht]
    exact r1

end PRpc
