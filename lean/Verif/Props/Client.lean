import Verif.Lemmas.ClientRun
import Verif.Props.Dispatch
import Verif.Props.Header
/-!
Property theorems C35-C37, C42, C43 and C48: calls and publications of the host client.

`Reachable cfg s`: `s` is a state some schedule leads to from a new client.  `run cfg ls s = some s'`: the schedule `ls`
leads from `s` to `s'`.  A schedule fixes the interleaving of all tasks, all cancellations, all transport outcomes and all
received bytes, so statements about all reachable states and all runs are statements about all of them.
-/

namespace PRpc.Props

open PRpc PRpc.Spec

/-! ### The example: two calls, answered in the other order -/

/-- Keys for the examples: the last byte tells them apart, at every length. -/
def cKey (n : Byte) : Key := ⟨0, 0, 0, 0, 0, 0, 0, n⟩

def exCfg : Cfg := ⟨.Seq1, cKey 9, 8, false⟩

/-- Steps that start call `c` and hand its request over. -/
def startCall (c : Nat) (req resp : Byte) (body : Bytes) : List Label :=
  [.call_begin (cKey req) (cKey resp) body, .call_kind c, .call_reg_ok c, .call_reg_err c, .call_send c]

/-- A frame received and offered to the wait map. -/
def rxFrame (f : RpcFrame) (w : Option WaitId) : List Label :=
  [.in_poll, .in_recv (match f.to_bytes with | .ok b => some b | .panic => none), .in_lookup, .in_wake w, .in_yield]

def exRun : List Label :=
  startCall 0 1 2 [7] ++ startCall 1 3 4 [8] ++ [.out_poll, .out_recv, .out_done true, .out_recv, .out_done true, .out_yield] ++
    rxFrame ⟨⟨.Key2 ⟨0, 4⟩, .Seq4 1⟩, [80]⟩ (some ⟨1, false⟩) ++ [.call_ok 1] ++
    rxFrame ⟨⟨.Key2 ⟨0, 9⟩, .Seq4 0⟩, [70]⟩ (some ⟨0, true⟩) ++ [.call_err 0]

/-- What can be seen of a client from outside. -/
structure View where
  phases : List Phase
  kkind : VarKeyKind
  tx : List Bytes
  seen : List RpcFrame
  stopped : Bool
  deriving DecidableEq

def view (s : Client) : View := ⟨s.calls.map Call.phase, s.kkind, s.tx, s.seen, s.stopped⟩

/-- The example runs to the end, and both calls get their own answer. -/
example : (run exCfg exRun Client.new).map (fun s => (view s).phases) =
    some [.done (.ErrResp ⟨⟨.Key2 ⟨0, 9⟩, .Seq4 0⟩, [70]⟩ 1), .done (.Resp ⟨⟨.Key2 ⟨0, 4⟩, .Seq4 1⟩, [80]⟩ 0)] := by
  decide +kernel

/-! ### C35 -/

/-- The number of typed calls among calls `i`, `i+1`, ..., `j-1`. -/
def typedBetween (cs : List Call) (i j : Nat) : Nat := ((cs.drop i).take (j - i)).countP fun cl => cl.typed

theorem typedReqs_get {cs : List Call} {i : Nat} {cl : Call} (h : cs[i]? = some cl) (ht : cl.typed = true) :
    (typedReqs cs)[(cs.take i).countP fun cl => cl.typed]? = some cl.rqst := by
  induction cs generalizing i with
  | nil => cases h
  | cons x cs ih =>
    cases i with
    | zero =>
      simp only [List.getElem?_cons_zero, Option.some.injEq] at h
      subst h
      simp [typedReqs, Call.sig, ht]
    | succ i =>
      have ih := ih (List.getElem?_cons_succ ▸ h)
      simp only [typedReqs, List.map_cons, List.take_succ_cons, List.countP_cons] at ih ⊢
      cases hx : x.typed with
      | true => simpa [Call.sig, hx] using ih
      | false => simpa [Call.sig, hx] using ih

/-- C35: two typed calls `i < j` of a client (counting the calls of all its clones) with fewer than `2^32 - 1` typed calls
in between carry different sequence numbers, whatever the interleaving. -/
theorem c35_sequence_numbers_unique {cfg : Cfg} {s : Client} (hr : Reachable cfg s) {i j : Nat} {a b : Call} (hij : i < j)
    (ha : s.calls[i]? = some a) (hb : s.calls[j]? = some b) (hta : a.typed = true) (htb : b.typed = true)
    (hd : typedBetween s.calls i j < 2 ^ 32) : seqVal a.rqst.header.seq_no ≠ seqVal b.rqst.header.seq_no := by
  obtain ⟨_, hs⟩ := reachable_seq hr
  have e1 := hs _ _ (typedReqs_get ha hta)
  have e2 := hs _ _ (typedReqs_get hb htb)
  have split : (s.calls.take j).countP (fun cl => cl.typed) =
      (s.calls.take i).countP (fun cl => cl.typed) + typedBetween s.calls i j := by
    rw [typedBetween, ← List.countP_append]
    congr 1
    have := List.take_add (i := i) (j := j - i) (l := s.calls)
    rw [show i + (j - i) = j by omega] at this
    exact this
  have pos : 0 < typedBetween s.calls i j := by
    rw [typedBetween, List.countP_pos_iff]
    refine ⟨a, ?_, hta⟩
    rw [List.mem_iff_getElem?]
    refine ⟨0, ?_⟩
    rw [List.getElem?_take, if_pos (by omega), List.getElem?_drop]
    exact ha
  rw [e1, e2]
  simp only [seqVal, BitVec.toNat_ofNat]
  generalize (s.calls.take i).countP (fun cl => cl.typed) = p at *
  omega

/-- C35 (every call gets a number): a typed call always carries a 4-byte number. -/
theorem c35_typed_calls_have_seq4 {cfg : Cfg} {s : Client} (hr : Reachable cfg s) {i : Nat} {a : Call}
    (ha : s.calls[i]? = some a) (hta : a.typed = true) : seqWidth a.rqst.header.seq_no = 4 := by
  rw [(reachable_seq hr).2 _ _ (typedReqs_get ha hta)]
  rfl

example : (run exCfg exRun Client.new).map (fun s => (s.calls.map fun c => seqVal c.rqst.header.seq_no,
    typedBetween s.calls 0 1)) = some ([0, 1], 1) := by decide +kernel

/-! ### C36 -/

/-- C36: a call that ended with a frame got a frame offered to waiting calls after the call read the client's key length
(which is before it registered), carrying the call's sequence number and its response key, or for an error result the
error key, looked at through the key length the call read. -/
theorem c36_completed_by_own_response {cfg : Cfg} {s s1 s2 : Client} {ls : List Label} {c : Nat} {cl : Call} {err : Bool}
    {f : RpcFrame} {i : Nat} (hr : Reachable cfg s) (h1 : step cfg s (.call_kind c) = some s1)
    (h2 : run cfg ls s1 = some s2) (hc : s2.calls[c]? = some cl) (hd : result cl = some (err, f, i)) :
    s2.seen[i]? = some f ∧ s.seen.length ≤ i ∧
      Answers (keyLen s.kkind) (wantKey cfg cl err) cl.rqst.header f.header := by
  obtain ⟨cl0, hc0, t, _⟩ := call_kind_track h1
  obtain ⟨⟨cl', hc', e1, e2, e3⟩, _⟩ := run_track (reachable_step hr h1) h2 t
  have hcl : cl' = cl := Option.some.inj (hc'.symm.trans hc)
  subst hcl
  rw [result] at hd
  split at hd
  · rename_i g j hp
    cases hd
    rw [hp] at e3
    exact ⟨e3.2.1, e3.1, (waitHdr_answers cfg cl' s.kkind false f.header).mp e3.2.2⟩
  · rename_i g j hp
    cases hd
    rw [hp] at e3
    exact ⟨e3.2.1, e3.1, (waitHdr_answers cfg cl' s.kkind true f.header).mp e3.2.2⟩
  · cases hd

/-- C36 (for every completed call, whenever it started): as above, with some key length. -/
theorem c36_completed_by_matching_frame {cfg : Cfg} {s : Client} {c : Nat} {cl : Call} {err : Bool} {f : RpcFrame} {i : Nat}
    (hr : Reachable cfg s) (hc : s.calls[c]? = some cl) (hd : result cl = some (err, f, i)) :
    s.seen[i]? = some f ∧ cl.reg_at ≤ i ∧
      ∃ k : VarKeyKind, Answers (keyLen k) (wantKey cfg cl err) cl.rqst.header f.header := by
  obtain ⟨h1, h2, k, h3⟩ := (reachable_coreInv hr).doneOk c cl err f i hc (result_eq cl ▸ hd)
  exact ⟨h1, h2, k, (waitHdr_answers cfg cl k err f.header).mp h3⟩

/-- C36: each received frame completes at most one call. -/
theorem c36_one_call_per_frame {cfg : Cfg} {s : Client} {c c' : Nat} {a b : Call} {e e' : Bool} {f f' : RpcFrame} {i : Nat}
    (hr : Reachable cfg s) (ha : s.calls[c]? = some a) (hb : s.calls[c']? = some b) (da : result a = some (e, f, i))
    (db : result b = some (e', f', i)) : c = c' :=
  (reachable_coreInv hr).idxD c a c' b e e' f f' i ha (result_eq a ▸ da) hb (result_eq b ▸ db)

/-- C36: a call completes at most once; its result never changes. -/
theorem c36_completes_once {cfg : Cfg} {ls : List Label} {s s' : Client} {c : Nat} {cl : Call} {r : CallRes}
    (h : run cfg ls s = some s') (hc : s.calls[c]? = some cl) (hp : cl.phase = .done r) : s'.calls[c]? = some cl :=
  run_final h hc hp

/-- Call `0` of the example: its answer is the second frame offered. -/
example : ∃ s s1 s2 cl f, Reachable exCfg s ∧ step exCfg s (.call_kind 0) = some s1 ∧
    run exCfg (exRun.drop 2) s1 = some s2 ∧ s2.calls[0]? = some cl ∧ result cl = some (true, f, 1) := by
  have h1 : (run exCfg (exRun.drop 2) ((step exCfg ((run exCfg (exRun.take 1) Client.new).getD Client.new)
      (.call_kind 0)).getD Client.new)).map (fun s => s.calls[0]?.map result) =
      some (some (some (true, ⟨⟨.Key2 ⟨0, 9⟩, .Seq4 0⟩, [70]⟩, 1))) := by decide +kernel
  obtain ⟨s2, e1, e2⟩ := Option.map_eq_some_iff.mp h1
  obtain ⟨cl, e3, e4⟩ := Option.map_eq_some_iff.mp e2
  exact ⟨_, _, s2, cl, _, ⟨exRun.take 1, rfl⟩, rfl, e1, e3, e4⟩

/-! ### C37 -/

/-- The receive worker holds frame `f`, which no subscription claimed, and is about to look for the waiting call. -/
def Offering (s : Client) (f : RpcFrame) : Prop := s.in_pc = .wake f ∧ s.in_polled = true

/-- Call `c` has been handed a frame and can return it at its next poll. -/
def Handed (cfg : Cfg) (s : Client) (c : Nat) (f : RpcFrame) (err : Bool) : Prop :=
  (∃ i, ⟨⟨c, err⟩, f, i⟩ ∈ s.woken) ∧
    ∃ s', step cfg s (if err then .call_err c else .call_ok c) = some s' ∧
      ∃ cl i, s'.calls[c]? = some cl ∧ result cl = some (err, f, i)

theorem handed_of_mem {cfg : Cfg} {s : Client} (hr : Reachable cfg s) {c : Nat} {cl : Call} {k : VarKeyKind} {v : Woken}
    (hc : s.calls[c]? = some cl) (hp : cl.phase = .waiting k) (hv : v ∈ s.woken) (hid : v.id.call = c) :
    Handed cfg s c v.frame v.id.err := by
  obtain ⟨⟨vc, verr⟩, vf, vi⟩ := v
  simp only at hid
  subst hid
  refine ⟨⟨vi, hv⟩, ?_⟩
  have hf : ∃ v', s.woken.find? (fun w => w.id = ⟨vc, verr⟩) = some v' := by
    cases e : s.woken.find? (fun w => w.id = ⟨vc, verr⟩) with
    | some v' => exact ⟨v', rfl⟩
    | none => rw [List.find?_eq_none] at e; exact absurd (e _ hv) (by simp)
  obtain ⟨v', hv'⟩ := hf
  have h1 := List.mem_of_find?_eq_some hv'
  have h2 : v'.id = ⟨vc, verr⟩ := by simpa using List.find?_some hv'
  have h3 : v' = ⟨⟨vc, verr⟩, vf, vi⟩ := inj_of_nodup_map (reachable_coreInv hr).wokenNd h1 hv h2
  subst h3
  cases verr with
  | false =>
    change ∃ s', step cfg s (.call_ok vc) = some s' ∧ _
    refine ⟨_, by simp only [step, hc, hp, call_take, hv']; rfl, ?_⟩
    exact ⟨_, vi, (set_get hc _ _).trans (if_pos rfl), rfl⟩
  | true =>
    change ∃ s', step cfg s (.call_err vc) = some s' ∧ _
    refine ⟨_, by simp only [step, hc, hp, call_take, hv']; rfl, ?_⟩
    exact ⟨_, vi, (set_get hc _ _).trans (if_pos rfl), rfl⟩

/-- C37 (a frame no subscription claims reaches the wait map). -/
theorem c37_unclaimed_frame_offered {cfg : Cfg} {s s' : Client} {f : RpcFrame} (h : step cfg s .in_lookup = some s')
    (hp : s.in_pc = .lookup f) (hx : ∀ e ∈ s.subs.exclusive_list, ¬ OfTopic e.1 f)
    (hb : ∀ e ∈ s.subs.broadcast_list, ¬ OfTopic e.1 f) : Offering s' f := by
  have fx : ∀ (l : List (Key × Nat)), (∀ e ∈ l, ¬ OfTopic e.1 f) → (l.find? fun e => key_match e.1 f.header.key) = none := by
    intro l hl
    rw [List.find?_eq_none]
    intro e he
    rw [match_topic]
    simpa using hl e he
  simp only [step, in_lookup, hp] at h
  split at h
  · rename_i g hg hpol
    cases hg
    simp only [subs_lookup, fx _ hx, fx _ hb] at h
    cases h
    exact ⟨rfl, hpol⟩
  · cases h

/-- C37 (one step): a call whose request was handed over is waiting when a frame that answers it is offered, unless it
already holds an answer: the frame is not dropped, and when no other unfinished call uses the same sequence number it is
this call that gets it. -/
theorem c37_response_reaches_its_call {cfg : Cfg} {s s' : Client} {c : Nat} {cl : Call} {k : VarKeyKind} {f : RpcFrame}
    {err : Bool} {w : Option WaitId} (hr : Reachable cfg s) (hc : s.calls[c]? = some cl) (hp : cl.phase = .waiting k)
    (ho : Offering s f) (ha : Answers (keyLen k) (wantKey cfg cl err) cl.rqst.header f.header)
    (hu : ∀ (c' : Nat) cl', c' ≠ c → s.calls[c']? = some cl' → Unfinished cl' →
      seqVal cl'.rqst.header.seq_no ≠ seqVal cl.rqst.header.seq_no)
    (h : step cfg s (.in_wake w) = some s') :
    s'.calls[c]? = some cl ∧ ∃ g err', Handed cfg s' c g err' ∧
      ((∀ g' e', ¬ Handed cfg s c g' e') → g = f ∧ Answers (keyLen k) (wantKey cfg cl err') cl.rqst.header f.header) := by
  have inv := reachable_coreInv hr
  have hcalls : s'.calls = s.calls := by
    simp only [step, in_wake] at h
    repeat' split at h
    all_goals first | (cases h; done) | (cases h; rfl)
  have hc' : s'.calls[c]? = some cl := by rw [hcalls]; exact hc
  refine ⟨hc', ?_⟩
  have hr' := reachable_step hr h
  have hmatch : (waitHdr cfg cl k err).eq f.header = true := (waitHdr_answers cfg cl k err f.header).mpr ha
  by_cases hv : ∃ v ∈ s.woken, v.id.call = c
  · obtain ⟨v, hv, hid⟩ := hv
    refine ⟨v.frame, v.id.err, ?_, fun hn => absurd (handed_of_mem hr hc hp hv hid) (hn _ _)⟩
    refine handed_of_mem hr' hc' hp ?_ hid
    simp only [step, in_wake] at h
    repeat' split at h
    all_goals first | (cases h; done) | (cases h; exact hv) | (cases h; exact List.mem_append.mpr (.inl hv))
  · have hmap : ∃ hd, (⟨c, err⟩, hd) ∈ s.map := by
      rcases inv.here c cl err k hc (by rw [hp]; rfl) with h | ⟨v, hv1, hv2⟩
      · exact h
      · exact absurd ⟨v, hv1, by rw [hv2]⟩ hv
    obtain ⟨hd, hmem⟩ := hmap
    have hhd : hd = waitHdr cfg cl k err := by
      obtain ⟨cl2, k2, g1, g2, g3, _⟩ := inv.mapOk _ _ hmem
      have e1 : cl2 = cl := Option.some.inj (g1.symm.trans hc)
      subst e1
      rw [hp] at g2
      have e2 : k2 = k := by cases err <;> exact (Option.some.inj g2).symm
      rw [g3, e2]
    simp only [step, in_wake, ho.1, ho.2] at h
    split at h
    · rename_i id
      split at h
      · rename_i hany
        cases h
        obtain ⟨⟨id', hd'⟩, hm', hx⟩ := List.any_eq_true.mp hany
        simp only [Bool.and_eq_true, decide_eq_true_eq] at hx
        obtain ⟨rfl, hx⟩ := hx
        obtain ⟨cl2, k2, g1, g2, g3, _⟩ := inv.mapOk _ _ hm'
        have hid : id'.call = c := by
          by_cases e : id'.call = c
          · exact e
          · refine absurd ?_ (hu id'.call cl2 e g1 ⟨?_, ?_⟩)
            · rw [g3] at hx
              exact ((waitHdr_answers cfg cl2 k2 id'.err f.header).mp hx).seq.symm.trans ha.seq
            · intro r hr; rw [hr] at g2; cases g2
            · intro hr; rw [hr] at g2; cases g2
        refine ⟨f, id'.err, ?_, fun _ => ⟨rfl, ?_⟩⟩
        · exact handed_of_mem hr' hc' hp (v := ⟨id', f, s.seen.length⟩) (List.mem_append.mpr (.inr (List.mem_singleton.mpr rfl))) hid
        · rw [hid] at g1
          have e1 : cl2 = cl := Option.some.inj (g1.symm.trans hc)
          subst e1
          rw [hp] at g2
          have e2 : k2 = k := by cases hq : id'.err <;> rw [hq] at g2 <;> exact (Option.some.inj g2).symm
          rw [g3, e2] at hx
          exact (waitHdr_answers cfg cl2 k id'.err f.header).mp hx
      · cases h
    · split at h
      · cases h
      · rename_i hany
        exact absurd (List.any_eq_true.mpr ⟨_, hmem, by rw [hhd]; exact hmatch⟩) hany

/-- C37: a call read the client's key length and later handed its request over; when afterwards a frame answering it is
offered (no subscription claimed it), the call has returned or was dropped, or it holds an answer and returns it at its
next poll.  If it held none before, it is this frame. -/
theorem c37_no_lost_response {cfg : Cfg} {s s1 s2 s3 : Client} {ls : List Label} {c : Nat} {cl : Call} {f : RpcFrame} {err : Bool}
    {w : Option WaitId} (hr : Reachable cfg s) (h1 : step cfg s (.call_kind c) = some s1) (h2 : run cfg ls s1 = some s2)
    (hsent : Label.call_send c ∈ ls) (hc : s2.calls[c]? = some cl) (ho : Offering s2 f)
    (ha : Answers (keyLen s.kkind) (wantKey cfg cl err) cl.rqst.header f.header)
    (hu : ∀ (c' : Nat) cl', c' ≠ c → s2.calls[c']? = some cl' → Unfinished cl' →
      seqVal cl'.rqst.header.seq_no ≠ seqVal cl.rqst.header.seq_no)
    (h : step cfg s2 (.in_wake w) = some s3) :
    ¬ Unfinished cl ∨ ∃ g err', Handed cfg s3 c g err' ∧
      ((∀ g' e', ¬ Handed cfg s2 c g' e') →
        g = f ∧ Answers (keyLen s.kkind) (wantKey cfg cl err') cl.rqst.header f.header) := by
  obtain ⟨cl', hc', hp⟩ := run_sent h2 hsent
  have e : cl' = cl := Option.some.inj (hc'.symm.trans hc)
  subst e
  obtain ⟨cl0, _, t, _⟩ := call_kind_track h1
  obtain ⟨⟨cl2, hc2, _, _, e3⟩, _⟩ := run_track (reachable_step hr h1) h2 t
  have e : cl2 = cl' := Option.some.inj (hc2.symm.trans hc)
  subst e
  have hr2 := run_reachable (reachable_step hr h1) h2
  cases hph : cl2.phase with
  | waiting k =>
    rw [hph] at e3
    have hk : k = s.kkind := e3.1
    subst hk
    exact .inr (c37_response_reaches_its_call hr2 hc hph ho ha hu h).2
  | done r => exact .inl fun hun => hun.1 r hph
  | dropped => exact .inl fun hun => hun.2 hph
  | _ => rw [hph] at hp; exact hp.elim

/-- C37 (the condition on sequence numbers): it holds when all calls are typed and there were fewer than `2^32`. -/
theorem c37_sequence_condition {cfg : Cfg} {s : Client} (hr : Reachable cfg s) (ht : ∀ cl ∈ s.calls, cl.typed = true)
    (hn : s.calls.length < 2 ^ 32) {c : Nat} {cl : Call} (hc : s.calls[c]? = some cl) (c' : Nat) (cl' : Call) (hne : c' ≠ c)
    (hc' : s.calls[c']? = some cl') : seqVal cl'.rqst.header.seq_no ≠ seqVal cl.rqst.header.seq_no := by
  have bound : ∀ i j, typedBetween s.calls i j < 2 ^ 32 := by
    intro i j
    refine Nat.lt_of_le_of_lt (Nat.le_trans List.countP_le_length ?_) hn
    rw [List.length_take, List.length_drop]; omega
  have mem : ∀ {i : Nat} {x : Call}, s.calls[i]? = some x → x.typed = true := fun h =>
    ht _ (List.mem_iff_getElem?.mpr ⟨_, h⟩)
  rcases Nat.lt_or_gt_of_ne hne with h | h
  · exact c35_sequence_numbers_unique hr h hc' hc (mem hc') (mem hc) (bound _ _)
  · exact (c35_sequence_numbers_unique hr h hc hc' (mem hc) (mem hc') (bound _ _)).symm

/-- C37 (an answer handed over is kept): until the call returns or is dropped it holds on to the answer. -/
theorem c37_answer_is_kept {cfg : Cfg} {ls : List Label} {s s' : Client} {c : Nat} {cl : Call} {f : RpcFrame} {err : Bool}
    (hr : Reachable cfg s) (hh : Handed cfg s c f err) (h : run cfg ls s = some s') (hc : s'.calls[c]? = some cl)
    (hun : Unfinished cl) : Handed cfg s' c f err := by
  obtain ⟨⟨i, hv⟩, s1, hs, _⟩ := hh
  have hstart : ∃ cl, s.calls[c]? = some cl ∧ cl.phase.past := by
    have : ∃ (cl0 : Call) (k : VarKeyKind), s.calls[c]? = some cl0 ∧ cl0.phase = .waiting k := by
      cases err
      · change step cfg s (.call_ok c) = _ at hs
        simp only [step] at hs
        split at hs
        · rename_i cl0 hc0
          split at hs
          · rename_i k hk; exact ⟨cl0, k, hc0, hk⟩
          · cases hs
        · cases hs
      · change step cfg s (.call_err c) = _ at hs
        simp only [step] at hs
        split at hs
        · rename_i cl0 hc0
          split at hs
          · rename_i k hk; exact ⟨cl0, k, hc0, hk⟩
          · cases hs
        · cases hs
    obtain ⟨cl0, k, h0, h1⟩ := this
    exact ⟨cl0, h0, by rw [h1]; trivial⟩
  have key := run_induct (fun s => Reachable cfg s ∧ (∃ cl, s.calls[c]? = some cl ∧ cl.phase.past) ∧
      (⟨⟨c, err⟩, f, i⟩ ∈ s.woken ∨ ∃ cl, s.calls[c]? = some cl ∧ cl.phase.isOver))
    (fun a l b ⟨h1, h2, h3⟩ hst => by
      refine ⟨reachable_step h1 hst, past_step (step_core hst) h2, ?_⟩
      rcases h3 with h3 | h3
      · rcases woken_step (step_core hst) (reachable_coreInv h1) h3 with h4 | ⟨cl, h4, h5⟩
        · exact .inl h4
        · exact .inr ⟨cl, h4, (isOver_iff _).mpr h5⟩
      · exact .inr (over_step (step_core hst) h3)) ls s s' ⟨hr, hstart, .inl hv⟩ h
  obtain ⟨hr', ⟨cl2, q1, q2⟩, q3⟩ := key
  have e : cl2 = cl := Option.some.inj (q1.symm.trans hc)
  subst e
  rcases q3 with q3 | ⟨cl3, q3, q4⟩
  · cases hph : cl2.phase with
    | waiting k => exact handed_of_mem hr' hc hph q3 rfl
    | done r => exact absurd hph (hun.1 r)
    | dropped => exact absurd hph hun.2
    | _ => rw [hph] at q2; exact q2.elim
  · have e : cl3 = cl2 := Option.some.inj (q3.symm.trans hc)
    subst e
    rcases (isOver_iff _).mp q4 with ⟨r, q4⟩ | q4
    · exact absurd q4 (hun.1 r)
    · exact absurd q4 hun.2

/-- In the example the reply to call `1` is offered while both calls wait; it goes to call `1`. -/
example : ∃ s s1 s2 s3 cl f, Reachable exCfg s ∧ step exCfg s (.call_kind 1) = some s1 ∧
    run exCfg ((exRun.drop 7).take 12) s1 = some s2 ∧ Label.call_send 1 ∈ (exRun.drop 7).take 12 ∧ s2.calls[1]? = some cl ∧
    Offering s2 f ∧ Answers (keyLen s.kkind) (wantKey exCfg cl false) cl.rqst.header f.header ∧ Unfinished cl ∧
    step exCfg s2 (.in_wake (some ⟨1, false⟩)) = some s3 ∧ s2.calls.map Call.phase = [.waiting .Key8, .waiting .Key8] := by
  have h1 : (run exCfg ((exRun.drop 7).take 12) ((step exCfg ((run exCfg (exRun.take 6) Client.new).getD Client.new)
      (.call_kind 1)).getD Client.new)).map (fun s => (s.calls[1]?, s.calls.map Call.phase, s.in_pc, s.in_polled,
        (step exCfg s (.in_wake (some ⟨1, false⟩))).isSome)) =
      some (some ⟨⟨⟨.Key8 (cKey 3), .Seq4 1⟩, [8]⟩, cKey 4, true, .waiting .Key8, 0⟩, [.waiting .Key8, .waiting .Key8],
        .wake ⟨⟨.Key2 ⟨0, 4⟩, .Seq4 1⟩, [80]⟩, true, true) := by decide +kernel
  obtain ⟨s2, e1, e2⟩ := Option.map_eq_some_iff.mp h1
  simp only [Prod.mk.injEq] at e2
  obtain ⟨e2, e3, e4, e5, e6⟩ := e2
  obtain ⟨s3, e6⟩ := Option.isSome_iff_exists.mp e6
  refine ⟨_, _, s2, s3, _, _, ⟨exRun.take 6, rfl⟩, rfl, e1, by decide, e2, ⟨e4, e5⟩, ⟨by decide +kernel, by decide +kernel⟩,
    ⟨by simp, by simp⟩, e6, e3⟩

/-! ### C42 -/

/-- C42 (requests): the frame a call puts into the outgoing queue is its request with the key shortened to the length the
client had learned when the call read it, otherwise unchanged. -/
theorem c42_request_key {cfg : Cfg} {s s1 s2 s3 : Client} {ls : List Label} {c : Nat} {cl : Call}
    (h1 : step cfg s (.call_kind c) = some s1) (h2 : run cfg ls s1 = some s2) (h3 : step cfg s2 (.call_send c) = some s3)
    (hc : s2.calls[c]? = some cl) :
    s3.enq = s2.enq ∨ ∃ f, s3.enq = s2.enq ++ [f] ∧ Shortened (keyLen s.kkind) cl.rqst f := by
  rcases step_enq h3 with h | ⟨c', cl', k, e1, e2, e3, _, e4⟩ | ⟨p, pb, e1, _⟩
  · exact .inl h
  · cases e1
    have e : cl' = cl := Option.some.inj (e2.symm.trans hc)
    subst e
    simp only [step] at h1
    split at h1
    · rename_i cl0 hc0
      split at h1
      · cases h1
        obtain ⟨cl2, g1, g2, g3⟩ := run_kind_kept (k := s.kkind) h2 (c := c) ((set_get hc0 _ _).trans (if_pos rfl)) rfl
        have e : cl2 = cl' := Option.some.inj (g1.symm.trans hc)
        subst e
        rcases g3 with g3 | ⟨r, g3⟩ | g3
        · rw [e3] at g3
          have : k = s.kkind := Option.some.inj g3
          subst this
          exact .inr ⟨_, e4, shrink_shortened _ _⟩
        · rw [e3] at g3; cases g3
        · rw [e3] at g3; cases g3
      · cases h1
    · cases h1
  · cases e1

/-- C42 (publications): likewise, with the length learned when the publication was made. -/
theorem c42_publication_key {cfg : Cfg} {s s1 s2 s3 : Client} {ls : List Label} {f : RpcFrame}
    (h1 : step cfg s (.pub_begin f) = some s1) (h2 : run cfg ls s1 = some s2)
    (h3 : step cfg s2 (.pub_send s.pubs.length) = some s3) :
    s3.enq = s2.enq ∨ ∃ g, s3.enq = s2.enq ++ [g] ∧ Shortened (keyLen s.kkind) f g := by
  rcases step_enq h3 with h | ⟨c', cl', k, e1, _⟩ | ⟨p, pb, e1, e2, _, _, e4⟩
  · exact .inl h
  · cases e1
  · cases e1
    simp only [step] at h1
    split at h1
    · cases h1
      obtain ⟨pb', g1, g2, _⟩ := run_pub_kept h2 (p := s.pubs.length) (pb := ⟨f, f.shrink s.kkind, none⟩)
        (by simp [publish_raw_begin])
      have e : pb' = pb := Option.some.inj (g1.symm.trans e2)
      subst e
      rw [g2] at e4
      exact .inr ⟨_, e4, shrink_shortened _ _⟩
    · cases h1

/-- C42 (nothing else is sent): only these two steps put a frame into the outgoing queue. -/
theorem c42_only_these {cfg : Cfg} {s s' : Client} {l : Label} (h : step cfg s l = some s') (hne : s'.enq ≠ s.enq) :
    (∃ c, l = .call_send c) ∨ ∃ p, l = .pub_send p := by
  rcases step_enq h with h | ⟨c, _, _, e, _⟩ | ⟨p, _, e, _⟩
  · exact absurd h hne
  · exact .inl ⟨c, e⟩
  · exact .inr ⟨p, e⟩

/-- C42 (typed requests): the request of a typed call starts with the full 8-byte request key. -/
theorem c42_typed_request_full_key {cfg : Cfg} {s s' : Client} {req resp : Key} {body : Bytes}
    (h : step cfg s (.call_begin req resp body) = some s') :
    ∃ cl, s'.calls[s.calls.length]? = some cl ∧ cl.rqst.header.key = .Key8 req ∧ cl.rqst.body = body ∧ cl.resp_key = resp := by
  simp only [step] at h
  split at h
  · cases h
    exact ⟨_, List.getElem?_concat_length, rfl, rfl, rfl⟩
  · cases h

/-- C42, the part "the length learned from the most recent response": after a call returns a response the client uses the
key length of that response. -/
def c42_statement : Prop :=
  ∀ (cfg : Cfg) (s s' : Client) (c : Nat) (cl : Call) (l : Label) (err : Bool) (f : RpcFrame) (i : Nat), Reachable cfg s →
    (l = .call_ok c ∨ l = .call_err c) → step cfg s l = some s' → s'.calls[c]? = some cl → result cl = some (err, f, i) →
    keyLen s'.kkind = (keyBytes f.header.key).length

/-- Two calls are made while the client still uses 8 bytes; the second is answered with a 2-byte key, then the first with
an 8-byte one. -/
def exLate : List Label :=
  startCall 0 1 2 [7] ++ startCall 1 3 4 [8] ++
    rxFrame ⟨⟨.Key2 ⟨0, 4⟩, .Seq4 1⟩, [80]⟩ (some ⟨1, false⟩) ++ [.call_ok 1] ++
    rxFrame ⟨⟨.Key8 (cKey 2), .Seq4 0⟩, [70]⟩ (some ⟨0, false⟩)

/-- C42 is false as stated: a response whose key length is the one its own call was sent with does not count as news,
even when the client has learned another length since. -/
theorem c42_adapts_key_length_false : ¬ c42_statement := by
  intro h
  have h1 : (run exCfg exLate Client.new).map (fun s => (step exCfg s (.call_ok 0)).map fun s' =>
      (s'.calls[0]?, s'.kkind)) = some (some (some ⟨⟨⟨.Key8 (cKey 1), .Seq4 0⟩, [7]⟩, cKey 2, true,
        .done (.Resp ⟨⟨.Key8 (cKey 2), .Seq4 0⟩, [70]⟩ 1), 0⟩, .Key2)) := by decide +kernel
  obtain ⟨s, e1, e2⟩ := Option.map_eq_some_iff.mp h1
  obtain ⟨s', e3, e4⟩ := Option.map_eq_some_iff.mp e2
  simp only [Prod.mk.injEq] at e4
  have := h exCfg s s' 0 _ (.call_ok 0) false _ 1 ⟨_, e1⟩ (.inl rfl) e3 e4.1 rfl
  rw [e4.2] at this
  revert this; decide

/-- C42: after a call returns a response whose key has another length than the call was sent with, the client uses that
length; otherwise the client keeps the length it had.  Missing for the full statement: responses that arrive at the
length their call was sent with while the client has switched to another. -/
theorem c42_adapts_key_length_partial {cfg : Cfg} {s s' : Client} {c : Nat} {cl : Call} {k : VarKeyKind} {l : Label} {err : Bool}
    {f : RpcFrame} {i : Nat} (hl : l = .call_ok c ∨ l = .call_err c) (h : step cfg s l = some s')
    (hc : s'.calls[c]? = some cl) (hd : result cl = some (err, f, i))
    (hp : (s.calls[c]?).map Call.phase = some (.waiting k)) :
    keyLen s'.kkind = if (keyBytes f.header.key).length = keyLen k then keyLen s.kkind else (keyBytes f.header.key).length := by
  obtain ⟨cl0, hc0, hp⟩ := Option.map_eq_some_iff.mp hp
  have key : ∀ e, call_take s c cl0 k e = some s' → keyLen s'.kkind =
      if (keyBytes f.header.key).length = keyLen k then keyLen s.kkind else (keyBytes f.header.key).length := by
    intro e h
    rw [call_take] at h
    split at h
    · cases h
    · rename_i v hv
      cases h
      have hcl : cl = { cl0 with phase := .done (if e = true then .ErrResp v.frame v.idx else .Resp v.frame v.idx) } :=
        (Option.some.inj (((set_get hc0 _ _).trans (if_pos rfl)).symm.trans hc)).symm
      have hf : f = v.frame := by
        rw [hcl, result] at hd
        cases e <;> simp at hd <;> exact hd.2.1.symm
      subst hf
      change keyLen (learn s.kkind k v.frame.header) = _
      rw [learn, ← kind_len]
      by_cases hk : v.frame.header.key.kind = k
      · rw [if_neg (fun h => h hk), if_pos (by rw [hk])]
      · rw [if_pos hk, if_neg (fun h => hk (keyLen_inj h))]
  rcases hl with rfl | rfl
  · simp only [step, hc0, hp] at h; exact key _ h
  · simp only [step, hc0, hp] at h; exact key _ h

/-- C42 (the case of a server with one key length): if every response that completed a call has a key of the same length,
the client uses that length once some call has completed, and 8 bytes before. -/
theorem c42_length_of_the_server {cfg : Cfg} {s : Client} (hr : Reachable cfg s) (n : VarKeyKind)
    (hn : ∀ (c : Nat) cl err f i, s.calls[c]? = some cl → result cl = some (err, f, i) → (keyBytes f.header.key).length = keyLen n) :
    ((∃ (c : Nat) (cl : Call) (x : _), s.calls[c]? = some cl ∧ result cl = some x) → keyLen s.kkind = keyLen n) ∧
    ((¬ ∃ (c : Nat) (cl : Call) (x : _), s.calls[c]? = some cl ∧ result cl = some x) → keyLen s.kkind = 8) := by
  have inv := reachable_kindInv (n := n) hr (fun c cl err f i h1 h2 =>
    keyLen_inj (by rw [kind_len]; exact hn c cl err f i h1 (result_eq cl ▸ h2)))
  have e : AnyDone s ↔ ∃ (c : Nat) (cl : Call) (x : _), s.calls[c]? = some cl ∧ result cl = some x := by
    simp only [AnyDone, result_eq]
  exact ⟨fun h => by rw [inv.done (e.mpr h)], fun h => by rw [inv.init (fun hd => h (e.mp hd))]; rfl⟩

/-- C42 (where the length comes from): it is 8 bytes or the length of the key on a response some call has returned. -/
theorem c42_length_was_learned {cfg : Cfg} {s : Client} (hr : Reachable cfg s) :
    keyLen s.kkind = 8 ∨ ∃ (c : Nat) (cl : Call) (err : Bool) (f : RpcFrame) (i : Nat),
      s.calls[c]? = some cl ∧ result cl = some (err, f, i) ∧ (keyBytes f.header.key).length = keyLen s.kkind := by
  rcases reachable_kkind_learned hr with h | ⟨c, cl, err, f, i, h1, h2, h3⟩
  · exact .inl (by rw [h]; rfl)
  · exact .inr ⟨c, cl, err, f, i, h1, result_eq cl ▸ h2, by rw [← kind_len, h3]⟩

/-- C42 (routing): the server was generated by the dispatcher macro from an application with the standard endpoints, and
the length the client learned is not shorter than the server's.  Then a request with the key of an endpoint's first row,
shortened to that length, is for that row. -/
theorem c42_request_is_routed {V E SC Ctx : Type} (a : App V E SC Ctx) (D : Dispatcher V E SC Ctx)
    (hD : define_dispatch a = .ok D) (hping : a.std.ping_req ∈ a.endpoint_list.endpoints.map (·.req))
    (hschemas : a.std.schemas_req ∈ a.endpoint_list.endpoints.map (·.req))
    (pre post : List (EpHandler V Ctx)) (h : EpHandler V Ctx) (htab : a.eps = pre ++ h :: post)
    (hfirst : ∀ g ∈ pre, g.req ≠ h.req) (hne : h.req ≠ a.std.ping_req ∧ h.req ≠ a.std.schemas_req)
    (m : VarKeyKind) (hm : keyLen D.n ≤ keyLen m) (rqst f : RpcFrame) (hk : rqst.header.key = .Key8 h.req)
    (hf : Shortened (keyLen m) rqst f) : ForEndpoint D f.header h := by
  refine (c11_request_routing_partial a D hD hping hschemas pre post h htab hfirst hne m f.header hm ?_).1
  rw [hf.key, hk, short_eq]
  congr 1
  have := keyLen_le m
  simp only [keyBytes, List.length_cons, List.length_nil]
  omega

/-- In `exRun` both requests go out with 8-byte keys, and the client then uses 2-byte keys. -/
example : (run exCfg exRun Client.new).map (fun s => (s.enq.map fun f => (keyBytes f.header.key).length, keyLen s.kkind)) =
    some ([8, 8], 2) := by decide +kernel

/-- A further call after it goes out with a 2-byte key. -/
example : (run exCfg (exRun ++ startCall 2 5 6 [1]) Client.new).map (fun s => s.enq.map fun f => keyBytes f.header.key) =
    some [keyBytes (.Key8 (cKey 1)), keyBytes (.Key8 (cKey 3)), [0, 5]] := by decide +kernel

/-! ### C43 -/

/-- Bytes of the sequence number for a configured width. -/
def widthOf : VarSeqKind → Nat
  | .Seq1 => 1
  | .Seq2 => 2
  | .Seq4 => 4

/-- C43: the frames of calls use the configured width. -/
def c43_statement : Prop :=
  ∀ (cfg : Cfg) (s : Client), Reachable cfg s → ∀ (c : Nat) cl, s.calls[c]? = some cl → cl.typed = true →
    seqWidth cl.rqst.header.seq_no = widthOf cfg.seq_kind

/-- C43 is false: the configured width is stored but never used; calls always use 4 bytes. -/
theorem c43_configured_width_false : ¬ c43_statement := by
  intro h
  have h1 : (run exCfg [.call_begin (cKey 1) (cKey 2) []] Client.new).map (fun s => s.calls[0]?) =
      some (some ⟨⟨⟨.Key8 (cKey 1), .Seq4 0⟩, []⟩, cKey 2, true, .begun, 0⟩) := by decide +kernel
  obtain ⟨s, e1, e2⟩ := Option.map_eq_some_iff.mp h1
  have := h exCfg s ⟨_, e1⟩ 0 _ e2 rfl
  revert this; decide

/-- C43 for clients configured with 4 bytes.  Missing: every other configuration, for which it is false. -/
theorem c43_configured_width_partial {cfg : Cfg} (h4 : cfg.seq_kind = .Seq4) {s : Client} (hr : Reachable cfg s) {c : Nat} {cl : Call}
    (hc : s.calls[c]? = some cl) (ht : cl.typed = true) : seqWidth cl.rqst.header.seq_no = widthOf cfg.seq_kind := by
  rw [c35_typed_calls_have_seq4 hr hc ht, h4]; rfl

/-- The width on the wire is the width of the request: shortening the key leaves it alone (see `c42_request_key`). -/
example : ∃ s cl, Reachable ⟨.Seq4, cKey 9, 8, false⟩ s ∧ s.calls[1]? = some cl ∧ cl.typed = true := by
  have h1 : (run ⟨.Seq4, cKey 9, 8, false⟩ exRun Client.new).map (fun s => (s.calls[1]?).map Call.typed) =
    some (some true) := by decide +kernel
  obtain ⟨s, e1, e2⟩ := Option.map_eq_some_iff.mp h1
  obtain ⟨cl, e3, e4⟩ := Option.map_eq_some_iff.mp e2
  exact ⟨s, cl, ⟨_, e1⟩, e3, e4⟩

/-! ### C48 -/

theorem to_bytes_frame (f : RpcFrame) : ∃ b, f.to_bytes = .ok b ∧ IsFrame b f.header f.body := by
  obtain ⟨bs, e1, e2, _⟩ := c04_header_layout f.header
  refine ⟨bs ++ f.body, ?_, ?_⟩
  · rw [RpcFrame.to_bytes, e1]; rfl
  · rw [IsFrame, List.map_append, e2]

/-- C48: what was handed to the transport is, frame by frame and in order, the encoding of the first frames that were put
into the outgoing queue; as long as the transmit worker runs the queue holds exactly the others. -/
theorem c48_submission_order {cfg : Cfg} {s : Client} (hr : Reachable cfg s) :
    s.tx.length ≤ s.enq.length ∧
    (∀ (i : Nat) b, s.tx[i]? = some b → ∃ f, s.enq[i]? = some f ∧ IsFrame b f.header f.body) ∧
    (s.out_pc ≠ .exited → s.enq.drop s.tx.length = s.outq) := by
  obtain ⟨pre, rest, e1, e2, e3⟩ := reachable_outInv hr
  have hl : pre.length = s.tx.length := by
    have := congrArg List.length e2
    simpa using this
  refine ⟨by rw [e1, List.length_append]; omega, fun i b hb => ?_, fun hne => ?_⟩
  · have hi : i < pre.length := by
      rw [hl]
      rcases Nat.lt_or_ge i s.tx.length with h | h
      · exact h
      · rw [List.getElem?_eq_none h] at hb; cases hb
    refine ⟨pre[i], by rw [e1, List.getElem?_append_left hi, List.getElem?_eq_getElem hi], ?_⟩
    have h1 : (pre.map RpcFrame.to_bytes)[i]? = some pre[i].to_bytes := by
      rw [List.getElem?_map, List.getElem?_eq_getElem hi]; rfl
    rw [e2, List.getElem?_map, hb] at h1
    simp only [Option.map_some, Option.some.injEq] at h1
    obtain ⟨b', g1, g2⟩ := to_bytes_frame pre[i]
    rw [← h1] at g1
    cases g1
    exact g2
  · rw [e1, ← hl, List.drop_left]
    exact e3 hne

/-- C48 (the queue): a step leaves the accepted frames alone or appends one; it never reorders or removes. -/
theorem c48_accepted_only_grows {cfg : Cfg} {ls : List Label} {s s' : Client} (h : run cfg ls s = some s') :
    s.enq <+: s'.enq := by
  refine run_induct (fun t => s.enq <+: t.enq) (fun a l b h1 h2 => ?_) ls s s' (List.prefix_refl _) h
  rcases step_enq h2 with e | ⟨_, _, _, _, _, _, _, e⟩ | ⟨_, _, _, _, _, _, e⟩
  · rw [e]; exact h1
  · rw [e]; exact h1.trans (List.prefix_append _ _)
  · rw [e]; exact h1.trans (List.prefix_append _ _)

/-- C48 (a submitter told `Ok` has its frame in the queue): a publication returns success only in the step that appends its
frame. -/
theorem c48_success_means_accepted {cfg : Cfg} {s s' : Client} {p : Nat} {pb : Pub} (h : step cfg s (.pub_send p) = some s')
    (hp : s'.pubs[p]? = some pb) (hok : pb.res = some true) : s'.enq = s.enq ++ [pb.frame] := by
  rcases step_enq h with e | ⟨_, _, _, e, _⟩ | ⟨p', pb', e1, _, _, e3, e4⟩
  · simp only [step, pub_send] at h
    split at h
    · rename_i pb0 hp0
      split at h
      · have hlt : p < s.pubs.length := by
          rcases Nat.lt_or_ge p s.pubs.length with h | h
          · exact h
          · rw [List.getElem?_eq_none h] at hp0; cases hp0
        split at h
        · cases h
          simp only [List.getElem?_set_self hlt, Option.some.injEq] at hp
          subst hp; cases hok
        · split at h
          · cases h
            simp only [List.getElem?_set_self hlt, Option.some.injEq] at hp
            subst hp; rfl
          · cases h
      · cases h
    · cases h
  · cases e
  · cases e1
    have e : { pb' with res := some true } = pb := Option.some.inj (e3.symm.trans hp)
    rw [← e]; exact e4

/-- C48 (at most once): a call places its frame in the queue in at most one step. -/
theorem c48_call_submits_once {cfg : Cfg} {ls : List Label} {s s1 s2 : Client} {c : Nat}
    (h1 : step cfg s (.call_send c) = some s1) (h2 : run cfg ls s1 = some s2) : .call_send c ∉ ls := by
  have hp := sent_past h1
  clear h1
  induction ls generalizing s1 with
  | nil => simp
  | cons l ls ih =>
    simp only [run] at h2
    split at h2
    · rename_i s' hs
      intro hm
      rcases List.mem_cons.mp hm with rfl | hm
      · obtain ⟨cl, hc, hpp⟩ := hp
        simp only [step, hc] at hs
        split at hs
        · rename_i hk; rw [hk] at hpp; exact hpp.elim
        · cases hs
      · exact ih h2 (past_step (step_core hs) hp) hm
    · cases h2

/-- C48 (at most once): a publication that has returned keeps its result and offers its frame no more. -/
theorem c48_publication_returns_once {cfg : Cfg} {ls : List Label} {s s' : Client} (h : run cfg ls s = some s') {p : Nat} {pb : Pub}
    (hp : s.pubs[p]? = some pb) (hr : pb.res ≠ none) : s'.pubs[p]? = some pb ∧ .pub_send p ∉ ls := by
  induction ls generalizing s with
  | nil => cases h; exact ⟨hp, by simp⟩
  | cons l ls ih =>
    simp only [run] at h
    split at h
    · rename_i s1 hs
      obtain ⟨pb', h1, _, _, h2⟩ := step_pub_kept hs hp
      rw [h2 hr] at h1
      obtain ⟨g1, g2⟩ := ih h h1
      refine ⟨g1, fun hm => ?_⟩
      rcases List.mem_cons.mp hm with rfl | hm
      · simp only [step, hp] at hs
        rw [if_neg hr] at hs
        cases hs
      · exact g2 hm
    · cases h

/-- C48: after a transport error nothing more is handed to the transport, whatever happens. -/
theorem c48_nothing_after_error {cfg : Cfg} {ls : List Label} {s s1 s2 : Client} (h1 : step cfg s (.out_done false) = some s1)
    (h2 : run cfg ls s1 = some s2) : s2.tx = s.tx ∧ s2.enq = s.enq := by
  have he : s1.out_pc = .exited ∧ s1.tx = s.tx ∧ s1.enq = s.enq := by
    simp only [step, out_done] at h1
    split at h1
    · cases h1; exact ⟨rfl, rfl, rfl⟩
    · cases h1
  have := run_induct (fun t => t.out_pc = .exited ∧ t.tx = s.tx ∧ t.enq = s.enq)
    (fun a l b ⟨g1, g2, g3⟩ hs => by
      obtain ⟨q1, q2, q3⟩ := step_outExited hs g1
      exact ⟨q1, q2.trans g2, q3.trans g3⟩) ls s1 s2 he h2
  exact ⟨this.2.1, this.2.2⟩

example : (run exCfg ([.call_begin (cKey 1) (cKey 2) [7], .call_kind 0, .call_reg_ok 0, .call_reg_err 0]) Client.new).map (fun s =>
    (step exCfg s (.call_send 0)).map fun s1 => s1.enq.length) = some (some 1) := by decide +kernel

example : (run exCfg [.pub_begin ⟨⟨.Key8 (cKey 5), .Seq2 3⟩, [6]⟩, .pub_send 0] Client.new).map (fun s =>
    s.pubs.map Pub.res) = some [some true] := by decide +kernel

/-- Two calls and a publication in between; the second transmission fails. -/
example : (run exCfg (startCall 0 1 2 [7] ++ [.pub_begin ⟨⟨.Key8 (cKey 5), .Seq2 3⟩, [6]⟩, .pub_send 0] ++ startCall 1 3 4 [8] ++
    [.out_poll, .out_recv, .out_done true, .out_recv, .out_done false]) Client.new).map (fun s => (s.tx, s.enq.length, s.stopped)) =
    some ([[0xE0, 0, 0, 0, 0, 0, 0, 0, 1, 0, 0, 0, 0, 7], [0xD0, 0, 0, 0, 0, 0, 0, 0, 5, 3, 0, 6]], 3, true) := by decide +kernel

end PRpc.Props
