import Verif.Spec.Client
import Verif.Lemmas.ClientKind
/-!
Helper lemmas connecting the client's invariants to the vocabulary of `Verif.Spec.Client`.
-/

namespace PRpc

open Spec

theorem short_eq (n : Nat) (k : Key) : short n k = fold n (keyBytes (.Key8 k)) := rfl

theorem keyLen_le (k : VarKeyKind) : keyLen k ≤ 8 := by cases k <;> simp [keyLen]

theorem keyBytes_le (k : VarKey) : (keyBytes k).length ≤ 8 := by cases k <;> simp [keyBytes]

theorem kind_of_shrink8 (key : Key) (k : VarKeyKind) : ((VarKey.Key8 key).shrink_to k).kind = k := by
  cases k <;> rfl

theorem eq_agrees (key : Key) (k : VarKeyKind) (v : VarKey) :
    ((VarKey.Key8 key).shrink_to k).eq v = true ↔ KeyAgrees (keyLen k) key v := by
  rw [eq_iff_shrink, kind_of_shrink8, shrink_shrink]
  have h2 : keyLen (minKind k v.kind) = min (keyLen k) (keyBytes v).length := by rw [keyLen_minKind, kind_len]
  have h1 : minKind k (minKind k v.kind) = minKind k v.kind := by
    apply keyLen_inj; rw [keyLen_minKind, h2]; omega
  rw [h1]
  have b1 : keyBytes ((VarKey.Key8 key).shrink_to (minKind k v.kind)) = short (min (keyLen k) (keyBytes v).length) key := by
    rw [shrink_bytes, h2, short_eq]
    congr 1
    have := keyLen_le k
    simp only [keyBytes, List.length_cons, List.length_nil]
    omega
  have b2 : keyBytes (v.shrink_to (minKind k v.kind)) = fold (min (keyLen k) (keyBytes v).length) (keyBytes v) := by
    rw [shrink_bytes, h2]
    congr 1
    omega
  constructor
  · intro h
    have := congrArg keyBytes h
    rw [b1, b2] at this
    exact this.symm
  · intro h
    apply keyBytes_inj
    rw [b1, b2]
    exact h.symm

theorem seq_eq_iff (a b : VarSeq) : a.eq b = true ↔ seqVal b = seqVal a := by
  have h : ∀ x : VarSeq, x.into_u32.toNat = seqVal x := by
    intro x
    cases x with
    | Seq1 v => simp only [VarSeq.into_u32, seqVal, BitVec.toNat_setWidth]; have := v.isLt; omega
    | Seq2 v => simp only [VarSeq.into_u32, seqVal, BitVec.toNat_setWidth]; have := v.isLt; omega
    | Seq4 v => rfl
  rw [VarSeq.eq, beq_iff_eq, ← h, ← h]
  constructor
  · intro e; rw [e]
  · intro e; exact (BitVec.eq_of_toNat_eq e).symm

theorem waitHdr_answers (cfg : Cfg) (cl : Call) (k : VarKeyKind) (err : Bool) (h : VarHeader) :
    (waitHdr cfg cl k err).eq h = true ↔ Answers (keyLen k) (wantKey cfg cl err) cl.rqst.header h := by
  have : ∀ key : Key, (VarHeader.mk ((VarKey.Key8 key).shrink_to k) cl.rqst.header.seq_no).eq h = true ↔
      Answers (keyLen k) key cl.rqst.header h := by
    intro key
    rw [VarHeader.eq, Bool.and_eq_true, eq_agrees, seq_eq_iff]
    exact ⟨fun ⟨a, b⟩ => ⟨a, b⟩, fun ⟨a, b⟩ => ⟨a, b⟩⟩
  cases err
  · exact this cl.resp_key
  · exact this cfg.err_key

theorem result_eq (cl : Call) : result cl = cl.phase.result := by
  rw [result]
  cases cl.phase with
  | done r => cases r <;> rfl
  | _ => rfl

theorem fold_self (v : VarKey) : fold (keyBytes v).length (keyBytes v) = keyBytes v := by
  have := shrink_bytes v v.kind
  rw [shrink_self v v.kind (by rw [kind_len]; exact Nat.le_refl _), kind_len, Nat.min_self] at this
  exact this.symm

theorem match_topic (key : Key) (f : RpcFrame) : key_match key f.header.key = decide (OfTopic key f) := by
  have h0 : (VarKey.Key8 key).shrink_to .Key8 = .Key8 key := rfl
  have := eq_agrees key .Key8 f.header.key
  rw [h0] at this
  rw [key_match, Bool.eq_iff_iff, this, decide_eq_true_eq, KeyAgrees, OfTopic]
  have hm : min (keyLen .Key8) (keyBytes f.header.key).length = (keyBytes f.header.key).length := by
    have := keyBytes_le f.header.key
    simp only [keyLen]; omega
  rw [hm, fold_self]

theorem topicFrames_eq (a : List RpcFrame) (key : Key) (since : Nat) : topicFrames a key since = topicPart key since a := by
  rw [topicFrames, topicPart]
  congr 1
  funext f
  exact match_topic key f

theorem shrink_shortened (f : RpcFrame) (k : VarKeyKind) : Shortened (keyLen k) f (f.shrink k) :=
  ⟨shrink_bytes _ _, rfl, rfl⟩

/-! ### One call through a run -/

/-- What is known about a call that read key kind `k` when `m` frames had been offered to waiters. -/
def TrackP (cfg : Cfg) (cl : Call) (k : VarKeyKind) (m : Nat) (seen : List RpcFrame) : Phase → Prop
  | .begun => False
  | .kinded k' => k' = k
  | .half k' => k' = k ∧ m ≤ cl.reg_at
  | .registered k' => k' = k ∧ m ≤ cl.reg_at
  | .waiting k' => k' = k ∧ m ≤ cl.reg_at
  | .done (.Resp f i) => m ≤ i ∧ seen[i]? = some f ∧ (waitHdr cfg cl k false).eq f.header = true
  | .done (.ErrResp f i) => m ≤ i ∧ seen[i]? = some f ∧ (waitHdr cfg cl k true).eq f.header = true
  | .done .Closed => True
  | .done .BadResponse => True
  | .dropped => True

structure Track (cfg : Cfg) (c : Nat) (k : VarKeyKind) (m : Nat) (r : RpcFrame) (rk : Key) (s : Core) : Prop where
  ex : ∃ cl, s.calls[c]? = some cl ∧ cl.rqst = r ∧ cl.resp_key = rk ∧ TrackP cfg cl k m s.seen cl.phase
  le : m ≤ s.seen.length

theorem trackP_seen {cfg : Cfg} {cl : Call} {k : VarKeyKind} {m : Nat} {sn : List RpcFrame} {p : Phase} (f : RpcFrame)
    (h : TrackP cfg cl k m sn p) : TrackP cfg cl k m (sn ++ [f]) p := by
  cases p with
  | done r =>
    cases r with
    | Resp g i => exact ⟨h.1, seen_get h.2.1, h.2.2⟩
    | ErrResp g i => exact ⟨h.1, seen_get h.2.1, h.2.2⟩
    | Closed => trivial
    | BadResponse => trivial
  | _ => exact h

theorem track_step {cfg : Cfg} {a b : Core} (hs : CoreStep cfg a b) (inv : CoreInv cfg a) {c : Nat} {k : VarKeyKind} {m : Nat}
    {r : RpcFrame} {rk : Key} (t : Track cfg c k m r rk a) : Track cfg c k m r rk b := by
  obtain ⟨⟨cl, hc, h1, h2, h3⟩, le⟩ := t
  -- a step that replaces the entry of some call
  have rep : ∀ {cs : List Call} {c' : Nat} {cl' x : Call} {m' w sn} {m2 w2 sn2}, (⟨m', w, cs, sn⟩ : Core) = a →
      cs[c']? = some cl' → x.rqst = cl'.rqst → x.resp_key = cl'.resp_key → sn2 = sn →
      (c' = c → TrackP cfg x k m sn x.phase) → Track cfg c k m r rk ⟨m2, w2, cs.set c' x, sn2⟩ := by
    intro cs c' cl' x m' w sn m2 w2 sn2 e hc' e1 e2 e3 hp
    subst e; subst e3
    refine ⟨?_, le⟩
    simp only at hc
    by_cases e : c = c'
    · rw [e] at hc
      rw [hc'] at hc; cases hc
      exact ⟨x, (set_get hc' _ _).trans (if_pos e), e1.trans h1, e2.trans h2, hp e.symm⟩
    · exact ⟨cl, ((set_get hc' _ _).trans (if_neg e)).trans hc, h1, h2, h3⟩
  have same : ∀ {cs : List Call} {c' : Nat} {cl' : Call} {m' w sn}, (⟨m', w, cs, sn⟩ : Core) = a →
      cs[c']? = some cl' → c' = c → TrackP cfg cl' k m sn cl'.phase := by
    intro cs c' cl' m' w sn e hc' e'
    subst e; subst e'
    simp only at hc
    rw [hc'] at hc; cases hc
    exact h3
  cases hs with
  | skip => exact ⟨⟨cl, hc, h1, h2, h3⟩, le⟩
  | add m' w cs sn cl' hb => exact ⟨⟨cl, append_get hc _, h1, h2, h3⟩, le⟩
  | kind m' w cs sn c' cl' k' hc' hp =>
    exact rep rfl hc' rfl rfl rfl fun e => by
      have := same rfl hc' e; rw [hp] at this; exact this.elim
  | regOk m' w cs sn c' cl' k' hc' hp hd =>
    exact rep rfl hc' rfl rfl rfl fun e => by
      have := same rfl hc' e; rw [hp] at this; exact ⟨this, le⟩
  | dupOk m' w cs sn c' cl' k' hc' hp hd => exact rep rfl hc' rfl rfl rfl fun e => trivial
  | regErr m' w cs sn c' cl' k' hc' hp hd =>
    exact rep rfl hc' rfl rfl rfl fun e => by
      have := same rfl hc' e; rw [hp] at this; exact this
  | sent m' w cs sn c' cl' k' hc' hp =>
    exact rep rfl hc' rfl rfl rfl fun e => by
      have := same rfl hc' e; rw [hp] at this; exact this
  | finish m' w cs sn c' cl' p hc' hp hq =>
    exact rep rfl hc' rfl rfl rfl fun e => by
      rcases hq with rfl | rfl | rfl <;> trivial
  | take m' w cs sn c' cl' k' err v hc' hp hv hid =>
    exact rep rfl hc' rfl rfl rfl fun e => by
      have ht := same rfl hc' e; rw [hp] at ht
      obtain ⟨cl2, k2, g1, g2, g3, g4, g5⟩ := inv.wokenOk v hv
      rw [hid] at g1 g2 g3
      simp only at g1 g2 g3
      rw [hc'] at g1; cases g1
      rw [hp] at g2
      have hk2 : k2 = k := by
        cases err <;> simp only [Phase.hasWait, Option.some.injEq] at g2 <;> exact g2.symm.trans ht.1
      subst hk2
      have hle : m ≤ v.idx := Nat.le_trans ht.2 g5
      cases err
      · exact ⟨hle, g4, g3⟩
      · exact ⟨hle, g4, g3⟩
  | wake m' w cs sn id hd f hm he =>
    exact ⟨⟨cl, hc, h1, h2, trackP_seen f h3⟩, by simp only [List.length_append]; simp only at le; omega⟩
  | nowake m' w cs sn f hm =>
    exact ⟨⟨cl, hc, h1, h2, trackP_seen f h3⟩, by simp only [List.length_append]; simp only at le; omega⟩

theorem run_reachable {cfg : Cfg} {ls : List Label} {s s' : Client} (hr : Reachable cfg s) (h : run cfg ls s = some s') :
    Reachable cfg s' := run_induct (Reachable cfg) (fun _ _ _ a b => reachable_step a b) ls s s' hr h

theorem run_track {cfg : Cfg} {ls : List Label} {s s' : Client} (hr : Reachable cfg s) (h : run cfg ls s = some s') {c : Nat}
    {k : VarKeyKind} {m : Nat} {r : RpcFrame} {rk : Key} (t : Track cfg c k m r rk s.core) : Track cfg c k m r rk s'.core :=
  (run_induct (fun s => Reachable cfg s ∧ Track cfg c k m r rk s.core)
    (fun _ _ _ a b => ⟨reachable_step a.1 b, track_step (step_core b) (reachable_coreInv a.1) a.2⟩) ls s s' ⟨hr, t⟩ h).2

/-- Reading the key kind starts the tracking. -/
theorem call_kind_track {cfg : Cfg} {s s' : Client} {c : Nat} (h : step cfg s (.call_kind c) = some s') :
    ∃ cl, s.calls[c]? = some cl ∧ Track cfg c s.kkind s.seen.length cl.rqst cl.resp_key s'.core ∧ s'.enq = s.enq := by
  simp only [step] at h
  split at h
  · rename_i cl hc
    split at h
    · cases h
      exact ⟨cl, hc, ⟨⟨_, (set_get hc _ _).trans (if_pos rfl), rfl, rfl, rfl⟩, Nat.le_refl _⟩, rfl⟩
    · cases h
  · cases h

/-- A value handed to a call stays there until the call is over. -/
theorem woken_step {cfg : Cfg} {a b : Core} (hs : CoreStep cfg a b) (inv : CoreInv cfg a) {v : Woken} (hv : v ∈ a.woken) :
    v ∈ b.woken ∨ ∃ cl, b.calls[v.id.call]? = some cl ∧ ((∃ r, cl.phase = .done r) ∨ cl.phase = .dropped) := by
  have fil : ∀ {w : List Woken} {c' : Nat} {cs : List Call} {cl x : Call}, v ∈ w → cs[c']? = some cl →
      ((∃ r, x.phase = .done r) ∨ x.phase = .dropped) → v ∈ w.filter (fun x => x.id.call != c') ∨
      ∃ cl, (cs.set c' x)[v.id.call]? = some cl ∧ ((∃ r, cl.phase = .done r) ∨ cl.phase = .dropped) := by
    intro w c' cs cl x hw hc hx
    by_cases e : v.id.call = c'
    · exact .inr ⟨x, (set_get hc _ _).trans (if_pos e), hx⟩
    · exact .inl (List.mem_filter.mpr ⟨hw, by simpa using e⟩)
  cases hs with
  | finish m' w cs sn c' cl' p hc' hp hq =>
    refine fil hv hc' ?_
    rcases hq with rfl | rfl | rfl
    · exact .inr rfl
    · exact .inl ⟨_, rfl⟩
    · exact .inl ⟨_, rfl⟩
  | take m' w cs sn c' cl' k' err v' hc' hp hv' hid => exact fil hv hc' (.inl ⟨_, rfl⟩)
  | wake m' w cs sn id hd f hm he => exact .inl (List.mem_append.mpr (.inl hv))
  | _ => exact .inl hv

/-- The request has been handed over, or the call is over. -/
def Phase.past : Phase → Prop
  | .waiting _ => True
  | .done _ => True
  | .dropped => True
  | _ => False

theorem past_step {cfg : Cfg} {a b : Core} (hs : CoreStep cfg a b) {c : Nat} (h : ∃ cl, a.calls[c]? = some cl ∧ cl.phase.past) :
    ∃ cl, b.calls[c]? = some cl ∧ cl.phase.past := by
  obtain ⟨cl, hc, hp⟩ := h
  have rep : ∀ {cs : List Call} {c' : Nat} {cl' x : Call}, cs[c]? = some cl → cs[c']? = some cl' →
      (c' = c → cl' = cl → x.phase.past) → ∃ cl, (cs.set c' x)[c]? = some cl ∧ cl.phase.past := by
    intro cs c' cl' x e1 e2 e3
    by_cases e : c = c'
    · subst e
      exact ⟨x, (set_get e2 _ _).trans (if_pos rfl), e3 rfl (Option.some.inj (e2.symm.trans e1))⟩
    · exact ⟨cl, ((set_get e2 _ _).trans (if_neg e)).trans e1, hp⟩
  cases hs with
  | skip => exact ⟨cl, hc, hp⟩
  | add m' w cs sn cl' hb => exact ⟨cl, append_get hc _, hp⟩
  | kind m' w cs sn c' cl' k' hc' hq =>
    exact rep hc hc' fun _ e => by subst e; rw [hq] at hp; exact hp.elim
  | regOk m' w cs sn c' cl' k' hc' hq hd =>
    exact rep hc hc' fun _ e => by subst e; rw [hq] at hp; exact hp.elim
  | dupOk m' w cs sn c' cl' k' hc' hq hd => exact rep hc hc' fun _ _ => trivial
  | regErr m' w cs sn c' cl' k' hc' hq hd =>
    exact rep hc hc' fun _ e => by subst e; rw [hq] at hp; exact hp.elim
  | sent m' w cs sn c' cl' k' hc' hq => exact rep hc hc' fun _ _ => trivial
  | finish m' w cs sn c' cl' p hc' hq hr =>
    exact rep hc hc' fun _ _ => by rcases hr with rfl | rfl | rfl <;> trivial
  | take m' w cs sn c' cl' k' err v hc' hq hv hid => exact rep hc hc' fun _ _ => trivial
  | wake => exact ⟨cl, hc, hp⟩
  | nowake => exact ⟨cl, hc, hp⟩

/-- The call is over. -/
def Phase.isOver : Phase → Prop
  | .done _ => True
  | .dropped => True
  | _ => False

theorem isOver_iff (p : Phase) : p.isOver ↔ (∃ r, p = .done r) ∨ p = .dropped := by
  cases p <;> simp [Phase.isOver]

theorem over_step {cfg : Cfg} {a b : Core} (hs : CoreStep cfg a b) {c : Nat} (h : ∃ cl, a.calls[c]? = some cl ∧ cl.phase.isOver) :
    ∃ cl, b.calls[c]? = some cl ∧ cl.phase.isOver := by
  obtain ⟨cl, hc, hp⟩ := h
  have rep : ∀ {cs : List Call} {c' : Nat} {cl' x : Call}, cs[c]? = some cl → cs[c']? = some cl' →
      (c' = c → cl' = cl → x.phase.isOver) → ∃ cl, (cs.set c' x)[c]? = some cl ∧ cl.phase.isOver := by
    intro cs c' cl' x e1 e2 e3
    by_cases e : c = c'
    · subst e
      exact ⟨x, (set_get e2 _ _).trans (if_pos rfl), e3 rfl (Option.some.inj (e2.symm.trans e1))⟩
    · exact ⟨cl, ((set_get e2 _ _).trans (if_neg e)).trans e1, hp⟩
  cases hs with
  | skip => exact ⟨cl, hc, hp⟩
  | add m' w cs sn cl' hb => exact ⟨cl, append_get hc _, hp⟩
  | kind m' w cs sn c' cl' k' hc' hq =>
    exact rep hc hc' fun _ e => by subst e; rw [hq] at hp; exact hp.elim
  | regOk m' w cs sn c' cl' k' hc' hq hd =>
    exact rep hc hc' fun _ e => by subst e; rw [hq] at hp; exact hp.elim
  | dupOk m' w cs sn c' cl' k' hc' hq hd => exact rep hc hc' fun _ _ => trivial
  | regErr m' w cs sn c' cl' k' hc' hq hd =>
    exact rep hc hc' fun _ e => by subst e; rw [hq] at hp; exact hp.elim
  | sent m' w cs sn c' cl' k' hc' hq =>
    exact rep hc hc' fun _ e => by subst e; rw [hq] at hp; exact hp.elim
  | finish m' w cs sn c' cl' p hc' hq hr =>
    exact rep hc hc' fun _ _ => by rcases hr with rfl | rfl | rfl <;> trivial
  | take m' w cs sn c' cl' k' err v hc' hq hv hid => exact rep hc hc' fun _ _ => trivial
  | wake => exact ⟨cl, hc, hp⟩
  | nowake => exact ⟨cl, hc, hp⟩

theorem sent_past {cfg : Cfg} {s s' : Client} {c : Nat} (h : step cfg s (.call_send c) = some s') :
    ∃ cl, s'.calls[c]? = some cl ∧ cl.phase.past := by
  simp only [step] at h
  split at h
  · rename_i cl hc
    split at h
    · rename_i k hk
      rw [call_send] at h
      split at h
      · cases h; exact ⟨_, (set_get hc _ _).trans (if_pos rfl), trivial⟩
      · split at h
        · cases h; exact ⟨_, (set_get hc _ _).trans (if_pos rfl), trivial⟩
        · cases h
    · cases h
  · cases h

/-- After its request was handed over, an unfinished call is waiting. -/
theorem run_sent {cfg : Cfg} {ls : List Label} {s s' : Client} (h : run cfg ls s = some s') {c : Nat}
    (hm : Label.call_send c ∈ ls) : ∃ cl, s'.calls[c]? = some cl ∧ cl.phase.past := by
  obtain ⟨a, b, rfl⟩ := List.append_of_mem hm
  rw [run_append] at h
  cases e : run cfg a s with
  | none => rw [e] at h; cases h
  | some s1 =>
    rw [e] at h
    simp only [Option.bind_some, run] at h
    cases e2 : step cfg s1 (.call_send c) with
    | none => rw [e2] at h; cases h
    | some s2 =>
      rw [e2] at h
      exact run_induct (fun s => ∃ cl, s.calls[c]? = some cl ∧ cl.phase.past)
        (fun _ _ _ h1 h2 => past_step (step_core h2) h1) b s2 s' (sent_past e2) h

theorem run_pub_kept {cfg : Cfg} {ls : List Label} {s s' : Client} (h : run cfg ls s = some s') {p : Nat} {pb : Pub}
    (hp : s.pubs[p]? = some pb) : ∃ pb', s'.pubs[p]? = some pb' ∧ pb'.frame = pb.frame ∧ pb'.orig = pb.orig := by
  refine run_induct (fun s => ∃ pb', s.pubs[p]? = some pb' ∧ pb'.frame = pb.frame ∧ pb'.orig = pb.orig)
    ?_ ls s s' ⟨pb, hp, rfl, rfl⟩ h
  intro s l s' ⟨pb', h1, h2, h3⟩ hs
  obtain ⟨pb2, g1, g2, g3, _⟩ := step_pub_kept hs h1
  exact ⟨pb2, g1, g2.trans h2, g3.trans h3⟩

end PRpc
