import Verif.Lemmas.Dispatch
/-! Helper lemmas about the schema dump. -/

namespace PRpc

variable {V E SC Ctx : Type}

/-- The frame published for one schema message. -/
def schemaFrame (std : StdKeys) (kkind : VarKeyKind) (mc : BitVec 16) (d : SchemaData) : Frame V :=
  replyFrame kkind std.schema_topic (.Seq2 mc) (.schema d)

/-- Failure counter after one publish. -/
def count_err (checks : Bool) (r : Option E) (ec : BitVec 32) : Exec (BitVec 32) :=
  if r.isSome then inc_u32 checks ec else .ok ec

theorem publish_loop_cons (env : Env V E SC) (std : StdKeys) (kkind : VarKeyKind) (d : SchemaData)
    (ds : List SchemaData) (mc : BitVec 16) (ec : BitVec 32) (s : St V E SC Ctx) :
    publish_loop env std kkind (d :: ds) mc ec s =
      (count_err env.overflow_checks (env.send s.log (schemaFrame std kkind mc d)) ec >>= fun ec' =>
        inc_u16 env.overflow_checks mc >>= fun mc' =>
          publish_loop env std kkind ds mc' ec' ⟨s.ctx, s.log ++
            [.sent .dispatcher (schemaFrame std kkind mc d) (env.send s.log (schemaFrame std kkind mc d))]⟩) := by
  rw [publish_loop, sender_publish_eq]
  by_cases hs : (env.send s.log (replyFrame kkind std.schema_topic (.Seq2 mc) (.schema d))).isSome = true
  · exact (if_pos hs).trans (congrArg (· >>= _) (if_pos hs : count_err env.overflow_checks _ ec = _).symm)
  · exact (if_neg hs).trans (congrArg (· >>= _) (if_neg hs : count_err env.overflow_checks _ ec = _).symm)

theorem publish_loop_append (env : Env V E SC) (std : StdKeys) (kkind : VarKeyKind) (a b : List SchemaData)
    (mc : BitVec 16) (ec : BitVec 32) (s : St V E SC Ctx) :
    publish_loop env std kkind (a ++ b) mc ec s =
      (publish_loop env std kkind a mc ec s >>= fun q => publish_loop env std kkind b q.1 q.2.1 q.2.2) := by
  induction a generalizing mc ec s with
  | nil => rw [List.nil_append, publish_loop]; rfl
  | cons d a ih =>
    rw [List.cons_append, publish_loop_cons, publish_loop_cons]
    cases h1 : count_err env.overflow_checks (env.send s.log (schemaFrame std kkind mc d)) ec with
    | panic => simp
    | ok ec' =>
      cases h2 : inc_u16 env.overflow_checks mc with
      | panic => simp
      | ok mc' => simp only [Exec.ok_bind]; exact ih ..

theorem send_all_schemas_eq (env : Env V E SC) (std : StdKeys) (kkind : VarKeyKind) (hdr : VarHeader) (m : DeviceMap)
    (s : St V E SC Ctx) :
    send_all_schemas env std kkind hdr m s =
      (publish_loop env std kkind (Spec.schemaMsgs m) 0#16 0#32 s >>= fun q =>
        .ok (sendOne env (replyFrame kkind std.schemas_resp hdr.seq_no
          (.totals ⟨BitVec.ofNat 32 m.types.length, BitVec.ofNat 32 m.endpoints.length,
            BitVec.ofNat 32 m.topics_in.length, BitVec.ofNat 32 m.topics_out.length, q.2.1⟩)) q.2.2)) := by
  unfold send_all_schemas Spec.schemaMsgs
  simp only [publish_loop_append, sender_reply_eq]
  cases publish_loop env std kkind (m.types.map .Type) 0#16 0#32 s with
  | panic => simp
  | ok q1 =>
    simp only [Exec.ok_bind]
    cases publish_loop env std kkind (m.endpoints.map fun ep => .Endpoint ep.path ep.req ep.resp) q1.1 q1.2.1 q1.2.2 with
    | panic => simp
    | ok q2 =>
      simp only [Exec.ok_bind]
      cases publish_loop env std kkind (m.topics_out.map fun t => .Topic t.path t.key .ToClient) q2.1 q2.2.1 q2.2.2 with
      | panic => simp
      | ok q3 =>
        simp only [Exec.ok_bind]

/-- The frames published for `ds`, numbered from `i`. -/
def schemaFrames (std : StdKeys) (kkind : VarKeyKind) : Nat → List SchemaData → List (Frame V)
  | _, [] => []
  | i, d :: ds => schemaFrame std kkind (BitVec.ofNat 16 i) d :: schemaFrames std kkind (i + 1) ds

theorem schemaFrames_length (std : StdKeys) (kkind : VarKeyKind) (i : Nat) (ds : List SchemaData) :
    (schemaFrames std kkind i ds : List (Frame V)).length = ds.length := by
  induction ds generalizing i with
  | nil => rfl
  | cons d ds ih => simp [schemaFrames, ih]

theorem schemaFrames_get (std : StdKeys) (kkind : VarKeyKind) (i j : Nat) (ds : List SchemaData)
    (h : j < ds.length) :
    (schemaFrames std kkind i ds : List (Frame V))[j]? = some (schemaFrame std kkind (BitVec.ofNat 16 (i + j)) ds[j]) := by
  induction ds generalizing i j with
  | nil => simp at h
  | cons d ds ih =>
    cases j with
    | zero => simp [schemaFrames]
    | succ j =>
      simp only [schemaFrames, List.getElem?_cons_succ, List.getElem_cons_succ]
      rw [ih (i + 1) j (by simpa using h), show i + 1 + j = i + (j + 1) by omega]

/-- Shape of the events of a publish loop: only sends by the dispatcher. -/
def AllSent (ev : List (Event V E SC)) : Prop := ∀ e ∈ ev, ∃ f r, e = .sent .dispatcher f r

theorem AllSent.frames {ev : List (Event V E SC)} (h : AllSent ev) : Spec.frames ev = Spec.ownFrames ev := by
  induction ev with
  | nil => rfl
  | cons e ev ih =>
    obtain ⟨f, r, rfl⟩ := h e (by simp)
    simp only [Spec.frames, Spec.ownFrames, ih fun x hx => h x (by simp [hx])]

theorem AllSent.calls {ev : List (Event V E SC)} (h : AllSent ev) : Spec.calls ev = [] := by
  induction ev with
  | nil => rfl
  | cons e ev ih =>
    obtain ⟨f, r, rfl⟩ := h e (by simp)
    simp only [Spec.calls, ih fun x hx => h x (by simp [hx])]

/-- A publish loop that does not panic sends every message in order, numbered modulo 2^16, and counts the failures
modulo 2^32. -/
theorem publish_loop_spec (env : Env V E SC) (std : StdKeys) (kkind : VarKeyKind) (ds : List SchemaData) (i c : Nat)
    (s : St V E SC Ctx) (q : BitVec 16 × BitVec 32 × St V E SC Ctx)
    (h : publish_loop env std kkind ds (BitVec.ofNat 16 i) (BitVec.ofNat 32 c) s = .ok q) :
    ∃ ev, AllSent ev ∧ Spec.ownFrames ev = schemaFrames std kkind i ds ∧
      q = (BitVec.ofNat 16 (i + ds.length), BitVec.ofNat 32 (c + Spec.failures ev), ⟨s.ctx, s.log ++ ev⟩) := by
  induction ds generalizing i c s with
  | nil => cases h; exact ⟨[], by simp [AllSent], rfl, by simp [Spec.failures]⟩
  | cons d ds ih =>
    rw [publish_loop_cons] at h
    generalize hr : env.send s.log (schemaFrame std kkind (BitVec.ofNat 16 i) d) = r at h
    have h1 : ∃ k, count_err env.overflow_checks r (BitVec.ofNat 32 c) = .panic ∨
        (count_err env.overflow_checks r (BitVec.ofNat 32 c) = .ok (BitVec.ofNat 32 (c + k)) ∧
          k = if r.isSome then 1 else 0) := by
      refine ⟨if r.isSome then 1 else 0, ?_⟩
      unfold count_err inc_u32
      by_cases hs : r.isSome
      · simp only [hs, if_true]
        split
        · exact Or.inl rfl
        · right; exact ⟨by rw [← BitVec.ofNat_add], trivial⟩
      · simp [hs]
    obtain ⟨k, h1 | ⟨h1, hk⟩⟩ := h1
    · rw [h1] at h; simp at h
    · rw [h1] at h
      simp only [Exec.ok_bind] at h
      have h2 : inc_u16 env.overflow_checks (BitVec.ofNat 16 i) = .panic ∨
          inc_u16 env.overflow_checks (BitVec.ofNat 16 i) = .ok (BitVec.ofNat 16 (i + 1)) := by
        unfold inc_u16
        split
        · exact Or.inl rfl
        · right; rw [← BitVec.ofNat_add]
      rcases h2 with h2 | h2
      · rw [h2] at h; simp at h
      · rw [h2] at h
        simp only [Exec.ok_bind] at h
        obtain ⟨ev, a, b, hq⟩ := ih _ _ _ h
        refine ⟨.sent .dispatcher (schemaFrame std kkind (BitVec.ofNat 16 i) d) r :: ev, ?_, ?_, ?_⟩
        · intro e he
          rcases List.mem_cons.mp he with rfl | he
          · exact ⟨_, _, rfl⟩
          · exact a e he
        · simp only [Spec.ownFrames, b, schemaFrames]
        · subst hq
          have e1 : i + 1 + ds.length = i + (d :: ds).length := by simp; omega
          have e2 : c + k + Spec.failures ev =
              c + Spec.failures (.sent .dispatcher (schemaFrame std kkind (BitVec.ofNat 16 i) d) r :: ev) := by
            cases r <;> simp [Spec.failures] at * <;> omega
          rw [e1, e2]
          simp

/-- Without overflow the publish loop does not panic. -/
theorem publish_loop_total (env : Env V E SC) (std : StdKeys) (kkind : VarKeyKind) (ds : List SchemaData) (i c : Nat)
    (s : St V E SC Ctx)
    (h : env.overflow_checks = false ∨ (i + ds.length ≤ 65535 ∧ c + ds.length ≤ 4294967295)) :
    ∃ q, publish_loop env std kkind ds (BitVec.ofNat 16 i) (BitVec.ofNat 32 c) s = .ok q := by
  induction ds generalizing i c s with
  | nil => exact ⟨_, rfl⟩
  | cons d ds ih =>
    rw [publish_loop_cons]
    generalize env.send s.log (schemaFrame std kkind (BitVec.ofNat 16 i) d) = r
    have h1 : ∃ k, k ≤ 1 ∧ count_err env.overflow_checks r (BitVec.ofNat 32 c) = .ok (BitVec.ofNat 32 (c + k)) := by
      unfold count_err inc_u32
      by_cases hs : r.isSome
      · refine ⟨1, by omega, ?_⟩
        simp only [hs, if_true]
        rw [if_neg, ← BitVec.ofNat_add]
        rcases h with h | h
        · simp [h]
        · simp only [List.length_cons] at h
          simp only [Bool.and_eq_true, beq_iff_eq, not_and]
          intro _ e
          have := congrArg BitVec.toNat e
          simp at this
          omega
      · exact ⟨0, by omega, by simp [hs]⟩
    have h2 : inc_u16 env.overflow_checks (BitVec.ofNat 16 i) = .ok (BitVec.ofNat 16 (i + 1)) := by
      unfold inc_u16
      rw [if_neg, ← BitVec.ofNat_add]
      rcases h with h | h
      · simp [h]
      · simp only [List.length_cons] at h
        simp only [Bool.and_eq_true, beq_iff_eq, not_and]
        intro _ e
        have := congrArg BitVec.toNat e
        simp at this
        omega
    obtain ⟨k, hk, h1⟩ := h1
    rw [h1, h2]
    simp only [Exec.ok_bind]
    apply ih
    rcases h with h | h
    · exact Or.inl h
    · simp only [List.length_cons] at h; right; omega

/-- With overflow checks, more than 65535 messages panic. -/
theorem publish_loop_overflow (env : Env V E SC) (std : StdKeys) (kkind : VarKeyKind) (ds : List SchemaData) (i : Nat)
    (ec : BitVec 32) (s : St V E SC Ctx) (hc : env.overflow_checks = true) (hi : i ≤ 65535)
    (h : 65536 ≤ i + ds.length) :
    publish_loop env std kkind ds (BitVec.ofNat 16 i) ec s = .panic := by
  induction ds generalizing i ec s with
  | nil => simp at h; omega
  | cons d ds ih =>
    rw [publish_loop_cons]
    cases count_err env.overflow_checks (env.send s.log (schemaFrame std kkind (BitVec.ofNat 16 i) d)) ec with
    | panic => rfl
    | ok ec' =>
      simp only [Exec.ok_bind]
      by_cases e : i = 65535
      · subst e
        simp [inc_u16, hc]
      · have h2 : inc_u16 env.overflow_checks (BitVec.ofNat 16 i) = .ok (BitVec.ofNat 16 (i + 1)) := by
          unfold inc_u16
          rw [if_neg, ← BitVec.ofNat_add]
          simp only [Bool.and_eq_true, beq_iff_eq, not_and]
          intro _ e'
          have := congrArg BitVec.toNat e'
          simp at this
          omega
        rw [h2]
        simp only [Exec.ok_bind]
        simp only [List.length_cons] at h
        exact ih _ _ _ (by omega) (by omega)

/-- Every frame sent by the schema query carries schema data or the totals, and no handler runs. -/
theorem schemas_frames (env : Env V E SC) (std : StdKeys) (kkind : VarKeyKind) (hdr : VarHeader) (m : DeviceMap)
    (s : St V E SC Ctx) (r : Option E) (s' : St V E SC Ctx)
    (h : send_all_schemas env std kkind hdr m s = .ok (r, s')) :
    ∃ ev, s'.log = s.log ++ ev ∧ Spec.calls ev = [] ∧ s'.ctx = s.ctx ∧
      ∀ f ∈ Spec.ownFrames ev, ∀ e, f.body ≠ .err e := by
  rw [send_all_schemas_eq] at h
  cases hp : publish_loop env std kkind (Spec.schemaMsgs m) 0#16 0#32 s with
  | panic => rw [hp] at h; simp at h
  | ok q =>
    rw [hp] at h
    simp only [Exec.ok_bind, sendOne, Exec.ok.injEq, Prod.mk.injEq] at h
    obtain ⟨_, rfl⟩ := h
    obtain ⟨ev, a, b, hq⟩ := publish_loop_spec env std kkind (Spec.schemaMsgs m) 0 0 s q hp
    refine ⟨ev ++ [_], by rw [hq]; simp; rfl, ?_, by rw [hq], ?_⟩
    · rw [spec_calls_append, a.calls]; rfl
    · intro f hf e
      rw [ownFrames_append, b] at hf
      rcases List.mem_append.mp hf with hf | hf
      · obtain ⟨j, hj⟩ := List.mem_iff_getElem?.mp hf
        have hl : j < (Spec.schemaMsgs m).length := by
          have := (List.getElem?_eq_some_iff.mp hj).1
          rwa [schemaFrames_length] at this
        rw [schemaFrames_get _ _ _ _ _ hl] at hj
        cases hj
        simp [schemaFrame, replyFrame]
      · simp only [Spec.ownFrames, List.mem_cons, List.not_mem_nil, or_false] at hf
        subst hf
        simp [replyFrame]

end PRpc
