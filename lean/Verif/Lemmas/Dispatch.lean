import Verif.Lemmas.Header
import Verif.Lemmas.MinKey
import Verif.Lemmas.Uniques
import Verif.Spec.Dispatch
/-! Helper lemmas for dispatch and the server loop. -/

namespace PRpc

variable {V E SC Ctx : Type}

theorem try_key_eq (n : VarKeyKind) (k : VarKey) :
    try_key n k = if Spec.keyLen n ≤ (Spec.keyBytes k).length then some (k.shrink_to n) else none := by
  cases n <;> cases k <;> rfl

theorem key_at_eq (n : VarKeyKind) (k : Key) : key_at n k = (VarKey.Key8 k).shrink_to n := by
  cases n <;> rfl

theorem keyBytes_key_at (n : VarKeyKind) (k : Key) : Spec.keyBytes (key_at n k) = Spec.short (Spec.keyLen n) k := by
  rw [key_at_eq, short_shrink]

theorem try_key_some {D : Dispatcher V E SC Ctx} {hdr : VarHeader} (h : Spec.LongEnough D hdr) :
    try_key D.n hdr.key = some (hdr.key.shrink_to D.n) := by
  rw [try_key_eq]; exact if_pos h

theorem try_key_none {D : Dispatcher V E SC Ctx} {hdr : VarHeader} (h : ¬ Spec.LongEnough D hdr) :
    try_key D.n hdr.key = none := by
  rw [try_key_eq]; exact if_neg h

theorem match_key_iff {D : Dispatcher V E SC Ctx} {hdr : VarHeader} (h : Spec.LongEnough D hdr) (q : Key) :
    hdr.key.shrink_to D.n = key_at D.n q ↔ Spec.rxShort D hdr = Spec.short (Spec.keyLen D.n) q := by
  unfold Spec.rxShort Spec.LongEnough at *
  rw [← keyBytes_key_at]
  have e := shrink_bytes hdr.key D.n
  rw [Nat.min_eq_right h] at e
  rw [← e]
  exact ⟨congrArg _, keyBytes_inj⟩

/-- The outcome of sending one frame of the dispatcher. -/
def sendOne (env : Env V E SC) (f : Frame V) (s : St V E SC Ctx) : Option E × St V E SC Ctx :=
  (env.send s.log f, ⟨s.ctx, s.log ++ [.sent .dispatcher f (env.send s.log f)]⟩)

/-- The error frame. -/
def errFrame (std : StdKeys) (kkind : VarKeyKind) (seq : VarSeq) (e : WireError) : Frame V :=
  ⟨⟨(VarKey.Key8 std.error).shrink_to kkind, seq⟩, .err e⟩

theorem errFrame_isMsg (std : StdKeys) (kkind : VarKeyKind) (seq : VarSeq) (e : WireError) :
    Spec.IsMsg kkind std.error seq (.err e) (errFrame (V := V) std kkind seq e) :=
  ⟨(short_shrink kkind std.error).symm, rfl, rfl⟩

theorem sender_error_eq (env : Env V E SC) (std : StdKeys) (kkind : VarKeyKind) (seq : VarSeq) (e : WireError)
    (s : St V E SC Ctx) : sender_error env std kkind seq e s = sendOne env (errFrame std kkind seq e) s := rfl

/-- The reply frame. -/
def replyFrame (kkind : VarKeyKind) (key : Key) (seq : VarSeq) (b : Body V) : Frame V :=
  ⟨⟨(VarKey.Key8 key).shrink_to kkind, seq⟩, b⟩

theorem replyFrame_isMsg (kkind : VarKeyKind) (key : Key) (seq : VarSeq) (b : Body V) :
    Spec.IsMsg kkind key seq b (replyFrame kkind key seq b) :=
  ⟨(short_shrink kkind key).symm, rfl, rfl⟩

theorem sender_reply_eq (env : Env V E SC) (kkind : VarKeyKind) (key : Key) (seq : VarSeq) (b : Body V)
    (s : St V E SC Ctx) : sender_reply env kkind key seq b s = sendOne env (replyFrame kkind key seq b) s := rfl

theorem sender_publish_eq (env : Env V E SC) (kkind : VarKeyKind) (key : Key) (seq : VarSeq) (b : Body V)
    (s : St V E SC Ctx) : sender_publish env kkind key seq b s = sendOne env (replyFrame kkind key seq b) s := rfl

theorem handle_short (env : Env V E SC) (D : Dispatcher V E SC Ctx) (kkind : VarKeyKind) (hdr : VarHeader)
    (body : Bytes) (s : St V E SC Ctx) (h : ¬ Spec.LongEnough D hdr) :
    handle env D kkind hdr body s = .ok (sendOne env (errFrame D.std kkind hdr.seq_no .KeyTooSmall) s) := by
  unfold handle
  rw [try_key_none h]
  rfl

theorem find_none_of {α : Type} {p : α → Bool} {l : List α} (h : ∀ x ∈ l, p x = false) : l.find? p = none := by
  rw [List.find?_eq_none]
  intro x hx
  simp [h x hx]

theorem find_first {α : Type} {p : α → Bool} {pre post : List α} {x : α} (hx : p x = true)
    (h : ∀ y ∈ pre, p y = false) : (pre ++ x :: post).find? p = some x := by
  rw [List.find?_append, find_none_of h]
  simp [hx]

theorem handle_ping (env : Env V E SC) (D : Dispatcher V E SC Ctx) (kkind : VarKeyKind) (hdr : VarHeader)
    (body : Bytes) (s : St V E SC Ctx) (h : Spec.LongEnough D hdr)
    (hp : Spec.rxShort D hdr = Spec.short (Spec.keyLen D.n) D.std.ping_req) :
    handle env D kkind hdr body s = .ok (match D.ping_decode body with
      | none => sendOne env (errFrame D.std kkind hdr.seq_no .DeserFailed) s
      | some req => sendOne env (replyFrame kkind D.std.ping_resp hdr.seq_no (.val req)) s) := by
  unfold handle
  rw [try_key_some h]
  simp only
  rw [if_pos ((match_key_iff h _).mpr hp)]
  cases D.ping_decode body <;> rfl

theorem handle_schemas (env : Env V E SC) (D : Dispatcher V E SC Ctx) (kkind : VarKeyKind) (hdr : VarHeader)
    (body : Bytes) (s : St V E SC Ctx) (h : Spec.LongEnough D hdr)
    (hp : Spec.rxShort D hdr ≠ Spec.short (Spec.keyLen D.n) D.std.ping_req)
    (hs : Spec.rxShort D hdr = Spec.short (Spec.keyLen D.n) D.std.schemas_req) :
    handle env D kkind hdr body s = send_all_schemas env D.std kkind hdr D.device_map s := by
  unfold handle
  rw [try_key_some h]
  simp only
  rw [if_neg (fun q => hp ((match_key_iff h _).mp q)), if_pos ((match_key_iff h _).mpr hs)]

theorem handle_ep (env : Env V E SC) (D : Dispatcher V E SC Ctx) (kkind : VarKeyKind) (hdr : VarHeader)
    (body : Bytes) (s : St V E SC Ctx) (h : EpHandler V Ctx) (hf : Spec.ForEndpoint D hdr h) :
    handle env D kkind hdr body s = .ok (match h.decode body with
      | none => sendOne env (errFrame D.std kkind hdr.seq_no .DeserFailed) s
      | some req => ep_arm env D kkind h hdr req s) := by
  obtain ⟨hl, ⟨hp, hs⟩, here, pre, post, he, hpre⟩ := hf
  unfold handle
  rw [try_key_some hl]
  simp only
  rw [if_neg (fun q => hp ((match_key_iff hl _).mp q)), if_neg (fun q => hs ((match_key_iff hl _).mp q)), he,
    find_first (by simpa using (match_key_iff hl _).mpr here)
      (fun y hy => by simpa using fun q => hpre y hy ((match_key_iff hl _).mp q))]
  simp only
  cases h.decode body <;> rfl

theorem handle_tp (env : Env V E SC) (D : Dispatcher V E SC Ctx) (kkind : VarKeyKind) (hdr : VarHeader)
    (body : Bytes) (s : St V E SC Ctx) (t : TpHandler V E Ctx) (hf : Spec.ForTopic D hdr t) :
    handle env D kkind hdr body s = .ok (none, match t.decode body with
      | none => s
      | some msg => tp_arm env D t hdr msg s) := by
  obtain ⟨hl, ⟨hp, hs⟩, hne, here, pre, post, he, hpre⟩ := hf
  unfold handle
  rw [try_key_some hl]
  simp only
  rw [if_neg (fun q => hp ((match_key_iff hl _).mp q)), if_neg (fun q => hs ((match_key_iff hl _).mp q)),
    find_none_of (fun y hy => by simpa using fun q => hne y hy ((match_key_iff hl _).mp q)), he,
    find_first (by simpa using (match_key_iff hl _).mpr here)
      (fun y hy => by simpa using fun q => hpre y hy ((match_key_iff hl _).mp q))]
  simp only
  cases t.decode body <;> rfl

theorem handle_unknown (env : Env V E SC) (D : Dispatcher V E SC Ctx) (kkind : VarKeyKind) (hdr : VarHeader)
    (body : Bytes) (s : St V E SC Ctx) (hl : Spec.LongEnough D hdr)
    (hn : ∀ q ∈ Spec.handledKeys D, Spec.rxShort D hdr ≠ Spec.short (Spec.keyLen D.n) q) :
    handle env D kkind hdr body s = .ok (sendOne env (errFrame D.std kkind hdr.seq_no .UnknownKey) s) := by
  unfold handle
  rw [try_key_some hl]
  simp only
  rw [if_neg (fun q => hn D.std.ping_req (by simp [Spec.handledKeys]) ((match_key_iff hl _).mp q)),
    if_neg (fun q => hn D.std.schemas_req (by simp [Spec.handledKeys]) ((match_key_iff hl _).mp q)),
    find_none_of (fun y hy => by
      simpa using fun q => hn y.req (by simp [Spec.handledKeys]; exact Or.inr (Or.inr (Or.inl ⟨y, hy, rfl⟩)))
        ((match_key_iff hl _).mp q)),
    find_none_of (fun y hy => by
      simpa using fun q => hn y.key (by simp [Spec.handledKeys]; exact Or.inr (Or.inr (Or.inr ⟨y, hy, rfl⟩)))
        ((match_key_iff hl _).mp q))]
  rfl

/-- Every frame falls into exactly one of the cases above. -/
theorem frame_cases (D : Dispatcher V E SC Ctx) (hdr : VarHeader) :
    ¬ Spec.LongEnough D hdr ∨
    (Spec.LongEnough D hdr ∧ Spec.rxShort D hdr = Spec.short (Spec.keyLen D.n) D.std.ping_req) ∨
    (Spec.LongEnough D hdr ∧ Spec.rxShort D hdr ≠ Spec.short (Spec.keyLen D.n) D.std.ping_req ∧
      Spec.rxShort D hdr = Spec.short (Spec.keyLen D.n) D.std.schemas_req) ∨
    (∃ h, h ∈ D.eps ∧ Spec.ForEndpoint D hdr h) ∨
    (∃ t, t ∈ D.tps ∧ Spec.ForTopic D hdr t) ∨
    (Spec.LongEnough D hdr ∧ ∀ q ∈ Spec.handledKeys D, Spec.rxShort D hdr ≠ Spec.short (Spec.keyLen D.n) q) := by
  by_cases hl : Spec.LongEnough D hdr
  rotate_left
  · exact Or.inl hl
  by_cases hp : Spec.rxShort D hdr = Spec.short (Spec.keyLen D.n) D.std.ping_req
  · exact Or.inr (Or.inl ⟨hl, hp⟩)
  by_cases hs : Spec.rxShort D hdr = Spec.short (Spec.keyLen D.n) D.std.schemas_req
  · exact Or.inr (Or.inr (Or.inl ⟨hl, hp, hs⟩))
  refine Or.inr (Or.inr (Or.inr ?_))
  have first : ∀ {α : Type} (f : α → Key) (l : List α),
      (∀ g ∈ l, Spec.rxShort D hdr ≠ Spec.short (Spec.keyLen D.n) (f g)) ∨
      ∃ (pre : List α) (x : α) (post : List α), l = pre ++ x :: post ∧ Spec.rxShort D hdr = Spec.short (Spec.keyLen D.n) (f x) ∧
        ∀ g ∈ pre, Spec.rxShort D hdr ≠ Spec.short (Spec.keyLen D.n) (f g) := by
    intro α f l
    induction l with
    | nil => exact Or.inl (by simp)
    | cons x xs ih =>
      by_cases hx : Spec.rxShort D hdr = Spec.short (Spec.keyLen D.n) (f x)
      · exact Or.inr ⟨[], x, xs, rfl, hx, by simp⟩
      · rcases ih with ih | ⟨pre, y, post, rfl, hy, hpre⟩
        · exact Or.inl (by simpa [hx] using ih)
        · exact Or.inr ⟨x :: pre, y, post, rfl, hy, by simpa [hx] using hpre⟩
  rcases first (·.req) D.eps with he | ⟨pre, h, post, e, hh, hpre⟩
  rotate_left
  · exact Or.inl ⟨h, by simp [e], hl, ⟨hp, hs⟩, hh, pre, post, e, hpre⟩
  rcases first (·.key) D.tps with ht | ⟨pre, t, post, e, hh, hpre⟩
  rotate_left
  · exact Or.inr (Or.inl ⟨t, by simp [e], hl, ⟨hp, hs⟩, he, hh, pre, post, e, hpre⟩)
  refine Or.inr (Or.inr ⟨hl, ?_⟩)
  intro q hq
  simp only [Spec.handledKeys, List.mem_append, List.mem_cons, List.not_mem_nil, or_false, List.mem_map] at hq
  rcases hq with ((rfl | rfl) | ⟨g, hg, rfl⟩) | ⟨g, hg, rfl⟩
  · exact hp
  · exact hs
  · exact he g hg
  · exact ht g hg

theorem reply_arm_eq (env : Env V E SC) (std : StdKeys) (kkind : VarKeyKind) (h : EpHandler V Ctx)
    (f : Ctx → VarHeader → V → V × Ctx) (hdr : VarHeader) (req : V) (s : St V E SC Ctx) :
    reply_arm env std kkind h f hdr req s =
      let s₁ : St V E SC Ctx := ⟨(f s.ctx hdr req).2, s.log ++ [.ran .endpoint h.name hdr req]⟩
      let p := sendOne env (replyFrame kkind h.resp hdr.seq_no (.val (f s.ctx hdr req).1)) s₁
      match p.1 with
      | some _ => sendOne env (errFrame std kkind hdr.seq_no .SerFailed) p.2
      | none => (none, p.2) := rfl

theorem spec_calls_append (a b : List (Event V E SC)) : Spec.calls (a ++ b) = Spec.calls a ++ Spec.calls b := by
  induction a with
  | nil => rfl
  | cons x xs ih => cases x <;> simp [Spec.calls, ih]

theorem ownFrames_append (a b : List (Event V E SC)) :
    Spec.ownFrames (a ++ b) = Spec.ownFrames a ++ Spec.ownFrames b := by
  induction a with
  | nil => rfl
  | cons x xs ih =>
    cases x with
    | sent o f r => cases o <;> simp [Spec.ownFrames, ih]
    | ran => simp [Spec.ownFrames, ih]
    | spawned => simp [Spec.ownFrames, ih]

theorem frames_append (a b : List (Event V E SC)) : Spec.frames (a ++ b) = Spec.frames a ++ Spec.frames b := by
  induction a with
  | nil => rfl
  | cons x xs ih => cases x <;> simp [Spec.frames, ih]

theorem failures_append (a b : List (Event V E SC)) :
    Spec.failures (a ++ b) = Spec.failures a + Spec.failures b := by
  induction a with
  | nil => simp [Spec.failures]
  | cons x xs ih =>
    cases x with
    | sent o f r => cases r <;> simp [Spec.failures, ih]; omega
    | ran => simp [Spec.failures, ih]
    | spawned => simp [Spec.failures, ih]

/-- A topic program only appends frames sent by the handler. -/
theorem prog_run_log (env : Env V E SC) (p : Prog V E Ctx) (s : St V E SC Ctx) :
    ∃ ev, (p.run env s).log = s.log ++ ev ∧ Spec.calls ev = [] ∧ Spec.ownFrames ev = [] := by
  induction p generalizing s with
  | done c => exact ⟨[], by simp [Prog.run], rfl, rfl⟩
  | send f k ih =>
    obtain ⟨ev, h1, h2, h3⟩ := ih (env.send s.log f) (wire_send env .handler f s).2
    refine ⟨.sent .handler f (env.send s.log f) :: ev, ?_, ?_, ?_⟩
    · simp only [Prog.run]
      rw [show wire_send env .handler f s = (env.send s.log f, (wire_send env .handler f s).2) from rfl]
      simp only
      rw [h1]
      simp [wire_send]
    · simpa [Spec.calls] using h2
    · simpa [Spec.ownFrames] using h3

/-- What `ep_arm` appends: one handler call and at most two frames, none of them `KeyTooSmall`. -/
theorem ep_arm_log (env : Env V E SC) (D : Dispatcher V E SC Ctx) (kkind : VarKeyKind) (h : EpHandler V Ctx)
    (hdr : VarHeader) (req : V) (s : St V E SC Ctx) :
    ∃ r s' ev, ep_arm env D kkind h hdr req s = (r, s') ∧ s'.log = s.log ++ ev ∧
      Spec.calls ev = [(.endpoint, h.name, hdr, req)] ∧
      ∀ f ∈ Spec.ownFrames ev, f.body ≠ .err .KeyTooSmall ∧ f.body ≠ .err .UnknownKey := by
  have key : ∀ f, ∃ r s' ev, reply_arm env D.std kkind h f hdr req s = (r, s') ∧ s'.log = s.log ++ ev ∧
      Spec.calls ev = [(.endpoint, h.name, hdr, req)] ∧
      ∀ f ∈ Spec.ownFrames ev, f.body ≠ .err .KeyTooSmall ∧ f.body ≠ .err .UnknownKey := by
    intro f
    rw [reply_arm_eq]
    simp only [sendOne]
    generalize env.send _ _ = r
    cases r with
    | none =>
      refine ⟨_, _, [_, _], rfl, by simp; exact ⟨rfl, rfl⟩, rfl, ?_⟩
      intro f hf
      simp only [Spec.ownFrames, List.mem_cons, List.not_mem_nil, or_false] at hf
      subst hf
      simp [replyFrame]
    | some e =>
      refine ⟨_, _, [_, _, _], rfl, by simp; exact ⟨rfl, rfl, rfl⟩, rfl, ?_⟩
      intro f hf
      simp only [Spec.ownFrames, List.mem_cons, List.not_mem_nil, or_false] at hf
      rcases hf with rfl | rfl <;> simp [replyFrame, errFrame]
  unfold ep_arm
  cases h.flavor with
  | blocking f => exact key f
  | async f => exact key f
  | spawn =>
    simp only [St.note, sender_error_eq]
    split
    · exact ⟨_, _, _, rfl, rfl, rfl, by simp [Spec.ownFrames]⟩
    · refine ⟨_, _, [_, _], rfl, by simp; exact ⟨rfl, rfl⟩, rfl, ?_⟩
      intro f hf
      simp only [Spec.ownFrames, List.mem_cons, List.not_mem_nil, or_false] at hf
      subst hf
      simp [errFrame]

/-- What `tp_arm` appends: one handler call and no frame of the dispatcher. -/
theorem tp_arm_log (env : Env V E SC) (D : Dispatcher V E SC Ctx) (t : TpHandler V E Ctx) (hdr : VarHeader) (msg : V)
    (s : St V E SC Ctx) :
    ∃ ev, (tp_arm env D t hdr msg s).log = s.log ++ ev ∧ Spec.calls ev = [(.topic, t.name, hdr, msg)] ∧
      Spec.ownFrames ev = [] := by
  unfold tp_arm
  cases t.flavor with
  | blocking f => exact ⟨_, rfl, rfl, rfl⟩
  | async f =>
    obtain ⟨ev, h1, h2, h3⟩ := prog_run_log env (f s.ctx hdr msg) (s.note (.ran .topic t.name hdr msg))
    refine ⟨.ran .topic t.name hdr msg :: ev, ?_, by simp [Spec.calls, h2], by simp [Spec.ownFrames, h3]⟩
    simp only
    rw [h1]
    simp [St.note]
  | spawn => exact ⟨_, rfl, rfl, rfl⟩

theorem define_dispatch_ping {a : App V E SC Ctx} {D : Dispatcher V E SC Ctx} (h : define_dispatch a = .ok D) :
    D.ping_decode = a.ping_decode := by
  unfold define_dispatch at h
  cases hs : needed_sz a.sizer with
  | panic => rw [hs] at h; simp at h
  | ok sz =>
    rw [hs] at h
    simp only [Exec.ok_bind, merge_types_eq] at h
    cases hk : kind_of_sz sz with
    | panic => rw [hk] at h; simp at h
    | ok n =>
      rw [hk] at h
      simp only [Exec.ok_bind, Exec.ok.injEq] at h
      subst h
      rfl

theorem define_dispatch_ok {a : App V E SC Ctx} {D : Dispatcher V E SC Ctx} (h : define_dispatch a = .ok D) :
    needed_sz a.sizer = .ok (Spec.keyLen D.n) ∧ D.std = a.std ∧ D.eps = a.eps ∧ D.tps = a.tps := by
  unfold define_dispatch at h
  cases hs : needed_sz a.sizer with
  | panic => rw [hs] at h; simp at h
  | ok sz =>
    rw [hs] at h
    simp only [Exec.ok_bind, merge_types_eq] at h
    cases hk : kind_of_sz sz with
    | panic => rw [hk] at h; simp at h
    | ok n =>
      rw [hk] at h
      simp only [Exec.ok_bind, Exec.ok.injEq] at h
      subst h
      refine ⟨?_, rfl, rfl, rfl⟩
      simp only
      unfold kind_of_sz at hk
      repeat' split at hk
      all_goals first | (cases hk; done) | (cases hk; simp_all [Spec.keyLen])

theorem distinct_eq {n : Nat} {ks : List Key} (d : Spec.DistinctAt n ks) {x y : Key} (hx : x ∈ ks) (hy : y ∈ ks)
    (h : Spec.short n x = Spec.short n y) : x = y := by
  obtain ⟨i, hi, rfl⟩ := List.getElem_of_mem hx
  obtain ⟨j, hj, rfl⟩ := List.getElem_of_mem hy
  by_cases e : i = j
  · subst e; rfl
  · exact absurd h (d i j hi hj e)

/-- Folding a short form further. -/
theorem rxShort_of_sent {D : Dispatcher V E SC Ctx} {hdr : VarHeader} {q : Key} {m : VarKeyKind}
    (hm : Spec.keyLen D.n ≤ Spec.keyLen m) (hk : Spec.keyBytes hdr.key = Spec.short (Spec.keyLen m) q) :
    Spec.LongEnough D hdr ∧ Spec.rxShort D hdr = Spec.short (Spec.keyLen D.n) q := by
  have hk' : hdr.key = (VarKey.Key8 q).shrink_to m := by
    rw [short_shrink] at hk; exact keyBytes_inj hk
  have hl : Spec.LongEnough D hdr := by
    unfold Spec.LongEnough
    rw [hk', shrink_length]
    have : Spec.keyLen m ≤ 8 := by cases m <;> simp [Spec.keyLen]
    simp [Spec.keyBytes]; omega
  refine ⟨hl, (match_key_iff hl q).mp ?_⟩
  rw [hk', shrink_shrink, key_at_eq]
  congr 1
  apply keyLen_inj
  rw [keyLen_minKind]
  omega

theorem take_iff (b : Bytes) (hdr : VarHeader) (body : Bytes) :
    VarHeader.take_from_slice b = .ok (some (hdr, body)) ↔ b = encOf hdr ++ body :=
  ⟨take_inv, fun h => h ▸ take_enc hdr body⟩

end PRpc
