import Verif.Lemmas.Schemas
import Verif.Lemmas.Server
import Verif.Spec.System
/-! Helper lemmas about what the server sends while it handles one frame. -/

namespace PRpc

open Spec

variable {V E SC Ctx : Type}

/-- The frames the dispatcher can send while it handles a frame. -/
inductive DispFrame (D : Dispatcher V E SC Ctx) (kk : VarKeyKind) (hdr : VarHeader) (body : Bytes) (ctx : Ctx) (fr : Frame V) : Prop where
  | err (e : WireError) : (e = .KeyTooSmall ↔ ¬ LongEnough D hdr) → IsMsg kk D.std.error hdr.seq_no (.err e) fr → DispFrame D kk hdr body ctx fr
  | ran (h : EpHandler V Ctx) (g : Ctx → VarHeader → V → V × Ctx) (v : V) : h ∈ D.eps → ForEndpoint D hdr h →
      (h.flavor = .blocking g ∨ h.flavor = .async g) → h.decode body = some v →
      IsMsg kk h.resp hdr.seq_no (.val (g ctx hdr v).1) fr → DispFrame D kk hdr body ctx fr
  | ping (v : V) : LongEnough D hdr → rxShort D hdr = short (keyLen D.n) D.std.ping_req → D.ping_decode body = some v →
      IsMsg kk D.std.ping_resp hdr.seq_no (.val v) fr → DispFrame D kk hdr body ctx fr
  | totals (t : SchemaTotals) : LongEnough D hdr → rxShort D hdr = short (keyLen D.n) D.std.schemas_req →
      IsMsg kk D.std.schemas_resp hdr.seq_no (.totals t) fr → DispFrame D kk hdr body ctx fr
  | schema (d : SchemaData) (seq : VarSeq) : LongEnough D hdr → rxShort D hdr = short (keyLen D.n) D.std.schemas_req →
      IsMsg kk D.std.schema_topic seq (.schema d) fr → DispFrame D kk hdr body ctx fr
  | topic (t : TpHandler V E Ctx) (g : Ctx → VarHeader → V → Prog V E Ctx) (v : V) (c : Ctx) : t ∈ D.tps → t.flavor = .async g →
      MaySend (g c hdr v) fr → DispFrame D kk hdr body ctx fr

/-- The task was spawned for a frame with this header and body. -/
structure TaskFor (D : Dispatcher V E SC Ctx) (hdr : VarHeader) (body : Bytes) (t : Task V SC) : Prop where
  same : t.hdr = hdr
  row : t.role = .endpoint → ∃ h ∈ D.eps, ForEndpoint D hdr h ∧ h.name = t.name ∧ h.flavor = .spawn ∧ h.decode body = some t.arg
  topic : t.role = .topic → ∃ g ∈ D.tps, ForTopic D hdr g ∧ g.name = t.name ∧ g.flavor = .spawn ∧ g.decode body = some t.arg

/-- What the log may show while a frame is handled. -/
def EvOk (D : Dispatcher V E SC Ctx) (kk : VarKeyKind) (hdr : VarHeader) (body : Bytes) (ctx : Ctx) : Event V E SC → Prop
  | .sent _ f _ => DispFrame D kk hdr body ctx f
  | .ran _ _ _ _ => True
  | .spawned t _ => TaskFor D hdr body t

theorem prog_events (env : Env V E SC) (p : Prog V E Ctx) (s : St V E SC Ctx) :
    ∃ ev, (p.run env s).log = s.log ++ ev ∧ ∀ e ∈ ev, ∃ f r, e = .sent .handler f r ∧ MaySend p f := by
  induction p generalizing s with
  | done c => exact ⟨[], by simp [Prog.run], by simp⟩
  | send f k ih =>
    obtain ⟨ev, h1, h2⟩ := ih (env.send s.log f) (wire_send env .handler f s).2
    refine ⟨.sent .handler f (env.send s.log f) :: ev, ?_, ?_⟩
    · simp only [Prog.run]
      rw [show wire_send env .handler f s = (env.send s.log f, (wire_send env .handler f s).2) from rfl]
      simp only
      rw [h1]
      simp [wire_send]
    · intro e he
      rcases List.mem_cons.mp he with rfl | he
      · exact ⟨f, _, rfl, .now f k⟩
      · obtain ⟨g, r, e1, e2⟩ := h2 e he
        exact ⟨g, r, e1, .later f k _ g e2⟩

theorem schemaFrames_mem {std : StdKeys} {kkind : VarKeyKind} {i : Nat} {ds : List SchemaData} {f : Frame V}
    (h : f ∈ schemaFrames std kkind i ds) : ∃ d seq, IsMsg kkind std.schema_topic seq (.schema d) f := by
  induction ds generalizing i with
  | nil => cases h
  | cons d ds ih =>
    rcases List.mem_cons.mp h with rfl | h
    · exact ⟨d, _, replyFrame_isMsg ..⟩
    · exact ih h

theorem ownFrames_mem {ev : List (Event V E SC)} {f : Frame V} {r : Option E} (h : .sent .dispatcher f r ∈ ev) :
    f ∈ ownFrames ev := by
  induction ev with
  | nil => cases h
  | cons x ev ih =>
    rcases List.mem_cons.mp h with rfl | h
    · exact List.mem_cons_self ..
    · have := ih h
      cases x with
      | sent o g r => cases o <;> simp [ownFrames, this]
      | ran => exact this
      | spawned => exact this

theorem handle_events {env : Env V E SC} {D : Dispatcher V E SC Ctx} {kk : VarKeyKind} {hdr : VarHeader} {body : Bytes} {s s' : St V E SC Ctx}
    {r : Option E} (hh : handle env D kk hdr body s = .ok (r, s')) :
    ∃ ev, s'.log = s.log ++ ev ∧ ∀ e ∈ ev, EvOk D kk hdr body s.ctx e := by
  have one : ∀ (s : St V E SC Ctx) (f : Frame V), DispFrame D kk hdr body s.ctx f → Exec.ok (sendOne env f s) = .ok (r, s') →
      ∃ ev, s'.log = s.log ++ ev ∧ ∀ e ∈ ev, EvOk D kk hdr body s.ctx e := by
    intro s f hf he
    simp only [sendOne, Exec.ok.injEq, Prod.mk.injEq] at he
    obtain ⟨_, rfl⟩ := he
    exact ⟨_, rfl, fun e he => by rw [List.mem_singleton.mp he]; exact hf⟩
  have err : ∀ e, (e = .KeyTooSmall ↔ ¬ LongEnough D hdr) → DispFrame (E := E) (SC := SC) D kk hdr body s.ctx (errFrame D.std kk hdr.seq_no e) :=
    fun e he => .err e he (errFrame_isMsg ..)
  have err' : LongEnough D hdr → ∀ e, e ≠ .KeyTooSmall → DispFrame (E := E) (SC := SC) D kk hdr body s.ctx (errFrame D.std kk hdr.seq_no e) :=
    fun hl e he => err e ⟨fun h => absurd h he, fun h => absurd hl h⟩
  rcases frame_cases D hdr with c | ⟨h, c⟩ | ⟨h, c, c'⟩ | ⟨g, hg, c⟩ | ⟨g, hg, c⟩ | ⟨h, c⟩
  · rw [handle_short _ _ _ _ _ _ c] at hh
    exact one s _ (err _ ⟨fun _ => c, fun _ => rfl⟩) hh
  · rw [handle_ping _ _ _ _ _ _ h c] at hh
    cases hd : D.ping_decode body with
    | none => rw [hd] at hh; exact one s _ (err' h _ (by intro e; cases e)) hh
    | some v => rw [hd] at hh; exact one s _ (.ping v h c hd (replyFrame_isMsg ..)) hh
  · rw [handle_schemas _ _ _ _ _ _ h c c', send_all_schemas_eq] at hh
    cases hp : publish_loop env D.std kk (schemaMsgs D.device_map) 0#16 0#32 s with
    | panic => rw [hp] at hh; simp at hh
    | ok q =>
      rw [hp] at hh
      simp only [Exec.ok_bind] at hh
      obtain ⟨ev, a1, a2, a3⟩ := publish_loop_spec env D.std kk _ 0 0 s q hp
      have hctx : q.2.2.ctx = s.ctx := by rw [a3]
      have hlog : q.2.2.log = s.log ++ ev := by rw [a3]
      obtain ⟨ev2, b1, b2⟩ := one q.2.2 _ (.totals _ h c' (replyFrame_isMsg ..)) hh
      rw [hctx] at b2
      refine ⟨ev ++ ev2, by rw [b1, hlog, List.append_assoc], fun e he => ?_⟩
      rcases List.mem_append.mp he with he | he
      · obtain ⟨f, r, rfl⟩ := a1 e he
        have := ownFrames_mem he
        rw [a2] at this
        obtain ⟨d, seq, hm⟩ := schemaFrames_mem this
        exact .schema d seq h c' hm
      · exact b2 e he
  · rw [handle_ep _ _ _ _ _ _ g c] at hh
    cases hd : g.decode body with
    | none => rw [hd] at hh; exact one s _ (err' c.long _ (by intro e; cases e)) hh
    | some v =>
      rw [hd] at hh
      have reply : ∀ fn, (g.flavor = .blocking fn ∨ g.flavor = .async fn) →
          Exec.ok (reply_arm env D.std kk g fn hdr v s) = .ok (r, s') →
          ∃ ev, s'.log = s.log ++ ev ∧ ∀ e ∈ ev, EvOk D kk hdr body s.ctx e := by
        intro fn hfl he
        rw [reply_arm_eq] at he
        have hfr : DispFrame D kk hdr body s.ctx (replyFrame kk g.resp hdr.seq_no (.val (fn s.ctx hdr v).1)) :=
          .ran g fn v hg c hfl hd (replyFrame_isMsg ..)
        simp only [sendOne] at he
        generalize env.send _ _ = x at he
        cases x with
        | none =>
          simp only [Exec.ok.injEq, Prod.mk.injEq] at he
          obtain ⟨_, rfl⟩ := he
          refine ⟨[_, _], by simp; exact ⟨rfl, rfl⟩, fun e he => ?_⟩
          simp only [List.mem_cons, List.not_mem_nil, or_false] at he
          rcases he with rfl | rfl
          · trivial
          · exact hfr
        | some x =>
          simp only [Exec.ok.injEq, Prod.mk.injEq] at he
          obtain ⟨_, rfl⟩ := he
          refine ⟨[_, _, _], by simp; exact ⟨rfl, rfl, rfl⟩, fun e he => ?_⟩
          simp only [List.mem_cons, List.not_mem_nil, or_false] at he
          rcases he with rfl | rfl | rfl
          · trivial
          · exact hfr
          · exact err' c.long _ (by intro e; cases e)
      simp only [ep_arm] at hh
      split at hh
      · rename_i fn hfl; exact reply fn (.inl hfl) hh
      · rename_i fn hfl; exact reply fn (.inr hfl) hh
      · rename_i hfl
        have ht : TaskFor D hdr body (⟨.endpoint, g.name, (D.spawn_ctxt s.ctx).1, hdr, v⟩ : Task V SC) :=
          ⟨rfl, fun _ => ⟨g, hg, c, rfl, hfl, hd⟩, fun h => by cases h⟩
        simp only [St.note, sender_error_eq, sendOne] at hh
        split at hh
        · simp only [Exec.ok.injEq, Prod.mk.injEq] at hh
          obtain ⟨_, rfl⟩ := hh
          exact ⟨_, rfl, fun e he => by rw [List.mem_singleton.mp he]; exact ht⟩
        · simp only [Exec.ok.injEq, Prod.mk.injEq] at hh
          obtain ⟨_, rfl⟩ := hh
          refine ⟨[_, _], by simp; exact ⟨rfl, rfl⟩, fun e he => ?_⟩
          simp only [List.mem_cons, List.not_mem_nil, or_false] at he
          rcases he with rfl | rfl
          · exact ht
          · exact err' c.long _ (by intro e; cases e)
  · rw [handle_tp _ _ _ _ _ _ g c] at hh
    cases hd : g.decode body with
    | none =>
      rw [hd] at hh
      simp only [Exec.ok.injEq, Prod.mk.injEq] at hh
      obtain ⟨_, rfl⟩ := hh
      exact ⟨[], by simp, by simp⟩
    | some v =>
      rw [hd] at hh
      simp only [Exec.ok.injEq, Prod.mk.injEq] at hh
      obtain ⟨_, rfl⟩ := hh
      simp only [tp_arm]
      split
      · exact ⟨_, rfl, fun e he => by rw [List.mem_singleton.mp he]; trivial⟩
      · rename_i fn hfl
        obtain ⟨ev, h1, h2⟩ := prog_events env (fn s.ctx hdr v) (s.note (.ran .topic g.name hdr v))
        refine ⟨.ran .topic g.name hdr v :: ev, by rw [h1]; simp [St.note], fun e he => ?_⟩
        rcases List.mem_cons.mp he with rfl | he
        · trivial
        · obtain ⟨f, r, rfl, hm⟩ := h2 e he
          exact .topic g fn v s.ctx hg hfl hm
      · rename_i hfl
        refine ⟨_, rfl, fun e he => ?_⟩
        rw [List.mem_singleton.mp he]
        exact ⟨rfl, (fun h => by cases h), fun _ => ⟨g, hg, c, rfl, hfl, hd⟩⟩
  · rw [handle_unknown _ _ _ _ _ _ h c] at hh
    exact one s _ (err' h _ (by intro e; cases e)) hh

theorem sent_ok_mem {cut : List (Event V E SC) → Frame V → Nat} {src : Src} {log ev : List (Event V E SC)} {o : Out V}
    (h : o ∈ sent_ok cut src log ev) :
    o.src = src ∧ (o.cut = none ∨ ∃ l, o.cut = some (cut l o.frame)) ∧ ∃ by_ r, .sent by_ o.frame r ∈ ev := by
  induction ev generalizing log with
  | nil => cases h
  | cons x ev ih =>
    have tl : ∀ {log}, o ∈ sent_ok cut src log ev →
        o.src = src ∧ (o.cut = none ∨ ∃ l, o.cut = some (cut l o.frame)) ∧ ∃ by_ r, .sent by_ o.frame r ∈ x :: ev := by
      intro log h
      obtain ⟨a, d, b, r, c⟩ := ih h
      exact ⟨a, d, b, r, List.mem_cons_of_mem _ c⟩
    cases x with
    | sent b f r =>
      cases r with
      | none =>
        rcases List.mem_cons.mp h with rfl | h
        · exact ⟨rfl, .inl rfl, b, none, List.mem_cons_self ..⟩
        · exact tl h
      | some e =>
        rcases List.mem_cons.mp h with rfl | h
        · exact ⟨rfl, .inr ⟨_, rfl⟩, b, some e, List.mem_cons_self ..⟩
        · exact tl h
    | ran => exact tl h
    | spawned => exact tl h

theorem spawned_ok_mem {j : Nat} {ev : List (Event V E SC)} {x : Nat × Task V SC} (h : x ∈ spawned_ok j ev) :
    x.1 = j ∧ ∃ ok, .spawned x.2 ok ∈ ev := by
  induction ev with
  | nil => cases h
  | cons y ev ih =>
    have tl : x ∈ spawned_ok j ev → x.1 = j ∧ ∃ ok, .spawned x.2 ok ∈ y :: ev := by
      intro h
      obtain ⟨a, b, c⟩ := ih h
      exact ⟨a, b, List.mem_cons_of_mem _ c⟩
    cases y with
    | sent => exact tl h
    | ran => exact tl h
    | spawned t ok =>
      cases ok with
      | true =>
        rcases List.mem_cons.mp h with rfl | h
        · exact ⟨rfl, true, List.mem_cons_self ..⟩
        · exact tl h
      | false => exact tl h

/-- One turn of the server loop. -/
theorem serve_cases {S : SysCfg V E SC Ctx} {s s' : Sys V E SC Ctx} (h : serve S s = some s') :
    ∃ b up srv, s.client.tx[s.taken]? = some b ∧ s' = s.served S up srv ∧ s.pending = [] ∧
      ∃ ev, srv.log = s.srv.log ++ ev ∧
        (ev = [] ∨ ∃ hdr body, VarHeader.take_from_slice b = .ok (some (hdr, body)) ∧ ∀ e ∈ ev, EvOk S.disp S.kkind hdr body s.srv.ctx e) := by
  simp only [serve] at h
  split at h
  · rename_i hc
    have hp : s.pending = [] := List.length_eq_zero_iff.mp hc.2
    split at h
    · cases h
    · rename_i b hb
      rcases take_cases b with e | ⟨hdr, body, e⟩
      · simp only [server_run, e, Exec.ok_bind] at h
        cases h
        exact ⟨b, true, s.srv, hb, rfl, hp, [], by simp, .inl rfl⟩
      · simp only [server_run, e, Exec.ok_bind] at h
        cases hh : handle S.env S.disp S.kkind hdr body s.srv with
        | panic => rw [hh] at h; simp at h
        | ok q =>
          obtain ⟨r, srv⟩ := q
          rw [hh] at h
          simp only [Exec.ok_bind] at h
          obtain ⟨ev, h1, h2⟩ := handle_events hh
          have fin : ∀ up, some (s.served S up srv) = some s' → _ := fun up (h : some (s.served S up srv) = some s') =>
            (⟨b, up, srv, hb, (Option.some.inj h).symm, hp, ev, h1, .inr ⟨hdr, body, e, h2⟩⟩ :
              ∃ b up srv, s.client.tx[s.taken]? = some b ∧ s' = s.served S up srv ∧ s.pending = [] ∧
              ∃ ev, srv.log = s.srv.log ++ ev ∧ (ev = [] ∨ ∃ hdr body, VarHeader.take_from_slice b = .ok (some (hdr, body)) ∧
                ∀ e ∈ ev, EvOk S.disp S.kkind hdr body s.srv.ctx e))
          cases r with
          | none => exact fin _ h
          | some x =>
            simp only at h
            cases hk : S.tx_kind x with
            | ConnectionClosed => rw [hk] at h; exact fin _ h
            | Other => rw [hk] at h; exact fin _ h
            | Timeout => rw [hk] at h; exact fin _ h
  · cases h

end PRpc
