import Verif.Lemmas.UsbServer
import Verif.Spec.UsbAnswer
/-! Helper lemmas for C86. -/

namespace PRpc

open Spec

variable {V E SC Ctx : Type}

/-- The sends of a log: what was refused, what was not, and the latter again. -/
inductive Thinned (cap : Nat) (enc : Body V → Ser) : List (Event V E SC) → List (Frame V) → Prop where
  | nil : Thinned cap enc [] []
  | keep {o f ev frs} : Sendable cap enc f → Thinned cap enc ev frs → Thinned cap enc (.sent o f none :: ev) (f :: frs)
  | drop {o f e ev frs} : TooBig cap enc f → Thinned cap enc ev frs → Thinned cap enc (.sent o f (some e) :: ev) frs
  | ran {r n h a ev frs} : Thinned cap enc ev frs → Thinned cap enc (.ran r n h a :: ev) frs
  | spawned {t k ev frs} : Thinned cap enc ev frs → Thinned cap enc (.spawned t k :: ev) frs

theorem Thinned.append {cap : Nat} {enc : Body V → Ser} {a b : List (Event V E SC)} {fa fb : List (Frame V)} (ha : Thinned cap enc a fa)
    (hb : Thinned cap enc b fb) : Thinned cap enc (a ++ b) (fa ++ fb) := by
  induction ha with
  | nil => exact hb
  | keep h _ ih => exact .keep h ih
  | drop h _ ih => exact .drop h ih
  | ran _ ih => exact .ran ih
  | spawned _ ih => exact .spawned ih

theorem Thinned.delivered {cap : Nat} {enc : Body V → Ser} {a : List (Event V E SC)} {fa : List (Frame V)} (ha : Thinned cap enc a fa) :
    Spec.delivered a = fa := by
  induction ha with
  | nil => rfl
  | keep h _ ih => simp only [Spec.delivered, ih]
  | drop h _ ih => simp only [Spec.delivered, ih]
  | ran _ ih => simp only [Spec.delivered, ih]
  | spawned _ ih => simp only [Spec.delivered, ih]

/-- The transport as `MustAnswer` has it. -/
structure Refuses (env : Env V E SC) (cap : Nat) (enc : Body V → Ser) : Prop where
  sends : ∀ log fr, Sendable cap enc fr → env.send log fr = none
  refuses : ∀ log fr, TooBig cap enc fr → ∃ e, env.send log fr = some e

/-- The loop over the schema items. -/
theorem publish_reported {env : Env V E SC} {D : Dispatcher V E SC Ctx} {cap : Nat} {enc : Body V → Ser} (henv : Refuses env cap enc)
    {i : Nat} {ds : List SchemaData} {frs : List (Frame V)} {k : Nat} (h : Reported D cap enc i ds frs k) (c : Nat)
    (s : St V E SC Ctx) (hov : env.overflow_checks = true → i + ds.length ≤ 65535 ∧ c + ds.length ≤ 4294967295) :
    ∃ ev, publish_loop env D.std D.n ds (BitVec.ofNat 16 i) (BitVec.ofNat 32 c) s =
      .ok (BitVec.ofNat 16 (i + ds.length), BitVec.ofNat 32 (c + k), ⟨s.ctx, s.log ++ ev⟩) ∧ Thinned cap enc ev frs := by
  have hinc : ∀ (i : Nat), (env.overflow_checks = true → i + 1 ≤ 65535) → inc_u16 env.overflow_checks (BitVec.ofNat 16 i) = .ok (BitVec.ofNat 16 (i + 1)) := by
    intro i hi
    unfold inc_u16
    rw [if_neg, BitVec.ofNat_add]
    intro ab
    obtain ⟨a, b⟩ := Bool.and_eq_true_iff.mp ab
    have := hi a
    have := congrArg BitVec.toNat (eq_of_beq b)
    simp only [BitVec.toNat_ofNat] at this
    omega
  have hinc32 : ∀ (i : Nat), (env.overflow_checks = true → i + 1 ≤ 4294967295) → inc_u32 env.overflow_checks (BitVec.ofNat 32 i) = .ok (BitVec.ofNat 32 (i + 1)) := by
    intro i hi
    unfold inc_u32
    rw [if_neg, BitVec.ofNat_add]
    intro ab
    obtain ⟨a, b⟩ := Bool.and_eq_true_iff.mp ab
    have := hi a
    have := congrArg BitVec.toNat (eq_of_beq b)
    simp only [BitVec.toNat_ofNat] at this
    omega
  induction h generalizing c s with
  | nil => exact ⟨[], by simp [publish_loop], .nil⟩
  | @sent i d ds fr frs k h1 h2 _ ih =>
    have e : fr = schemaFrame D.std D.n (BitVec.ofNat 16 i) d := isMsg_eq h1
    subst e
    have hs := henv.sends s.log _ h2
    obtain ⟨ev, e1, e2⟩ := ih c ⟨s.ctx, s.log ++ [.sent .dispatcher (schemaFrame D.std D.n (BitVec.ofNat 16 i) d) none]⟩
      (fun o => by have := hov o; simp only [List.length_cons] at this; omega)
    refine ⟨.sent .dispatcher (schemaFrame D.std D.n (BitVec.ofNat 16 i) d) none :: ev, ?_, .keep h2 e2⟩
    rw [publish_loop_cons, hs]
    simp only [count_err, Option.isSome_none, Bool.false_eq_true, if_false, Exec.ok_bind]
    rw [hinc i (fun o => by have := hov o; simp only [List.length_cons] at this; omega), Exec.ok_bind, e1]
    simp only [List.length_cons, List.append_assoc, List.cons_append, List.nil_append]
    rw [show i + 1 + ds.length = i + (ds.length + 1) by omega]
  | @lost i d ds fr frs k h1 h2 _ ih =>
    have e : fr = schemaFrame D.std D.n (BitVec.ofNat 16 i) d := isMsg_eq h1
    subst e
    obtain ⟨x, hs⟩ := henv.refuses s.log _ h2
    obtain ⟨ev, e1, e2⟩ := ih (c + 1) ⟨s.ctx, s.log ++ [.sent .dispatcher (schemaFrame D.std D.n (BitVec.ofNat 16 i) d) (some x)]⟩
      (fun o => by have := hov o; simp only [List.length_cons] at this; omega)
    refine ⟨.sent .dispatcher (schemaFrame D.std D.n (BitVec.ofNat 16 i) d) (some x) :: ev, ?_, .drop h2 e2⟩
    rw [publish_loop_cons, hs]
    simp only [count_err, Option.isSome_some, if_true]
    rw [hinc32 c (fun o => by have := hov o; simp only [List.length_cons] at this; omega), Exec.ok_bind,
      hinc i (fun o => by have := hov o; simp only [List.length_cons] at this; omega), Exec.ok_bind, e1]
    simp only [List.length_cons, List.append_assoc, List.cons_append, List.nil_append]
    rw [show i + 1 + ds.length = i + (ds.length + 1) by omega, show c + 1 + k = c + (k + 1) by omega]

/-- The server answers what it has to. -/
theorem must_answer_run {env : Env V E SC} {D : Dispatcher V E SC Ctx} {RE : Type} {tx_kind : E → WireTxErrorKind}
    {rx_kind : RE → WireRxErrorKind} {cap : Nat} {enc : Body V → Ser} (henv : Refuses env cap enc)
    (hov : env.overflow_checks = true → (schemaMsgs D.device_map).length ≤ 65535)
    {c c' : Ctx} {bs : List Bytes} {frs : List (Frame V)} (h : MustAnswer D cap enc c bs frs c') (log : List (Event V E SC)) :
    ∃ ev, server_run (RE := RE) tx_kind rx_kind (handle env D D.n) (bs.map .frame) ⟨c, log⟩ = .ok (.waiting ⟨c', log ++ ev⟩) ∧
      Thinned cap enc ev frs := by
  have err : ∀ {hdr : VarHeader} {e : WireError} {fr : Frame V}, IsMsg D.n D.std.error hdr.seq_no (.err e) fr →
      fr = errFrame D.std D.n hdr.seq_no e := fun h => isMsg_eq h
  -- one frame is sent
  have one : ∀ {c c' : Ctx} {b : Bytes} {bs : List Bytes} {hdr : VarHeader} {body : Bytes} {fr : Frame V} {frs : List (Frame V)} (log : List (Event V E SC)),
      IsFrame b hdr body → Sendable cap enc fr → handle env D D.n hdr body ⟨c, log⟩ = .ok (sendOne env fr ⟨c, log⟩) →
      (∀ log, ∃ ev, server_run (RE := RE) tx_kind rx_kind (handle env D D.n) (bs.map .frame) ⟨c, log⟩ = .ok (.waiting ⟨c', log ++ ev⟩) ∧
        Thinned cap enc ev frs) →
      ∃ ev, server_run (RE := RE) tx_kind rx_kind (handle env D D.n) ((b :: bs).map .frame) ⟨c, log⟩ = .ok (.waiting ⟨c', log ++ ev⟩) ∧
        Thinned cap enc ev (fr :: frs) := by
    intro c c' b bs hdr body fr frs log h1 h2 h3 ih
    obtain ⟨ev, e1, e2⟩ := ih (log ++ [.sent .dispatcher fr none])
    refine ⟨.sent .dispatcher fr none :: ev, ?_, .keep h2 e2⟩
    have hs := henv.sends log _ h2
    rw [sendOne, hs] at h3
    rw [List.map_cons, run_frame_ok h1 _ h3 (fun _ q => by cases q), e1]
    simp
  induction h generalizing log with
  | nil => exact ⟨[], by simp [server_run], .nil⟩
  | @reply c c' b bs hdr body h f v fr frs h1 h2 h3 h4 h5 h6 _ ih =>
    have e := isMsg_eq h5
    subst e
    have hs := henv.sends (log ++ [.ran .endpoint h.name hdr v]) _ h6
    obtain ⟨ev, e1, e2⟩ := ih (log ++ [.ran .endpoint h.name hdr v, .sent .dispatcher (replyFrame D.n h.resp hdr.seq_no (.val (f c hdr v).1)) none])
    refine ⟨[.ran .endpoint h.name hdr v, .sent .dispatcher (replyFrame D.n h.resp hdr.seq_no (.val (f c hdr v).1)) none] ++ ev, ?_, .ran (.keep h6 e2)⟩
    · have hh : handle env D D.n hdr body ⟨c, log⟩ = .ok (none, ⟨(f c hdr v).2, log ++ [.ran .endpoint h.name hdr v,
          .sent .dispatcher (replyFrame D.n h.resp hdr.seq_no (.val (f c hdr v).1)) none]⟩) := by
        rw [handle_ep _ _ _ _ _ _ h h2, h4]
        have e : ep_arm env D D.n h hdr v ⟨c, log⟩ = reply_arm env D.std D.n h f hdr v ⟨c, log⟩ := by
          unfold ep_arm; rcases h3 with e | e <;> rw [e]
        simp only [e, reply_arm_eq, sendOne, hs]
        simp
      rw [List.map_cons, run_frame_ok h1 _ hh (fun _ q => by cases q), e1]
      simp
  | @replyTooBig c c' b bs hdr body h f v fr fr' frs h1 h2 h3 h4 h5 h6 h7 h8 _ ih =>
    have e := isMsg_eq h5
    have e' := err h7
    subst e e'
    obtain ⟨x, hs⟩ := henv.refuses (log ++ [.ran .endpoint h.name hdr v]) _ h6
    have hs' := fun log => henv.sends log _ h8
    obtain ⟨ev, e1, e2⟩ := ih (log ++ [.ran .endpoint h.name hdr v,
      .sent .dispatcher (replyFrame D.n h.resp hdr.seq_no (.val (f c hdr v).1)) (some x),
      .sent .dispatcher (errFrame D.std D.n hdr.seq_no .SerFailed) none])
    refine ⟨[.ran .endpoint h.name hdr v,
      .sent .dispatcher (replyFrame D.n h.resp hdr.seq_no (.val (f c hdr v).1)) (some x),
      .sent .dispatcher (errFrame D.std D.n hdr.seq_no .SerFailed) none] ++ ev, ?_, .ran (.drop h6 (.keep h8 e2))⟩
    · have hh : handle env D D.n hdr body ⟨c, log⟩ = .ok (none, ⟨(f c hdr v).2, log ++ [.ran .endpoint h.name hdr v,
          .sent .dispatcher (replyFrame D.n h.resp hdr.seq_no (.val (f c hdr v).1)) (some x),
          .sent .dispatcher (errFrame D.std D.n hdr.seq_no .SerFailed) none]⟩) := by
        rw [handle_ep _ _ _ _ _ _ h h2, h4]
        have e : ep_arm env D D.n h hdr v ⟨c, log⟩ = reply_arm env D.std D.n h f hdr v ⟨c, log⟩ := by
          unfold ep_arm; rcases h3 with e | e <;> rw [e]
        simp only [e, reply_arm_eq, sendOne, hs, hs']
        simp
      rw [List.map_cons, run_frame_ok h1 _ hh (fun _ q => by cases q), e1]
      simp
  | @undecodable c c' b bs hdr body h fr frs h1 h2 h3 h4 h5 _ ih =>
    refine one log h1 h5 ?_ ih
    rw [handle_ep _ _ _ _ _ _ h h2, h3, err h4]
  | @ping c c' b bs hdr body v fr frs h1 h2 h3 h4 h5 h6 _ ih =>
    refine one log h1 h6 ?_ ih
    rw [handle_ping _ _ _ _ _ _ h2 h3, h4, isMsg_eq h5]
  | @pingUndecodable c c' b bs hdr body fr frs h1 h2 h3 h4 h5 h6 _ ih =>
    refine one log h1 h6 ?_ ih
    rw [handle_ping _ _ _ _ _ _ h2 h3, h4, err h5]
  | @schemas c c' b bs hdr body items k fr frs h1 h2 h3 h4 h5 h6 h7 _ ih =>
    obtain ⟨ev1, p1, p2⟩ := publish_reported henv h5 0 ⟨c, log⟩ (fun o => by have := hov o; omega)
    have hs := henv.sends (log ++ ev1) _ h7
    obtain ⟨ev, e1, e2⟩ := ih (log ++ ev1 ++ [.sent .dispatcher fr none])
    refine ⟨ev1 ++ .sent .dispatcher fr none :: ev, ?_, p2.append (.keep h7 e2)⟩
    have hh : handle env D D.n hdr body ⟨c, log⟩ = .ok (none, ⟨c, log ++ ev1 ++ [.sent .dispatcher fr none]⟩) := by
      rw [handle_schemas _ _ _ _ _ _ h2 h3 h4, send_all_schemas_eq, show (0#16) = BitVec.ofNat 16 0 from rfl,
        show (0#32) = BitVec.ofNat 32 0 from rfl, p1, Exec.ok_bind]
      rw [isMsg_eq h6] at hs ⊢
      simp only [Nat.zero_add] at hs ⊢
      rw [sendOne, hs]
    rw [List.map_cons, run_frame_ok h1 _ hh (fun _ q => by cases q), e1]
    simp
  | @unknown c c' b bs hdr body fr frs h1 h2 h3 h4 h5 _ ih =>
    refine one log h1 h5 ?_ ih
    rw [handle_unknown _ _ _ _ _ _ h2 h3, err h4]
  | @tooShort c c' b bs hdr body fr frs h1 h2 h3 h4 _ ih =>
    refine one log h1 h4 ?_ ih
    rw [handle_short _ _ _ _ _ _ h2, err h3]
  | @topic c c' b bs hdr body t f v frs h1 h2 h3 h4 _ ih =>
    obtain ⟨ev, e1, e2⟩ := ih (log ++ [.ran .topic t.name hdr v])
    refine ⟨[.ran .topic t.name hdr v] ++ ev, ?_, .ran e2⟩
    rw [List.map_cons, run_frame_ok h1 _ (handle_tp _ _ _ _ _ _ t h2) (fun _ q => by cases q), h4]
    simp only [tp_arm, h3, St.note]
    rw [e1]
    simp
  | @topicSpawned c c' b bs hdr body t v frs h1 h2 h3 h4 _ ih =>
    obtain ⟨ev, e1, e2⟩ := ih (log ++ [.spawned ⟨.topic, t.name, (D.spawn_ctxt c).1, hdr, v⟩
      (env.spawn log ⟨.topic, t.name, (D.spawn_ctxt c).1, hdr, v⟩)])
    refine ⟨[.spawned ⟨.topic, t.name, (D.spawn_ctxt c).1, hdr, v⟩
      (env.spawn log ⟨.topic, t.name, (D.spawn_ctxt c).1, hdr, v⟩)] ++ ev, ?_, .spawned e2⟩
    rw [List.map_cons, run_frame_ok h1 _ (handle_tp _ _ _ _ _ _ t h2) (fun _ q => by cases q), h4]
    simp only [tp_arm, h3, St.note]
    rw [e1]
    simp
  | @topicUndecodable c c' b bs hdr body t frs h1 h2 h3 _ ih =>
    obtain ⟨ev, e1, e2⟩ := ih log
    refine ⟨ev, ?_, e2⟩
    rw [List.map_cons, run_frame_ok h1 _ (handle_tp _ _ _ _ _ _ t h2) (fun _ q => by cases q), h3]
    exact e1
  | @malformed c c' b bs frs h1 _ ih =>
    obtain ⟨ev, e1, e2⟩ := ih log
    refine ⟨ev, ?_, e2⟩
    rw [List.map_cons, run_malformed h1]
    exact e1

/-- A frame that cannot be sent is refused. -/
theorem usb_send_refused {L : UsbLink V} (hw : 0 < L.w) (hcap : L.buf.length < 2 ^ (8 * L.w)) (h : Harmless L)
    (spawn : List (Event V WireTxErrorKind SC) → Task V SC → Bool) (oc : Bool)
    (log : List (Event V WireTxErrorKind SC)) (f : Frame V) (hf : TooBig L.buf.length L.enc f) :
    (usb_env L spawn oc).send log f = some .Other := by
  cases hr : eusb_run L.w L.logging (usb_ops L 0 (handed log ++ [f])) (EUsbTx.new L.buf) with
  | panic => exact absurd hr (usb_ops_no_panic hw hcap h _)
  | ok y =>
    obtain ⟨rs', t'⟩ := y
    have hr0 := hr
    have htx := usb_ops_texts h (handed log ++ [f])
    rw [usb_ops_snoc, ← List.append_assoc] at hr htx
    rw [eusb_run_append] at hr
    cases g1 : eusb_run L.w L.logging (usb_ops L 0 (handed log) ++ L.others (0 + (handed log).length)) (EUsbTx.new L.buf) with
    | panic => rw [g1] at hr; cases hr
    | ok y =>
      obtain ⟨ra, ta⟩ := y
      have hc := eusb_run_cap L.w hw L.logging L.buf.length hcap _ (fun x hx => htx x (List.mem_append_left _ hx)) _ rfl 0 rfl g1
      rw [g1, Exec.ok_bind] at hr
      obtain ⟨r, t2, e, _, _, h1, _⟩ := eusb_send_msg_spec (L.outs (0 + (handed log).length)) f.hdr (L.enc f.body) ta
      have hrO : r = .Other := (h1 (by rw [hc, ← layout_length]; exact hf)).1
      simp only [eusb_run, eusb_op, e, Exec.ok_bind, Exec.ok.injEq, Prod.mk.injEq] at hr
      simp only [usb_env, hr0, ← hr.1, hrO]
      simp [tx_error]

/-- The transmitter of a link on which all packets are written. -/
theorem usb_refuses {L : UsbLink V} (hw : 0 < L.w) (hcap : L.buf.length < 2 ^ (8 * L.w)) (h : Harmless L) (hok : ∀ i k, L.outs i k = .ok)
    (spawn : List (Event V WireTxErrorKind SC) → Task V SC → Bool) (oc : Bool) :
    Refuses (usb_env L spawn oc) L.buf.length L.enc :=
  ⟨fun log fr hf => usb_send_ok hw hcap h hok spawn oc log fr hf, fun log fr hf => ⟨_, usb_send_refused hw hcap h spawn oc log fr hf⟩⟩

/-- What gets to the endpoint is a history of sends of what can be sent. -/
theorem thinned_history {L : UsbLink V} (h0 : ∀ i, L.others i = []) {ev : List (Event V E SC)} {frs : List (Frame V)}
    (hv : Thinned L.buf.length L.enc ev frs) (i : Nat) (t : EUsbTx) (ht : t.tx_buf.length = L.buf.length) :
    ∃ (h : List (Bytes × (Nat → WriteOut))) (rs : List TxRes) (t' : EUsbTx),
      eusb_run L.w L.logging (usb_ops L i (handed ev)) t = .ok (rs, t') ∧ t'.ep = (send_history h t.ep).2 ∧
      h.map Prod.fst = frs.map (fun f => encOf f.hdr ++ (L.enc f.body).bytes) ∧ ∀ x ∈ h, ∃ j, x.2 = L.outs j := by
  induction hv generalizing i t with
  | nil => exact ⟨[], [], t, rfl, rfl, rfl, by simp⟩
  | @keep o f ev frs hs _ ih =>
    obtain ⟨r, t1, e, h1, _, _, h2⟩ := eusb_send_msg_spec (L.outs i) f.hdr (L.enc f.body) t
    have hfit : ¬ ((L.enc f.body).fails = true ∨ t.tx_buf.length < encLen f.hdr + (L.enc f.body).bytes.length) := by
      have := hs.fits
      rw [layout_length] at this
      rw [ht, hs.ser]
      rintro (q | q)
      · cases q
      · omega
    have h3 := h2 hfit
    obtain ⟨h, rs, t', g1, g2, g3, g4⟩ := ih (i + 1) t1 (by omega)
    have h4 : t1.ep = (send_all (L.outs i) (encOf f.hdr ++ (L.enc f.body).bytes) t.ep).2 := congrArg Prod.snd h3
    refine ⟨(encOf f.hdr ++ (L.enc f.body).bytes, L.outs i) :: h, r :: rs, t', ?_, ?_, by simp [g3], ?_⟩
    · simp only [handed, usb_ops, h0, List.nil_append, eusb_run, eusb_op, e, Exec.ok_bind, g1]
    · rw [g2]; simp only [send_history, h4]
    · intro x hx
      rcases List.mem_cons.mp hx with rfl | hx
      · exact ⟨i, rfl⟩
      · exact g4 x hx
  | @drop o f e0 ev frs hs _ ih =>
    obtain ⟨r, t1, e, h1, _, h2, _⟩ := eusb_send_msg_spec (L.outs i) f.hdr (L.enc f.body) t
    have h3 := (h2 (by rw [ht, ← layout_length]; exact hs)).2
    obtain ⟨h, rs, t', g1, g2, g3, g4⟩ := ih (i + 1) t1 (by omega)
    refine ⟨h, r :: rs, t', ?_, by rw [g2, h3], g3, g4⟩
    simp only [handed, usb_ops, h0, List.nil_append, eusb_run, eusb_op, e, Exec.ok_bind, g1]
  | ran _ ih => exact ih i t ht
  | spawned _ ih => exact ih i t ht

/-- The first row that fits, if any. -/
theorem first_row {α : Type} (p : α → Prop) (l : List α) :
    (∃ pre x post, l = pre ++ x :: post ∧ p x ∧ ∀ y ∈ pre, ¬ p y) ∨ ∀ x ∈ l, ¬ p x := by
  induction l with
  | nil => exact .inr (by simp)
  | cons a l ih =>
    by_cases ha : p a
    · exact .inl ⟨[], a, l, rfl, ha, by simp⟩
    · rcases ih with ⟨pre, x, post, rfl, h1, h2⟩ | h
      · refine .inl ⟨a :: pre, x, post, rfl, h1, fun y hy => ?_⟩
        rcases List.mem_cons.mp hy with rfl | hy
        · exact ha
        · exact h2 y hy
      · refine .inr fun x hx => ?_
        rcases List.mem_cons.mp hx with rfl | hx
        · exact ha
        · exact h x hx

/-- What a frame can be for. -/
theorem frame_for (D : Dispatcher V E SC Ctx) (hdr : VarHeader) :
    ¬ LongEnough D hdr ∨
    LongEnough D hdr ∧ (rxShort D hdr = short (keyLen D.n) D.std.ping_req ∨
      rxShort D hdr ≠ short (keyLen D.n) D.std.ping_req ∧ rxShort D hdr = short (keyLen D.n) D.std.schemas_req ∨
      (∃ h ∈ D.eps, ForEndpoint D hdr h) ∨ (∃ t ∈ D.tps, ForTopic D hdr t) ∨
      ∀ q ∈ handledKeys D, rxShort D hdr ≠ short (keyLen D.n) q) := by
  by_cases hl : LongEnough D hdr
  · refine .inr ⟨hl, ?_⟩
    by_cases hp : rxShort D hdr = short (keyLen D.n) D.std.ping_req
    · exact .inl hp
    · by_cases hs : rxShort D hdr = short (keyLen D.n) D.std.schemas_req
      · exact .inr (.inl ⟨hp, hs⟩)
      · rcases first_row (fun h : EpHandler V Ctx => rxShort D hdr = short (keyLen D.n) h.req) D.eps with ⟨pre, h, post, e, h1, h2⟩ | he
        · exact .inr (.inr (.inl ⟨h, by rw [e]; simp, hl, ⟨hp, hs⟩, h1, pre, post, e, h2⟩))
        · rcases first_row (fun t : TpHandler V E Ctx => rxShort D hdr = short (keyLen D.n) t.key) D.tps with ⟨pre, t, post, e, h1, h2⟩ | ht
          · exact .inr (.inr (.inr (.inl ⟨t, by rw [e]; simp, hl, ⟨hp, hs⟩, he, h1, pre, post, e, h2⟩)))
          · refine .inr (.inr (.inr (.inr fun q hq => ?_)))
            simp only [handledKeys, List.mem_append, List.mem_cons, List.not_mem_nil, or_false, List.mem_map] at hq
            rcases hq with ((rfl | rfl) | ⟨h, hh, rfl⟩) | ⟨t, hh, rfl⟩
            · exact hp
            · exact hs
            · exact he h hh
            · exact ht t hh
  · exact .inl hl

theorem isMsg_replyFrame (n : VarKeyKind) (key : Key) (seq : VarSeq) (b : Body V) : IsMsg n key seq b (replyFrame n key seq b) :=
  ⟨(short_shrink n key).symm, rfl, rfl⟩

theorem layout_le (hdr : VarHeader) : (layout hdr).length ≤ 13 := by
  rw [layout_length]
  obtain ⟨k, s⟩ := hdr
  cases k <;> cases s <;> exact Nat.le_of_ble_eq_true rfl

theorem sendable_or_too_big {cap : Nat} (enc : Body V → Ser) (h : cap < 1024) (fr : Frame V) :
    Sendable cap enc fr ∨ TooBig cap enc fr := by
  cases hf : (enc fr.body).fails with
  | true => exact .inr (.inl hf)
  | false =>
    rcases Nat.lt_or_ge cap ((layout fr.hdr).length + (enc fr.body).bytes.length) with hl | hl
    · exact .inr (.inr hl)
    · exact .inl ⟨hf, hl, by omega⟩

end PRpc
