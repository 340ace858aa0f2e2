import Verif.Lemmas.Schemas
import Verif.Lemmas.Server
import Verif.Lemmas.UsbLink
import Verif.Lemmas.EUsbTx
import Verif.Props.UsbSend
import Verif.Model.UsbServer
import Verif.Spec.UsbServer
/-! Helper lemmas for C72: logs are faithful to their environment, and the transmitter's operations. -/

namespace PRpc

open Spec

variable {V E SC Ctx : Type}

/-! ### Logs -/

/-- Every outcome in the log is the one the environment gives after what is before it. -/
inductive Faithful (env : Env V E SC) : List (Event V E SC) → Prop where
  | nil : Faithful env []
  | sent {log o f} : Faithful env log → Faithful env (log ++ [.sent o f (env.send log f)])
  | ran {log r n h a} : Faithful env log → Faithful env (log ++ [.ran r n h a])
  | spawned {log t} : Faithful env log → Faithful env (log ++ [.spawned t (env.spawn log t)])

theorem prog_faithful (env : Env V E SC) (p : Prog V E Ctx) (s : St V E SC Ctx) (h : Faithful env s.log) :
    Faithful env (p.run env s).log := by
  induction p generalizing s with
  | done c => exact h
  | send f k ih => exact ih _ (wire_send env .handler f s).2 (.sent h)

theorem publish_faithful (env : Env V E SC) (std : StdKeys) (kkind : VarKeyKind) (ds : List SchemaData) (mc : BitVec 16)
    (ec : BitVec 32) (s : St V E SC Ctx) (h : Faithful env s.log) {q} (hq : publish_loop env std kkind ds mc ec s = .ok q) :
    Faithful env q.2.2.log := by
  induction ds generalizing mc ec s with
  | nil => simp only [publish_loop, Exec.ok.injEq] at hq; subst hq; exact h
  | cons d ds ih =>
    rw [publish_loop_cons] at hq
    cases e1 : count_err env.overflow_checks (env.send s.log (schemaFrame std kkind mc d)) ec with
    | panic => rw [e1] at hq; cases hq
    | ok ec' =>
      rw [e1, Exec.ok_bind] at hq
      cases e2 : inc_u16 env.overflow_checks mc with
      | panic => rw [e2] at hq; cases hq
      | ok mc' =>
        rw [e2, Exec.ok_bind] at hq
        exact ih mc' ec' _ (.sent h) hq

theorem handle_faithful {env : Env V E SC} {D : Dispatcher V E SC Ctx} {kkind : VarKeyKind} {hdr : VarHeader} {body : Bytes}
    {s s' : St V E SC Ctx} {r : Option E} (h : Faithful env s.log) (hh : handle env D kkind hdr body s = .ok (r, s')) :
    Faithful env s'.log := by
  have one : ∀ {s s' : St V E SC Ctx} {f : Frame V}, Faithful env s.log → Exec.ok (sendOne env f s) = .ok (r, s') →
      Faithful env s'.log := by
    intro s s' f h he
    simp only [sendOne, Exec.ok.injEq, Prod.mk.injEq] at he
    obtain ⟨_, rfl⟩ := he
    exact .sent h
  rcases frame_cases D hdr with c | ⟨hl, c⟩ | ⟨hl, c, c'⟩ | ⟨g, hg, c⟩ | ⟨g, hg, c⟩ | ⟨hl, c⟩
  · rw [handle_short _ _ _ _ _ _ c] at hh; exact one h hh
  · rw [handle_ping _ _ _ _ _ _ hl c] at hh
    cases hd : D.ping_decode body with
    | none => rw [hd] at hh; exact one h hh
    | some v => rw [hd] at hh; exact one h hh
  · rw [handle_schemas _ _ _ _ _ _ hl c c', send_all_schemas_eq] at hh
    cases hp : publish_loop env D.std kkind (schemaMsgs D.device_map) 0#16 0#32 s with
    | panic => rw [hp] at hh; simp at hh
    | ok q =>
      rw [hp, Exec.ok_bind] at hh
      exact one (publish_faithful env _ _ _ _ _ _ h hp) hh
  · rw [handle_ep _ _ _ _ _ _ g c] at hh
    cases hd : g.decode body with
    | none => rw [hd] at hh; exact one h hh
    | some v =>
      rw [hd] at hh
      simp only at hh
      have reply : ∀ fn, Exec.ok (reply_arm env D.std kkind g fn hdr v s) = .ok (r, s') → Faithful env s'.log := by
        intro fn he
        rw [reply_arm_eq] at he
        simp only at he
        have h1 : Faithful env (s.log ++ [.ran .endpoint g.name hdr v]) := .ran h
        cases e : (sendOne env (replyFrame kkind g.resp hdr.seq_no (.val (fn s.ctx hdr v).1))
          (⟨(fn s.ctx hdr v).2, s.log ++ [.ran .endpoint g.name hdr v]⟩ : St V E SC Ctx)) with
        | mk x t =>
          have ht : Faithful env t.log := by
            simp only [sendOne, Prod.mk.injEq] at e
            rw [← e.2]
            exact .sent h1
          rw [e] at he
          cases x with
          | some y => exact one ht he
          | none => simp only [Exec.ok.injEq, Prod.mk.injEq] at he; rw [← he.2]; exact ht
      rw [ep_arm] at hh
      cases hf : g.flavor with
      | blocking fn => rw [hf] at hh; exact reply fn hh
      | async fn => rw [hf] at hh; exact reply fn hh
      | spawn =>
        rw [hf] at hh
        simp only [St.note, sender_error_eq] at hh
        split at hh
        · simp only [Exec.ok.injEq, Prod.mk.injEq] at hh; rw [← hh.2]; exact .spawned h
        · exact one (.spawned h) hh
  · rw [handle_tp _ _ _ _ _ _ g c] at hh
    simp only [Exec.ok.injEq, Prod.mk.injEq] at hh
    rw [← hh.2]
    cases hd : g.decode body with
    | none => exact h
    | some v =>
      simp only [tp_arm]
      cases g.flavor with
      | blocking f => exact .ran h
      | async f => exact prog_faithful env _ _ (.ran h)
      | spawn => exact .spawned h
  · rw [handle_unknown _ _ _ _ _ _ hl c] at hh; exact one h hh

theorem run_keeps {RE S : Type} {tx_kind : E → WireTxErrorKind} {rx_kind : RE → WireRxErrorKind}
    {hd : VarHeader → Bytes → S → Exec (Option E × S)} (P : S → Prop)
    (hP : ∀ hdr body s r s', P s → hd hdr body s = .ok (r, s') → P s') (rs : List (Rx RE)) (s : S) (hs : P s)
    {q : RunRes E RE S} (h : server_run tx_kind rx_kind hd rs s = .ok q) : P q.state := by
  induction rs generalizing s with
  | nil => simp only [server_run, Exec.ok.injEq] at h; subst h; exact hs
  | cons x rs ih =>
    cases x with
    | error e =>
      simp only [server_run] at h
      split at h
      · simp only [Exec.ok.injEq] at h; subst h; exact hs
      · exact ih s hs h
      · exact ih s hs h
    | frame b =>
      simp only [server_run] at h
      cases e : VarHeader.take_from_slice b with
      | panic => rw [e] at h; cases h
      | ok y =>
        rw [e, Exec.ok_bind] at h
        cases y with
        | none => exact ih s hs h
        | some y =>
          obtain ⟨hdr, body⟩ := y
          simp only at h
          cases e2 : hd hdr body s with
          | panic => rw [e2] at h; cases h
          | ok z =>
            obtain ⟨r, s'⟩ := z
            have hs' := hP _ _ _ _ _ hs e2
            rw [e2, Exec.ok_bind] at h
            simp only at h
            cases r with
            | none => exact ih s' hs' h
            | some e3 =>
              simp only at h
              split at h
              · simp only [Exec.ok.injEq] at h; subst h; exact hs'
              · exact ih s' hs' h
              · simp only [Exec.ok.injEq] at h; subst h; exact hs'

/-! ### Operations -/

theorem handed_append (a b : List (Event V E SC)) : handed (a ++ b) = handed a ++ handed b := by
  induction a with
  | nil => rfl
  | cons x xs ih => cases x <;> simp [handed, ih]

theorem sends_append (a b : List (Event V E SC)) : sends (a ++ b) = sends a ++ sends b := by
  induction a with
  | nil => rfl
  | cons x xs ih => cases x <;> simp [sends, ih]

theorem handed_sends (a : List (Event V E SC)) : (sends a).map Prod.fst = handed a := by
  induction a with
  | nil => rfl
  | cons x xs ih => cases x <;> simp [sends, handed, ih]

theorem usb_ops_snoc (L : UsbLink V) (i : Nat) (fs : List (Frame V)) (f : Frame V) :
    usb_ops L i (fs ++ [f]) = usb_ops L i fs ++
      (L.others (i + fs.length) ++ [(.send f.hdr (L.enc f.body), L.outs (i + fs.length))]) := by
  induction fs generalizing i with
  | nil => simp [usb_ops]
  | cons g fs ih =>
    simp only [List.cons_append, usb_ops, ih, List.length_cons, List.append_assoc, List.cons_append]
    rw [show i + 1 + fs.length = i + (fs.length + 1) by omega]

theorem eusb_run_append (w : Nat) (k : Key) (a b : List (TxOp × (Nat → WriteOut))) (t : EUsbTx) :
    eusb_run w k (a ++ b) t =
      (eusb_run w k a t >>= fun p => eusb_run w k b p.2 >>= fun q => .ok (p.1 ++ q.1, q.2)) := by
  induction a generalizing t with
  | nil =>
    simp only [List.nil_append, eusb_run, Exec.ok_bind]
    cases eusb_run w k b t <;> rfl
  | cons x a ih =>
    obtain ⟨op, o⟩ := x
    simp only [List.cons_append, eusb_run]
    cases e : eusb_op w k op o t with
    | panic => rfl
    | ok y =>
      simp only [Exec.ok_bind, ih]
      cases e2 : eusb_run w k a y.2 with
      | panic => rfl
      | ok z =>
        simp only [Exec.ok_bind]
        cases eusb_run w k b z.2 <;> rfl

theorem eusb_run_length {w : Nat} {k : Key} {ops : List (TxOp × (Nat → WriteOut))} {t t' : EUsbTx} {rs : List TxRes}
    (h : eusb_run w k ops t = .ok (rs, t')) : rs.length = ops.length := by
  induction ops generalizing t rs with
  | nil => simp only [eusb_run, Exec.ok.injEq, Prod.mk.injEq] at h; rw [← h.1]; rfl
  | cons x ops ih =>
    obtain ⟨op, o⟩ := x
    simp only [eusb_run] at h
    cases e : eusb_op w k op o t with
    | panic => rw [e] at h; cases h
    | ok y =>
      rw [e, Exec.ok_bind] at h
      cases e2 : eusb_run w k ops y.2 with
      | panic => rw [e2] at h; cases h
      | ok z =>
        rw [e2, Exec.ok_bind] at h
        simp only [Exec.ok.injEq, Prod.mk.injEq] at h
        rw [← h.1, List.length_cons, List.length_cons, ih (rs := z.1) (by rw [e2, ← h.2])]

theorem eusb_op_small {w : Nat} {k : Key} {op : TxOp} {o : Nat → WriteOut} {t t' : EUsbTx} {r : TxRes}
    (h : eusb_op w k op o t = .ok (r, t')) (hs : ∀ q ∈ t.ep.pkts, q.length ≤ 64) : ∀ q ∈ t'.ep.pkts, q.length ≤ 64 := by
  have msg : ∀ {hdr : VarHeader} {m : Ser} {t : EUsbTx}, eusb_send_msg o hdr m t = .ok (r, t') →
      (∀ q ∈ t.ep.pkts, q.length ≤ 64) → ∀ q ∈ t'.ep.pkts, q.length ≤ 64 := by
    intro hdr m t h hs
    obtain ⟨r', t'', e, _, _, h1, h2⟩ := eusb_send_msg_spec o hdr m t
    rw [e] at h
    simp only [Exec.ok.injEq, Prod.mk.injEq] at h
    obtain ⟨rfl, rfl⟩ := h
    by_cases hc : m.fails = true ∨ t.tx_buf.length < encLen hdr + m.bytes.length
    · rw [(h1 hc).2]; exact hs
    · have := congrArg Prod.snd (h2 hc)
      simp only at this
      rw [this]
      exact send_all_small _ _ _ hs
  cases op with
  | send hdr m => exact msg h hs
  | send_raw buf =>
    simp only [eusb_op, Exec.ok.injEq, Prod.mk.injEq] at h
    rw [← h.2]
    exact send_all_small _ _ _ hs
  | send_log_str kk s kept => exact msg (t := { t with log_seq := t.log_seq + 1#16 }) h hs
  | send_log_fmt kk ps fl =>
    simp only [eusb_op] at h
    cases e : log_fmt_buf w t.tx_buf (log_key k kk) t.log_seq ps fl with
    | panic => rw [e] at h; cases h
    | ok y =>
      obtain ⟨a, b⟩ := y
      rw [e, Exec.ok_bind] at h
      cases a
      · simp only [Exec.ok.injEq, Prod.mk.injEq] at h; rw [← h.2]; exact hs
      · simp only [Exec.ok.injEq, Prod.mk.injEq] at h; rw [← h.2]; exact send_all_small _ _ _ hs

theorem eusb_run_small {w : Nat} {k : Key} {ops : List (TxOp × (Nat → WriteOut))} {t t' : EUsbTx} {rs : List TxRes}
    (h : eusb_run w k ops t = .ok (rs, t')) (hs : ∀ q ∈ t.ep.pkts, q.length ≤ 64) : ∀ q ∈ t'.ep.pkts, q.length ≤ 64 := by
  induction ops generalizing t rs with
  | nil => simp only [eusb_run, Exec.ok.injEq, Prod.mk.injEq] at h; rw [← h.2]; exact hs
  | cons x ops ih =>
    obtain ⟨op, o⟩ := x
    simp only [eusb_run] at h
    cases e : eusb_op w k op o t with
    | panic => rw [e] at h; cases h
    | ok y =>
      rw [e, Exec.ok_bind] at h
      cases e2 : eusb_run w k ops y.2 with
      | panic => rw [e2] at h; cases h
      | ok z =>
        rw [e2, Exec.ok_bind] at h
        simp only [Exec.ok.injEq, Prod.mk.injEq] at h
        exact ih (rs := z.1) (by rw [e2, ← h.2]) (eusb_op_small e hs)

/-- The operations of a faithful log, as run: the outcomes shown are the transmitter's results. -/
theorem faithful_run (L : UsbLink V) (spawn : List (Event V WireTxErrorKind SC) → Task V SC → Bool) (oc : Bool)
    {log : List (Event V WireTxErrorKind SC)} (hf : Faithful (usb_env L spawn oc) log)
    (hp : ∀ fs, eusb_run L.w L.logging (usb_ops L 0 fs) (EUsbTx.new L.buf) ≠ .panic) :
    ∃ rs t, eusb_run L.w L.logging (usb_ops L 0 (handed log)) (EUsbTx.new L.buf) = .ok (rs, t) ∧
      List.Sublist ((sends log).map fun x => (TxOp.send x.1.hdr (L.enc x.1.body), x.2))
        (((usb_ops L 0 (handed log)).map Prod.fst).zip (rs.map outcome)) := by
  induction hf with
  | nil => exact ⟨[], _, rfl, by simp [sends]⟩
  | @sent log o f _ ih =>
    obtain ⟨rs, t, h1, h2⟩ := ih
    have hl := eusb_run_length h1
    have e0 : handed (log ++ [.sent o f ((usb_env L spawn oc).send log f)]) = handed log ++ [f] := by
      rw [handed_append]; rfl
    have e1 : sends (log ++ [.sent o f ((usb_env L spawn oc).send log f)]) =
        sends log ++ [(f, (usb_env L spawn oc).send log f)] := by
      rw [sends_append]; rfl
    rw [e0, e1]
    cases hr : eusb_run L.w L.logging (usb_ops L 0 (handed log ++ [f])) (EUsbTx.new L.buf) with
    | panic => exact absurd hr (hp _)
    | ok y =>
      obtain ⟨rs', t'⟩ := y
      have hr0 := hr
      rw [usb_ops_snoc, ← List.append_assoc, eusb_run_append] at hr
      cases g1 : eusb_run L.w L.logging (usb_ops L 0 (handed log) ++ L.others (0 + (handed log).length)) (EUsbTx.new L.buf) with
      | panic => rw [g1] at hr; cases hr
      | ok y =>
        obtain ⟨ra, ta⟩ := y
        rw [g1, Exec.ok_bind] at hr
        cases g2 : eusb_run L.w L.logging [(TxOp.send f.hdr (L.enc f.body), L.outs (0 + (handed log).length))] ta with
        | panic => rw [g2] at hr; cases hr
        | ok z =>
          obtain ⟨rb, tb⟩ := z
          rw [g2, Exec.ok_bind] at hr
          simp only [Exec.ok.injEq, Prod.mk.injEq] at hr
          obtain ⟨hr1, rfl⟩ := hr
          have hbl := eusb_run_length g2
          obtain ⟨r, rfl⟩ : ∃ r, rb = [r] := by
            match rb, hbl with
            | [r], _ => exact ⟨r, rfl⟩
          have g1' := g1
          rw [eusb_run_append, h1, Exec.ok_bind] at g1
          cases g3 : eusb_run L.w L.logging (L.others (0 + (handed log).length)) t with
          | panic => rw [g3] at g1; cases g1
          | ok u =>
            obtain ⟨ro, to⟩ := u
            rw [g3, Exec.ok_bind] at g1
            simp only [Exec.ok.injEq, Prod.mk.injEq] at g1
            obtain ⟨g1, rfl⟩ := g1
            have hol := eusb_run_length g3
            refine ⟨rs', tb, rfl, ?_⟩
            rw [usb_ops_snoc, ← hr1, ← g1]
            simp only [List.map_append, List.map_cons, List.map_nil, List.append_assoc]
            rw [List.zip_append (by simp [hl]), List.zip_append (by simp [hol])]
            refine List.Sublist.append h2 (List.Sublist.trans ?_ (List.sublist_append_right _ _))
            have : (usb_env L spawn oc).send log f = outcome r := by
              simp only [usb_env, hr0, ← hr1]
              cases r <;> simp [tx_error, outcome]
            rw [this]
            exact List.Sublist.refl _
  | @ran log r n h a _ ih =>
    have e0 : handed (log ++ [Event.ran r n h a]) = handed log := by rw [handed_append]; simp [handed]
    have e1 : sends (log ++ [Event.ran r n h a]) = sends log := by rw [sends_append]; simp [sends]
    rw [e0, e1]; exact ih
  | @spawned log t _ ih =>
    have e0 : handed (log ++ [Event.spawned t ((usb_env L spawn oc).spawn log t)]) = handed log := by
      rw [handed_append]; simp [handed]
    have e1 : sends (log ++ [Event.spawned t ((usb_env L spawn oc).spawn log t)]) = sends log := by
      rw [sends_append]; simp [sends]
    rw [e0, e1]; exact ih

/-- Operations keep the size of the transmit buffer. -/
theorem eusb_run_cap (w : Nat) (hw : 0 < w) (logging : Key) (cap : Nat) (hcap : cap < 2 ^ (8 * w))
    (ops : List (TxOp × (Nat → WriteOut))) (hs : ∀ x ∈ ops, ∀ kk s k, x.1 = .send_log_str kk s k → s.length < 2 ^ (8 * w))
    (t : EUsbTx) (ht : t.tx_buf.length = cap) (n : Nat) (hn : t.log_seq = BitVec.ofNat 16 n) {rs : List TxRes} {t' : EUsbTx}
    (h : eusb_run w logging ops t = .ok (rs, t')) : t'.tx_buf.length = cap := by
  induction ops generalizing t n rs with
  | nil => simp only [eusb_run, Exec.ok.injEq, Prod.mk.injEq] at h; rw [← h.2]; exact ht
  | cons x ops ih =>
    obtain ⟨op, o⟩ := x
    obtain ⟨p1, p2⟩ := eusb_op_spec w hw logging op o t (by omega) n hn (hs (op, o) (List.mem_cons_self ..))
    simp only [eusb_run] at h
    by_cases hp : LogPanics w t.tx_buf.length op
    · rw [p1 hp] at h; cases h
    · obtain ⟨r, t1, e, q1, q2, _⟩ := p2 hp
      rw [e, Exec.ok_bind] at h
      cases e2 : eusb_run w logging ops t1 with
      | panic => rw [e2] at h; cases h
      | ok z =>
        rw [e2, Exec.ok_bind] at h
        simp only [Exec.ok.injEq, Prod.mk.injEq] at h
        exact ih (fun x hx => hs x (List.mem_cons_of_mem _ hx)) t1 (by omega) _ q2 (rs := z.1) (by rw [e2, ← h.2])

theorem usb_ops_mem {L : UsbLink V} {i : Nat} {fs : List (Frame V)} {x : TxOp × (Nat → WriteOut)} (h : x ∈ usb_ops L i fs) :
    (∃ j, x ∈ L.others j) ∨ ∃ f ∈ fs, ∃ j, x = (.send f.hdr (L.enc f.body), L.outs j) := by
  induction fs generalizing i with
  | nil => cases h
  | cons g fs ih =>
    simp only [usb_ops, List.mem_append, List.mem_cons] at h
    rcases h with h | rfl | h
    · exact .inl ⟨i, h⟩
    · exact .inr ⟨g, List.mem_cons_self .., i, rfl⟩
    · rcases ih h with h | ⟨f, hf, h⟩
      · exact .inl h
      · exact .inr ⟨f, List.mem_cons_of_mem _ hf, h⟩

theorem usb_ops_texts {L : UsbLink V} (h : Harmless L) (fs : List (Frame V)) :
    ∀ x ∈ usb_ops L 0 fs, ∀ kk s k, x.1 = .send_log_str kk s k → s.length < 2 ^ (8 * L.w) := by
  intro x hx kk s k e
  rcases usb_ops_mem hx with ⟨j, hj⟩ | ⟨f, _, j, rfl⟩
  · exact (h j x hj).2 kk s k e
  · cases e

theorem usb_ops_no_panic {L : UsbLink V} (hw : 0 < L.w) (hcap : L.buf.length < 2 ^ (8 * L.w)) (h : Harmless L) (fs : List (Frame V)) :
    eusb_run L.w L.logging (usb_ops L 0 fs) (EUsbTx.new L.buf) ≠ .panic := by
  obtain ⟨_, h2⟩ := eusb_run_spec L.w hw L.logging L.buf.length hcap (usb_ops L 0 fs) (usb_ops_texts h fs) (EUsbTx.new L.buf) rfl 0 rfl
    txInv_new
  obtain ⟨rs, t, e, _⟩ := h2 fun x hx q => by
    rcases usb_ops_mem hx with ⟨j, hj⟩ | ⟨f, _, j, rfl⟩
    · exact (h j x hj).1 q
    · exact q
  rw [e]; exact fun e => by cases e

theorem layout_length (hdr : VarHeader) : (layout hdr).length = encLen hdr := by
  rw [← layout_encOf, List.length_map, encOf_length]

/-- A frame that can be sent is sent if all packets are written. -/
theorem usb_send_ok {L : UsbLink V} (hw : 0 < L.w) (hcap : L.buf.length < 2 ^ (8 * L.w)) (h : Harmless L)
    (hok : ∀ i k, L.outs i k = .ok) (spawn : List (Event V WireTxErrorKind SC) → Task V SC → Bool) (oc : Bool)
    (log : List (Event V WireTxErrorKind SC)) (f : Frame V) (hf : Sendable L.buf.length L.enc f) :
    (usb_env L spawn oc).send log f = none := by
  cases hr : eusb_run L.w L.logging (usb_ops L 0 (handed log ++ [f])) (EUsbTx.new L.buf) with
  | panic => exact absurd hr (usb_ops_no_panic hw hcap h _)
  | ok y =>
    obtain ⟨rs', t'⟩ := y
    have hr0 := hr
    have htx := usb_ops_texts h (handed log ++ [f])
    rw [usb_ops_snoc, ← List.append_assoc] at hr htx
    rw [eusb_run_append] at hr
    cases g1 : eusb_run L.w L.logging (usb_ops L 0 (handed log) ++ L.others (0 + (handed log).length)) (EUsbTx.new L.buf) with
    | panic => rw [g1] at hr; cases hr
    | ok y =>
      obtain ⟨ra, ta⟩ := y
      have hc := eusb_run_cap L.w hw L.logging L.buf.length hcap _ (fun x hx => htx x (List.mem_append_left _ hx)) _ rfl 0 rfl g1
      rw [g1, Exec.ok_bind] at hr
      obtain ⟨r, t2, e, _, _, _, h2⟩ := eusb_send_msg_spec (L.outs (0 + (handed log).length)) f.hdr (L.enc f.body) ta
      have hfit : ¬ ((L.enc f.body).fails = true ∨ ta.tx_buf.length < encLen f.hdr + (L.enc f.body).bytes.length) := by
        have := hf.fits
        rw [layout_length] at this
        rw [hc, hf.ser]
        rintro (q | q)
        · cases q
        · omega
      have h3 : (r, t2.ep) = _ := h2 hfit
      have hrOk : r = .Ok := by
        have := congrArg Prod.fst h3
        simp only at this
        rw [this]
        exact (Props.c68_usb_send_result _ _ _).1.mpr fun i _ => hok _ i
      simp only [eusb_run, eusb_op, e, Exec.ok_bind, Exec.ok.injEq, Prod.mk.injEq] at hr
      simp only [usb_env, hr0, ← hr.1, hrOk]
      simp [tx_error]

theorem isMsg_eq {n : VarKeyKind} {key : Key} {seq : VarSeq} {b : Body V} {fr : Frame V} (h : IsMsg n key seq b fr) :
    fr = replyFrame n key seq b := by
  obtain ⟨⟨k, sq⟩, bd⟩ := fr
  obtain ⟨h1, h2, h3⟩ := h
  simp only at h1 h2 h3
  subst h2 h3
  rw [replyFrame]
  congr 2
  exact keyBytes_inj (h1.trans (short_shrink n key))

/-- The server sends what it has to. -/
theorem answers_run {env : Env V E SC} {D : Dispatcher V E SC Ctx} {RE : Type} {tx_kind : E → WireTxErrorKind}
    {rx_kind : RE → WireRxErrorKind} {c c' : Ctx} {bs : List Bytes} {frs : List (Frame V)} (h : MustSend D c bs frs c')
    (hok : ∀ log, ∀ fr ∈ frs, env.send log fr = none) (log : List (Event V E SC)) :
    ∃ log', server_run (RE := RE) tx_kind rx_kind (handle env D D.n) (bs.map .frame) ⟨c, log⟩ = .ok (.waiting ⟨c', log'⟩) ∧
      handed log' = handed log ++ frs := by
  have err : ∀ {hdr : VarHeader} {e : WireError} {fr : Frame V}, IsMsg D.n D.std.error hdr.seq_no (.err e) fr →
      fr = errFrame D.std D.n hdr.seq_no e := fun h => isMsg_eq h
  induction h generalizing log with
  | nil => exact ⟨log, rfl, by simp⟩
  | @endpoint c c' b bs hdr body h f v fr frs h1 h2 h3 h4 h5 _ ih =>
    rw [isMsg_eq h5] at hok ⊢
    obtain ⟨log', e1, e2⟩ := ih (fun l x hx => hok l x (List.mem_cons_of_mem _ hx))
      (log ++ [.ran .endpoint h.name hdr v, .sent .dispatcher (replyFrame D.n h.resp hdr.seq_no (.val (f c hdr v).1)) none])
    have hh : handle env D D.n hdr body ⟨c, log⟩ = .ok (none, ⟨(f c hdr v).2, log ++ [.ran .endpoint h.name hdr v,
        .sent .dispatcher (replyFrame D.n h.resp hdr.seq_no (.val (f c hdr v).1)) none]⟩) := by
      rw [handle_ep _ _ _ _ _ _ h h2, h4]
      have e : ep_arm env D D.n h hdr v ⟨c, log⟩ = reply_arm env D.std D.n h f hdr v ⟨c, log⟩ := by
        unfold ep_arm; rcases h3 with e | e <;> rw [e]
      simp only [e, reply_arm_eq, sendOne, hok _ _ (List.mem_cons_self ..)]
      simp
    refine ⟨log', ?_, ?_⟩
    · rw [List.map_cons, run_frame_ok h1 _ hh (fun _ q => by cases q)]; exact e1
    · rw [e2, handed_append]; simp [handed]
  | @ping c c' b bs hdr body v fr frs h1 h2 h3 h4 h5 _ ih =>
    rw [isMsg_eq h5] at hok ⊢
    obtain ⟨log', e1, e2⟩ := ih (fun l x hx => hok l x (List.mem_cons_of_mem _ hx))
      (log ++ [.sent .dispatcher (replyFrame D.n D.std.ping_resp hdr.seq_no (.val v)) none])
    refine ⟨log', ?_, ?_⟩
    · rw [List.map_cons, run_frame_ok h1 _ (by rw [handle_ping _ _ _ _ _ _ h2 h3, h4])
        (fun e q => by rw [sendOne, hok _ _ (List.mem_cons_self ..)] at q; cases q)]
      simp only [sendOne, hok _ _ (List.mem_cons_self ..)]
      exact e1
    · rw [e2, handed_append]; simp [handed]
  | @undecodable c c' b bs hdr body h fr frs h1 h2 h3 h4 _ ih =>
    rw [err h4] at hok ⊢
    obtain ⟨log', e1, e2⟩ := ih (fun l x hx => hok l x (List.mem_cons_of_mem _ hx))
      (log ++ [.sent .dispatcher (errFrame D.std D.n hdr.seq_no .DeserFailed) none])
    refine ⟨log', ?_, ?_⟩
    · rw [List.map_cons, run_frame_ok h1 _ (by rw [handle_ep _ _ _ _ _ _ h h2, h3])
        (fun e q => by rw [sendOne, hok _ _ (List.mem_cons_self ..)] at q; cases q)]
      simp only [sendOne, hok _ _ (List.mem_cons_self ..)]
      exact e1
    · rw [e2, handed_append]; simp [handed]
  | @unknown c c' b bs hdr body fr frs h1 h2 h3 h4 _ ih =>
    rw [err h4] at hok ⊢
    obtain ⟨log', e1, e2⟩ := ih (fun l x hx => hok l x (List.mem_cons_of_mem _ hx))
      (log ++ [.sent .dispatcher (errFrame D.std D.n hdr.seq_no .UnknownKey) none])
    refine ⟨log', ?_, ?_⟩
    · rw [List.map_cons, run_frame_ok h1 _ (by rw [handle_unknown _ _ _ _ _ _ h2 h3])
        (fun e q => by rw [sendOne, hok _ _ (List.mem_cons_self ..)] at q; cases q)]
      simp only [sendOne, hok _ _ (List.mem_cons_self ..)]
      exact e1
    · rw [e2, handed_append]; simp [handed]
  | @tooShort c c' b bs hdr body fr frs h1 h2 h3 _ ih =>
    rw [err h3] at hok ⊢
    obtain ⟨log', e1, e2⟩ := ih (fun l x hx => hok l x (List.mem_cons_of_mem _ hx))
      (log ++ [.sent .dispatcher (errFrame D.std D.n hdr.seq_no .KeyTooSmall) none])
    refine ⟨log', ?_, ?_⟩
    · rw [List.map_cons, run_frame_ok h1 _ (by rw [handle_short _ _ _ _ _ _ h2])
        (fun e q => by rw [sendOne, hok _ _ (List.mem_cons_self ..)] at q; cases q)]
      simp only [sendOne, hok _ _ (List.mem_cons_self ..)]
      exact e1
    · rw [e2, handed_append]; simp [handed]
  | @topic c c' b bs hdr body t f v frs h1 h2 h3 h4 _ ih =>
    obtain ⟨log', e1, e2⟩ := ih hok (log ++ [.ran .topic t.name hdr v])
    refine ⟨log', ?_, ?_⟩
    · rw [List.map_cons, run_frame_ok h1 _ (handle_tp _ _ _ _ _ _ t h2) (fun _ q => by cases q), h4]
      simp only [tp_arm, h3, St.note]
      exact e1
    · rw [e2, handed_append]; simp [handed]
  | @topicUndecodable c c' b bs hdr body t frs h1 h2 h3 _ ih =>
    obtain ⟨log', e1, e2⟩ := ih hok log
    refine ⟨log', ?_, e2⟩
    rw [List.map_cons, run_frame_ok h1 _ (handle_tp _ _ _ _ _ _ t h2) (fun _ q => by cases q), h3]
    exact e1
  | @malformed c c' b bs frs h1 _ ih =>
    obtain ⟨log', e1, e2⟩ := ih hok log
    refine ⟨log', ?_, e2⟩
    rw [List.map_cons, run_malformed h1]
    exact e1

/-- Operations that are all plain sends that fit, as a history of sends. -/
theorem usb_ops_history {L : UsbLink V} (h0 : ∀ i, L.others i = []) (i : Nat) (fs : List (Frame V))
    (hf : ∀ f ∈ fs, Sendable L.buf.length L.enc f) (t : EUsbTx) (ht : t.tx_buf.length = L.buf.length) :
    ∃ (h : List (Bytes × (Nat → WriteOut))) (t' : EUsbTx),
      eusb_run L.w L.logging (usb_ops L i fs) t = .ok ((send_history h t.ep).1, t') ∧ t'.ep = (send_history h t.ep).2 ∧
      h.map Prod.fst = fs.map (fun f => encOf f.hdr ++ (L.enc f.body).bytes) ∧ ∀ x ∈ h, ∃ j, x.2 = L.outs j := by
  induction fs generalizing i t with
  | nil => exact ⟨[], t, rfl, rfl, rfl, by simp⟩
  | cons f fs ih =>
    obtain ⟨r, t1, e, h1, _, _, h2⟩ := eusb_send_msg_spec (L.outs i) f.hdr (L.enc f.body) t
    have hs := hf f (List.mem_cons_self ..)
    have hfit : ¬ ((L.enc f.body).fails = true ∨ t.tx_buf.length < encLen f.hdr + (L.enc f.body).bytes.length) := by
      have := hs.fits
      rw [layout_length] at this
      rw [ht, hs.ser]
      rintro (q | q)
      · cases q
      · omega
    have h3 := h2 hfit
    obtain ⟨h, t', g1, g2, g3, g4⟩ := ih (i + 1) (fun x hx => hf x (List.mem_cons_of_mem _ hx)) t1 (by omega)
    have h4 : t1.ep = (send_all (L.outs i) (encOf f.hdr ++ (L.enc f.body).bytes) t.ep).2 := congrArg Prod.snd h3
    have h5 : r = (send_all (L.outs i) (encOf f.hdr ++ (L.enc f.body).bytes) t.ep).1 := congrArg Prod.fst h3
    refine ⟨(encOf f.hdr ++ (L.enc f.body).bytes, L.outs i) :: h, t', ?_, ?_, by simp [g3], ?_⟩
    · simp only [usb_ops, h0, List.nil_append, eusb_run, eusb_op, e, Exec.ok_bind, g1]
      simp only [send_history, h4, h5]
    · rw [g2]; simp only [send_history, h4]
    · intro x hx
      rcases List.mem_cons.mp hx with rfl | hx
      · exact ⟨i, rfl⟩
      · exact g4 x hx

end PRpc
