import Verif.Lemmas.Causes
import Verif.Spec.Local
import Verif.Lemmas.SysClient
import Verif.Lemmas.ClientHist
import Verif.Lemmas.ClientProgress
import Verif.Lemmas.Server
/-! Helper lemmas for C80. -/

namespace PRpc

open Spec

theorem l_run_append {cfg : Cfg} {bound : Nat} (a b : List LLabel) (s : Local) :
    l_run cfg bound (a ++ b) s = (l_run cfg bound a s).bind (l_run cfg bound b) := by
  induction a generalizing s with
  | nil => rfl
  | cons l a ih =>
    simp only [List.cons_append, l_run]
    cases l_step cfg bound s l with
    | none => rfl
    | some t => exact ih t

theorem l_induct {cfg : Cfg} {bound : Nat} {s0 : Local} (P : List LLabel → Local → Prop) (h0 : P [] s0)
    (hs : ∀ ls s l t, l_run cfg bound ls s0 = some s → P ls s → l_step cfg bound s l = some t → P (ls ++ [l]) t) :
    ∀ ls s, l_run cfg bound ls s0 = some s → P ls s := by
  have main : ∀ (ls pre : List LLabel) (s1 s : Local), l_run cfg bound pre s0 = some s1 → P pre s1 → l_run cfg bound ls s1 = some s →
      P (pre ++ ls) s := by
    intro ls
    induction ls with
    | nil => intro pre s1 s _ h2 h3; cases h3; simpa using h2
    | cons l ls ih =>
      intro pre s1 s h1 h2 h3
      simp only [l_run] at h3
      split at h3
      · rename_i s2 h4
        have := ih (pre ++ [l]) s2 s (by rw [l_run_append, h1, Option.bind_some]; simp [l_run, h4]) (hs _ _ _ _ h1 h2 h4) h3
        simpa using this
      · cases h3
  intro ls s h
  have := main ls [] s0 s rfl h0 h
  simpa using this

theorem l_step_client {cfg : Cfg} {bound : Nat} {s t : Local} {l : LLabel} (h : l_step cfg bound s l = some t) :
    run cfg (clientStep l) s.client = some t.client := by
  have one : ∀ {l : Label} {c : Client}, step cfg s.client l = some c → run cfg [l] s.client = some c := by
    intro l c h; simp [run, h]
  cases l with
  | client l =>
    have : ∃ c, step cfg s.client l = some c ∧ t = { s with client := c } := by
      cases l <;> simp only [l_step] at h <;>
        first | (cases h; done) | (obtain ⟨c, h1, h2⟩ := Option.map_eq_some_iff.mp h; exact ⟨c, h1, h2.symm⟩)
    obtain ⟨c, h1, rfl⟩ := this
    exact one h1
  | srv_recv =>
    simp only [l_step] at h
    split at h
    · obtain ⟨⟨r, u⟩, h1, rfl⟩ := Option.map_eq_some_iff.mp h
      unfold srv_recv at h1
      repeat' split at h1
      all_goals (first | (cases h1; done) | (cases h1; rfl))
    · cases h
  | srv_send op =>
    simp only [l_step] at h
    split at h
    · obtain ⟨⟨r, u⟩, h1, rfl⟩ := Option.map_eq_some_iff.mp h
      unfold srv_send at h1
      repeat' split at h1
      all_goals (first | (cases h1; done) | (cases h1; rfl))
    · cases h
  | rx_check | tx_check | fatal | drop_rx | drop_tx =>
    simp only [l_step] at h
    repeat' split at h
    all_goals (first | (cases h; done) | (cases h; rfl))
  | rx_msg | rx_err | tx_ok | tx_err =>
    simp only [l_step] at h
    repeat' split at h
    all_goals first
      | (cases h; done)
      | (obtain ⟨c, h1, rfl⟩ := Option.map_eq_some_iff.mp h; exact one h1)

theorem clientRun_append (a b : List LLabel) : clientRun (a ++ b) = clientRun a ++ clientRun b := by simp [clientRun]

theorem l_run_client {cfg : Cfg} {bound : Nat} {ls : List LLabel} : ∀ {s t : Local}, l_run cfg bound ls s = some t →
    run cfg (clientRun ls) s.client = some t.client := by
  induction ls with
  | nil => intro s t h; cases h; rfl
  | cons l ls ih =>
    intro s t h
    simp only [l_run] at h
    split at h
    · rename_i u hu
      have : clientRun (l :: ls) = clientStep l ++ clientRun ls := rfl
      rw [this, run_append, l_step_client hu, Option.bind_some]
      exact ih h
    · cases h

theorem l_reachable {cfg : Cfg} {bound : Nat} {ls : List LLabel} {s : Local} (h : l_run cfg bound ls Local.new = some s) :
    Reachable cfg s.client := ⟨clientRun ls, l_run_client h⟩

/-- How a step of the client other than the end of a send moves the transmit worker. -/
theorem step_outPc {cfg : Cfg} {s s' : Client} {l : Label} (h : step cfg s l = some s') (hl : ∀ b, l ≠ .out_done b) :
    s'.tx = s.tx ∧ (s'.out_pc = s.out_pc ∨ s'.out_pc = .exited) ∨
      ∃ b, s.out_pc = .recv ∧ s'.out_pc = .sending b ∧ s'.tx = s.tx ++ [b] := by
  cases l with
  | out_done b => exact absurd rfl (hl b)
  | out_poll =>
    simp only [step, out_poll] at h
    repeat' split at h
    all_goals (first | (cases h; done) | (cases h; exact .inl ⟨rfl, .inr rfl⟩) | (cases h; exact .inl ⟨rfl, .inl rfl⟩))
  | out_recv =>
    simp only [step, out_recv] at h
    split at h
    · rename_i hp
      split at h
      · split at h
        · cases h; exact .inr ⟨_, hp.1, rfl, rfl⟩
        · cases h
      · split at h
        · cases h
        · cases h; exact .inl ⟨rfl, .inr rfl⟩
    · cases h
  | _ =>
    simp only [step, send_resp_begin, call_reg_ok, call_reg_err, call_send, call_take, publish_raw_begin, pub_send,
      in_poll, in_recv, in_lookup, in_full_send, in_full_timeout, after_lookup, in_wake,
      Client.set_phase, Client.drop_waits] at h
    repeat' split at h
    all_goals first
      | (cases h; done)
      | (cases h; exact .inl ⟨rfl, .inl rfl⟩)

/-- What the server makes of one message. -/
def decB (b : Bytes) : Except LocalErr RpcFrame :=
  match VarHeader.take_from_slice b with
  | .ok (some (hdr, body)) => .ok ⟨hdr, body⟩
  | _ => .error .BadFrame

/-- What the client makes of one message. -/
def frameB (b : Bytes) : Option RpcFrame :=
  match VarHeader.take_from_slice b with
  | .ok (some (hdr, body)) => some ⟨hdr, body⟩
  | _ => none

theorem heard_one (b : Bytes) : heard [.in_recv (some b)] = (frameB b).toList := by
  cases h : VarHeader.take_from_slice b with
  | panic => simp [heard, frameB, h]
  | ok r =>
    cases r with
    | none => simp [heard, frameB, h]
    | some r => obtain ⟨hdr, body⟩ := r; simp [heard, frameB, h]

theorem opFrame_bytes {op : SrvOp} {b : Bytes} (h : op.bytes = .ok b) : opFrame op = frameB b := by
  cases op with
  | raw x => cases h; rfl
  | reply seq key data =>
    simp only [SrvOp.bytes, RpcFrame.to_bytes, write_to_vec_eq, Exec.ok_bind] at h
    cases h
    simp only [opFrame, frameB]
    rw [take_enc]
  | publish seq key data =>
    simp only [SrvOp.bytes, RpcFrame.to_bytes, write_to_vec_eq, Exec.ok_bind] at h
    cases h
    simp only [opFrame, frameB]
    rw [take_enc]

theorem srvGot_snoc {cfg : Cfg} {bound : Nat} {l : LLabel} (ls : List LLabel) : ∀ {s0 s t : Local}, l_run cfg bound ls s0 = some s →
    l_step cfg bound s l = some t → srvGot cfg bound (ls ++ [l]) s0 =
      srvGot cfg bound ls s0 ++ (if l = .srv_recv then ((srv_recv s).map Prod.fst).toList else []) := by
  induction ls with
  | nil => intro s0 s t h1 h2; cases h1; simp [srvGot, h2]
  | cons x ls ih =>
    intro s0 s t h1 h2
    simp only [l_run] at h1
    split at h1
    · rename_i u hu
      simp only [List.cons_append, srvGot, hu]
      rw [ih h1 h2]
      simp
    · cases h1

theorem srvSaid_snoc {cfg : Cfg} {bound : Nat} {l : LLabel} (ls : List LLabel) : ∀ {s0 s t : Local}, l_run cfg bound ls s0 = some s →
    l_step cfg bound s l = some t → srvSaid cfg bound (ls ++ [l]) s0 =
      srvSaid cfg bound ls s0 ++ (match l with
        | .srv_send op => if (srv_send bound s op).map Prod.fst = some none then [op] else []
        | _ => []) := by
  induction ls with
  | nil => intro s0 s t h1 h2; cases h1; simp [srvSaid, h2]; cases l <;> rfl
  | cons x ls ih =>
    intro s0 s t h1 h2
    simp only [l_run] at h1
    split at h1
    · rename_i u hu
      simp only [List.cons_append, srvSaid, hu]
      rw [ih h1 h2]
      simp
    · cases h1

/-- The channel to the server: what the server took off it, what is on it, and what the transmit worker still holds make up what
the worker was given. -/
def UpInv (cfg : Cfg) (bound : Nat) (ls : List LLabel) (s : Local) : Prop :=
  ∃ (hb : List Bytes) (m : Nat), srvGot cfg bound ls Local.new = hb.map decB ++ List.replicate m (.error .TxClosed) ∧
    (0 < m → s.up = [] ∧ s.client.out_pc = .exited) ∧ hb <+: s.client.tx ∧ s.up.length ≤ bound ∧ (s.srv_rx = false → s.up = []) ∧
    (s.srv_rx = true → ∃ rest, hb ++ s.up ++ rest = s.client.tx ∧ rest.length ≤ 1 ∧ (s.client.out_pc = .recv → rest = []) ∧
      ∀ b, s.client.out_pc = .sending b → rest = [b])

theorem upInv_new (cfg : Cfg) (bound : Nat) : UpInv cfg bound [] Local.new := by
  refine ⟨[], 0, rfl, by simp, by simp, Nat.zero_le _, fun _ => rfl, fun _ => ⟨[], rfl, by simp, fun _ => rfl, ?_⟩⟩
  intro b h
  simp [Local.new, Client.new] at h

/-- A step that is not one of the channel to the server. -/
theorem upInv_same {cfg : Cfg} {bound : Nat} {ls : List LLabel} {s t : Local} {l : LLabel} (inv : UpInv cfg bound ls s)
    (hg : srvGot cfg bound (ls ++ [l]) Local.new = srvGot cfg bound ls Local.new) (h1 : t.up = s.up) (h2 : t.srv_rx = s.srv_rx)
    (hc : t.client.tx = s.client.tx ∧ (t.client.out_pc = s.client.out_pc ∨ t.client.out_pc = .exited) ∨
      ∃ b, s.client.out_pc = .recv ∧ t.client.out_pc = .sending b ∧ t.client.tx = s.client.tx ++ [b]) : UpInv cfg bound (ls ++ [l]) t := by
  obtain ⟨hb, m, i1, i2, i3, i4, i5, i6⟩ := inv
  rw [← h1] at i2 i4 i5 i6
  rw [← h2] at i5 i6
  rcases hc with ⟨c1, c2⟩ | ⟨b, c1, c2, c3⟩
  · refine ⟨hb, m, by rw [hg, i1], fun hm => ?_, by rw [c1]; exact i3, i4, i5, fun hr => ?_⟩
    · obtain ⟨a1, a2⟩ := i2 hm
      refine ⟨a1, ?_⟩
      rcases c2 with c2 | c2
      · rw [c2, a2]
      · exact c2
    · obtain ⟨rest, r1, r2, r3, r4⟩ := i6 hr
      refine ⟨rest, by rw [c1, r1], r2, ?_⟩
      rcases c2 with c2 | c2
      · rw [c2]; exact ⟨r3, r4⟩
      · rw [c2]; exact ⟨fun h => by simp at h, fun b h => by simp at h⟩
  · refine ⟨hb, m, by rw [hg, i1], fun hm => ?_, by rw [c3]; exact i3.trans (List.prefix_append _ _), i4, i5, fun hr => ?_⟩
    · have := (i2 hm).2; rw [c1] at this; simp at this
    · obtain ⟨rest, r1, r2, r3, r4⟩ := i6 hr
      have := r3 c1
      subst this
      refine ⟨[b], by rw [c3, ← r1]; simp, by simp, by rw [c2]; simp, ?_⟩
      rw [c2]
      intro b' h
      cases h; rfl

theorem srv_recv_some {s t : Local} {r : Except LocalErr RpcFrame} (h : srv_recv s = some (r, t)) :
    (∃ b q, s.up = b :: q ∧ r = decB b ∧ t = { s with up := q }) ∨
      (s.up = [] ∧ s.client.out_pc = .exited ∧ r = .error .TxClosed ∧ t = s) := by
  unfold srv_recv at h
  split at h
  · rename_i b q hu
    left
    refine ⟨b, q, hu, ?_⟩
    simp only [decB]
    split at h
    · rename_i hdr body ht; cases h; rw [ht]; exact ⟨rfl, rfl⟩
    · rename_i ht; cases h; rw [ht]; exact ⟨rfl, rfl⟩
    · cases h
  · split at h
    · rename_i hu he; cases h; exact .inr ⟨hu, he, rfl, rfl⟩
    · cases h

theorem srv_send_some {bound : Nat} {s t : Local} {op : SrvOp} {r : Option LocalErr} (h : srv_send bound s op = some (r, t)) :
    (∃ b, op.bytes = .ok b ∧ r = none ∧ s.rx_gone = false ∧ s.down.length < bound ∧ t = { s with down := s.down ++ [b] }) ∨
      (r = some .RxClosed ∧ s.rx_gone = true ∧ t = s) := by
  unfold srv_send at h
  split at h
  · cases h
  · rename_i b hb
    split at h
    · rename_i hg; cases h; exact .inr ⟨rfl, hg, rfl⟩
    · rename_i hg
      split at h
      · rename_i hl; cases h; exact .inl ⟨b, hb, rfl, by simpa using hg, hl, rfl⟩
      · cases h

theorem upInv_step {cfg : Cfg} {bound : Nat} {ls : List LLabel} {s t : Local} {l : LLabel} (hrun : l_run cfg bound ls Local.new = some s)
    (inv : UpInv cfg bound ls s) (h : l_step cfg bound s l = some t) : UpInv cfg bound (ls ++ [l]) t := by
  have hg := srvGot_snoc ls hrun h
  have same : ∀ (l' : Label) (c : Client), (∀ b, l' ≠ .out_done b) → step cfg s.client l' = some c → l ≠ .srv_recv → t.client = c →
      t.up = s.up → t.srv_rx = s.srv_rx → UpInv cfg bound (ls ++ [l]) t := by
    intro l' c h1 h2 h3 h4 h5 h6
    exact upInv_same inv (by rw [hg, if_neg h3, List.append_nil]) h5 h6 (by rw [h4]; exact step_outPc h2 h1)
  have idle : l ≠ .srv_recv → t.client = s.client → t.up = s.up → t.srv_rx = s.srv_rx → UpInv cfg bound (ls ++ [l]) t := by
    intro h3 h4 h5 h6
    exact upInv_same inv (by rw [hg, if_neg h3, List.append_nil]) h5 h6 (by rw [h4]; exact .inl ⟨rfl, .inl rfl⟩)
  cases l with
  | client l =>
    have : ∃ c, step cfg s.client l = some c ∧ t = { s with client := c } ∧ ∀ b, l ≠ .out_done b := by
      cases l <;> simp only [l_step] at h <;>
        first
          | (cases h; done)
          | (obtain ⟨c, h1, h2⟩ := Option.map_eq_some_iff.mp h; exact ⟨c, h1, h2.symm, by simp⟩)
    obtain ⟨c, h1, rfl, h3⟩ := this
    exact same l c h3 h1 (by simp) rfl rfl rfl
  | rx_check | tx_check | fatal | drop_tx =>
    simp only [l_step] at h
    repeat' split at h
    all_goals first
      | (cases h; done)
      | (cases h; exact idle (by simp) rfl rfl rfl)
  | rx_msg b =>
    simp only [l_step] at h
    repeat' split at h
    all_goals first
      | (cases h; done)
      | (obtain ⟨c, h1, rfl⟩ := Option.map_eq_some_iff.mp h; exact same _ c (by simp) h1 (by simp) rfl rfl rfl)
  | rx_err =>
    simp only [l_step] at h
    split at h
    · obtain ⟨c, h1, rfl⟩ := Option.map_eq_some_iff.mp h
      exact same _ c (by simp) h1 (by simp) rfl rfl rfl
    · cases h
  | tx_ok =>
    simp only [l_step] at h
    split at h
    · rename_i b hb
      split at h
      · rename_i hc
        obtain ⟨c, h1, rfl⟩ := Option.map_eq_some_iff.mp h
        obtain ⟨hb', m, i1, i2, i3, i4, i5, i6⟩ := inv
        obtain ⟨rest, r1, r2, r3, r4⟩ := i6 hc.2.1
        have := r4 b hb
        subst this
        have hc1 : c.out_pc = .recv ∧ c.tx = s.client.tx := by
          simp only [step, out_done] at h1
          split at h1
          · simp only [if_true] at h1; cases h1; exact ⟨rfl, rfl⟩
          · cases h1
        refine ⟨hb', m, by rw [hg, i1]; simp, fun hm => ?_, by rw [hc1.2]; exact i3, ?_, fun he => ?_, fun _ => ⟨[], ?_, by simp, fun _ => rfl, ?_⟩⟩
        · have := (i2 hm).2; rw [hb] at this; simp at this
        · simp only [List.length_append, List.length_singleton]; omega
        · have h2 := hc.2.1; rw [show s.srv_rx = false from he] at h2; cases h2
        · show hb' ++ (s.up ++ [b]) ++ [] = c.tx
          rw [hc1.2, ← r1]; simp
        · rw [hc1.1]; intro b' h; simp at h
      · cases h
    · cases h
  | tx_err =>
    simp only [l_step] at h
    split at h
    · obtain ⟨c, h1, rfl⟩ := Option.map_eq_some_iff.mp h
      have hc1 : c.out_pc = .exited ∧ c.tx = s.client.tx := by
        simp only [step, out_done] at h1
        split at h1
        · simp only [Bool.false_eq_true, if_false] at h1; cases h1; exact ⟨rfl, rfl⟩
        · cases h1
      exact upInv_same inv (by rw [hg, if_neg (by simp), List.append_nil]) rfl rfl (.inl ⟨hc1.2, .inr hc1.1⟩)
    · cases h
  | srv_send op =>
    simp only [l_step] at h
    split at h
    · obtain ⟨⟨r, u⟩, h1, rfl⟩ := Option.map_eq_some_iff.mp h
      rcases srv_send_some h1 with ⟨b, _, _, _, _, e⟩ | ⟨_, _, e⟩
      · have e : u = { s with down := s.down ++ [b] } := e
        subst e; exact idle (by simp) rfl rfl rfl
      · have e : u = s := e
        subst e; exact idle (by simp) rfl rfl rfl
    · cases h
  | drop_rx =>
    simp only [l_step] at h
    cases h
    obtain ⟨hb', m, i1, i2, i3, i4, i5, i6⟩ := inv
    exact ⟨hb', m, by rw [hg, i1]; simp, fun hm => ⟨rfl, (i2 hm).2⟩, i3, Nat.zero_le _, fun _ => rfl, fun e => by cases e⟩
  | srv_recv =>
    simp only [l_step] at h
    split at h
    · rename_i hrx
      obtain ⟨⟨r, u⟩, h1, rfl⟩ := Option.map_eq_some_iff.mp h
      obtain ⟨hb', m, i1, i2, i3, i4, i5, i6⟩ := inv
      rw [if_pos rfl, h1] at hg
      have hg : srvGot cfg bound (ls ++ [.srv_recv]) Local.new = srvGot cfg bound ls Local.new ++ [r] := hg
      obtain ⟨rest, r1, r2, r3, r4⟩ := i6 hrx
      rcases srv_recv_some h1 with ⟨b, q, e1, e2, e3⟩ | ⟨e1, e2, e3, e4⟩
      · have hm : m = 0 := by
          rcases Nat.eq_zero_or_pos m with h | h
          · exact h
          · have := (i2 h).1; rw [e1] at this; simp at this
        subst hm
        have e3 : u = { s with up := q } := e3
        subst e3
        have hup : hb' ++ [b] ++ q ++ rest = s.client.tx := by rw [← r1, e1]; simp
        refine ⟨hb' ++ [b], 0, by rw [hg, i1, e2]; simp, by simp, ?_, ?_, fun he => ?_, fun _ => ⟨rest, hup, r2, r3, r4⟩⟩
        · show hb' ++ [b] <+: s.client.tx
          rw [← hup, List.append_assoc]; exact List.prefix_append _ _
        · rw [e1] at i4; simp only [List.length_cons] at i4
          show q.length ≤ bound
          omega
        · have he : s.srv_rx = false := he
          rw [hrx] at he; cases he
      · have e4 : u = s := e4
        subst e4
        refine ⟨hb', m + 1, by rw [hg, i1, e3]; simp [List.replicate_succ'], fun _ => ⟨e1, e2⟩, i3, i4, i5, i6⟩
    · cases h

theorem l_upInv {cfg : Cfg} {bound : Nat} {ls : List LLabel} {s : Local} (h : l_run cfg bound ls Local.new = some s) :
    UpInv cfg bound ls s :=
  l_induct (UpInv cfg bound) (upInv_new cfg bound) (fun _ _ _ _ a b c => upInv_step a b c) ls s h

/-- The channel to the client: what the client received and what is on it make up what the server said. -/
def DownInv (cfg : Cfg) (bound : Nat) (ls : List LLabel) (s : Local) : Prop :=
  heard (clientRun ls) ++ s.down.filterMap frameB = (srvSaid cfg bound ls Local.new).filterMap opFrame ∧ s.down.length ≤ bound

theorem downInv_step {cfg : Cfg} {bound : Nat} {ls : List LLabel} {s t : Local} {l : LLabel} (hrun : l_run cfg bound ls Local.new = some s)
    (inv : DownInv cfg bound ls s) (h : l_step cfg bound s l = some t) : DownInv cfg bound (ls ++ [l]) t := by
  have hg := srvSaid_snoc ls hrun h
  obtain ⟨i1, i2⟩ := inv
  have idle : heard (clientStep l) = [] → (∀ op, l ≠ .srv_send op) → t.down = s.down → DownInv cfg bound (ls ++ [l]) t := by
    intro h1 h2 h3
    have hg' : srvSaid cfg bound (ls ++ [l]) Local.new = srvSaid cfg bound ls Local.new := by
      rw [hg]
      cases l with
      | srv_send op => exact absurd rfl (h2 op)
      | _ => exact List.append_nil _
    refine ⟨?_, by rw [h3]; exact i2⟩
    rw [clientRun_append, heard_append, hg', h3]
    have : clientRun [l] = clientStep l := by simp [clientRun]
    rw [this, h1, List.append_nil]; exact i1
  cases l with
  | client l =>
    have : ∃ c, step cfg s.client l = some c ∧ t = { s with client := c } ∧ ∀ b, l ≠ .in_recv b := by
      cases l <;> simp only [l_step] at h <;>
        first
          | (cases h; done)
          | (obtain ⟨c, h1, h2⟩ := Option.map_eq_some_iff.mp h; exact ⟨c, h1, h2.symm, by simp⟩)
    obtain ⟨c, h1, rfl, h3⟩ := this
    refine idle ?_ (by simp) rfl
    cases l with
    | in_recv r => exact absurd rfl (h3 r)
    | _ => rfl
  | rx_check | tx_check | fatal | drop_tx | drop_rx =>
    simp only [l_step] at h
    repeat' split at h
    all_goals first
      | (cases h; done)
      | (cases h; exact idle rfl (by simp) rfl)
  | rx_err | tx_err | tx_ok =>
    simp only [l_step] at h
    repeat' split at h
    all_goals first
      | (cases h; done)
      | (obtain ⟨c, h1, rfl⟩ := Option.map_eq_some_iff.mp h; exact idle rfl (by simp) rfl)
  | srv_recv =>
    simp only [l_step] at h
    split at h
    · obtain ⟨⟨r, u⟩, h1, rfl⟩ := Option.map_eq_some_iff.mp h
      rcases srv_recv_some h1 with ⟨b, q, _, _, e⟩ | ⟨_, _, _, e⟩
      · have e : u = { s with up := q } := e
        subst e; exact idle rfl (by simp) rfl
      · have e : u = s := e
        subst e; exact idle rfl (by simp) rfl
    · cases h
  | rx_msg b =>
    simp only [l_step] at h
    split at h
    · cases h
    · rename_i x q hq
      split at h
      · rename_i hx
        obtain ⟨c, h1, rfl⟩ := Option.map_eq_some_iff.mp h
        rw [hq] at i1 i2
        refine ⟨?_, ?_⟩
        · rw [clientRun_append, heard_append, hg]
          have : clientRun [LLabel.rx_msg b] = [.in_recv (some b)] := rfl
          rw [this, heard_one]
          show _ ++ q.filterMap frameB = (_ ++ []).filterMap opFrame
          rw [List.append_nil, ← i1, hx.2]
          cases hf : frameB b <;> simp [hf]
        · simp only [List.length_cons] at i2
          show q.length ≤ bound
          omega
      · cases h
  | srv_send op =>
    simp only [l_step] at h
    split at h
    · obtain ⟨⟨r, u⟩, h1, rfl⟩ := Option.map_eq_some_iff.mp h
      have hcr : clientRun (ls ++ [.srv_send op]) = clientRun ls := by rw [clientRun_append]; simp [clientRun, clientStep]
      simp only [h1] at hg
      rcases srv_send_some h1 with ⟨b, e1, e2, _, e4, e⟩ | ⟨e1, _, e⟩
      · have e : u = { s with down := s.down ++ [b] } := e
        subst e
        rw [e2] at hg
        have hg : srvSaid cfg bound (ls ++ [.srv_send op]) Local.new = srvSaid cfg bound ls Local.new ++ [op] := hg
        refine ⟨?_, ?_⟩
        · rw [hcr, hg]
          show _ ++ (s.down ++ [b]).filterMap frameB = _
          rw [List.filterMap_append, List.filterMap_append, ← i1, List.append_assoc]
          simp only [List.filterMap_cons, opFrame_bytes e1, List.filterMap_nil]
        · show (s.down ++ [b]).length ≤ bound
          simp only [List.length_append, List.length_singleton]; omega
      · have e : u = s := e
        subst e
        rw [e1] at hg
        have hg : srvSaid cfg bound (ls ++ [.srv_send op]) Local.new = srvSaid cfg bound ls Local.new ++ [] := hg
        rw [DownInv, hcr, hg, List.append_nil]
        exact ⟨i1, i2⟩
    · cases h

theorem l_downInv {cfg : Cfg} {bound : Nat} {ls : List LLabel} {s : Local} (h : l_run cfg bound ls Local.new = some s) :
    DownInv cfg bound ls s :=
  l_induct (DownInv cfg bound) ⟨rfl, Nat.zero_le _⟩ (fun _ _ _ _ a b c => downInv_step a b c) ls s h

/-- The simulated failure is for good, and after it no receive or send begins. -/
theorem l_step_failed {cfg : Cfg} {bound : Nat} {s t : Local} {l : LLabel} (h : l_step cfg bound s l = some t) (hf : s.failed = true) :
    t.failed = true ∧ (if Comes l then 1 else 0) + t.rx_began.toNat ≤ s.rx_began.toNat ∧
      (if Goes l then 1 else 0) + t.tx_began.toNat ≤ s.tx_began.toNat := by
  cases l with
  | client l =>
    have : ∃ c, t = { s with client := c } := by
      cases l <;> simp only [l_step] at h <;>
        first | (cases h; done) | (obtain ⟨c, _, h2⟩ := Option.map_eq_some_iff.mp h; exact ⟨c, h2.symm⟩)
    obtain ⟨c, rfl⟩ := this
    simp [Comes, Goes, hf]
  | rx_check | tx_check =>
    simp only [l_step, hf] at h
    repeat' split at h
    all_goals first
      | (cases h; done)
      | (rename_i hx; simp at hx; done)
  | fatal | drop_rx | drop_tx =>
    simp only [l_step] at h
    cases h
    simp [Comes, Goes, hf]
  | rx_msg b =>
    simp only [l_step] at h
    split at h
    · cases h
    · split at h
      · rename_i hx
        obtain ⟨c, _, rfl⟩ := Option.map_eq_some_iff.mp h
        simp [Comes, Goes, hf, hx.1]
      · cases h
  | rx_err | tx_err =>
    simp only [l_step] at h
    split at h
    · obtain ⟨c, _, rfl⟩ := Option.map_eq_some_iff.mp h
      simp [Comes, Goes, hf]
    · cases h
  | tx_ok =>
    simp only [l_step] at h
    split at h
    · split at h
      · rename_i hx
        obtain ⟨c, _, rfl⟩ := Option.map_eq_some_iff.mp h
        simp [Comes, Goes, hf, hx.1]
      · cases h
    · cases h
  | srv_recv =>
    simp only [l_step] at h
    split at h
    · obtain ⟨⟨r, u⟩, h1, rfl⟩ := Option.map_eq_some_iff.mp h
      rcases srv_recv_some h1 with ⟨b, q, _, _, e⟩ | ⟨_, _, _, e⟩
      · have e : u = { s with up := q } := e
        subst e; simp [Comes, Goes, hf]
      · have e : u = s := e
        subst e; simp [Comes, Goes, hf]
    · cases h
  | srv_send op =>
    simp only [l_step] at h
    split at h
    · obtain ⟨⟨r, u⟩, h1, rfl⟩ := Option.map_eq_some_iff.mp h
      rcases srv_send_some h1 with ⟨b, _, _, _, _, e⟩ | ⟨_, _, e⟩
      · have e : u = { s with down := s.down ++ [b] } := e
        subst e; simp [Comes, Goes, hf]
      · have e : u = s := e
        subst e; simp [Comes, Goes, hf]
    · cases h

theorem l_run_failed {cfg : Cfg} {bound : Nat} {ls : List LLabel} : ∀ {s t : Local}, l_run cfg bound ls s = some t → s.failed = true →
    t.failed = true ∧ ls.countP Comes + t.rx_began.toNat ≤ s.rx_began.toNat ∧
      ls.countP Goes + t.tx_began.toNat ≤ s.tx_began.toNat := by
  induction ls with
  | nil => intro s t h hf; cases h; simp [hf]
  | cons l ls ih =>
    intro s t h hf
    simp only [l_run] at h
    split at h
    · rename_i u hu
      obtain ⟨a1, a2, a3⟩ := l_step_failed hu hf
      obtain ⟨b1, b2, b3⟩ := ih h a1
      refine ⟨b1, ?_, ?_⟩
      · rw [List.countP_cons]; omega
      · rw [List.countP_cons]; omega
    · cases h

theorem run_holds {cfg : Cfg} {P : RpcFrame → Prop} {ls : List Label} : ∀ {s s' : Client}, run cfg ls s = some s' →
    (∀ f ∈ heard ls, P f) → Holds P s → Holds P s' := by
  induction ls with
  | nil => intro s s' h _ inv; cases h; exact inv
  | cons l ls ih =>
    intro s s' h hp inv
    simp only [run] at h
    split at h
    · rename_i u hu
      have hc : heard (l :: ls) = heard [l] ++ heard ls := heard_append [l] ls
      rw [hc] at hp
      refine ih h (fun f hf => hp f (List.mem_append.mpr (.inr hf))) (step_holds hu (fun b hdr body e1 e2 => ?_) inv)
      refine hp _ (List.mem_append.mpr (.inl ?_))
      subst e1
      rw [heard_one]
      simp [frameB, e2]
    · cases h

/-- Everything the client looked at is something the server said. -/
theorem l_holds {cfg : Cfg} {bound : Nat} {ls : List LLabel} {s : Local} (h : l_run cfg bound ls Local.new = some s) :
    Holds (fun f => ∃ op ∈ srvSaid cfg bound ls Local.new, opFrame op = some f) s.client := by
  refine run_holds (l_run_client h) (fun f hf => ?_) ⟨?_, ?_⟩
  · have hm : f ∈ (srvSaid cfg bound ls Local.new).filterMap opFrame := by
      rw [← (l_downInv h).1]
      exact List.mem_append.mpr (.inl hf)
    exact List.mem_filterMap.mp hm
  · intro f hf; simp [Local.new, Client.new, InPc.frame] at hf
  · intro f hf; simp [Local.new, Client.new] at hf

/-- How many more steps of its own the pair can take, at most. -/
def Local.rank (s : Local) : Nat :=
  2 * s.client.rank + 9 * s.down.length + (if s.rx_began then 0 else 1) + (if s.tx_began then 0 else 1)

theorem in_recv_rank {s t : Client} {r : Option Bytes} (h : in_recv s r = some t) :
    (r = none → t.rank < s.rank) ∧ t.rank ≤ s.rank + 3 := by
  simp only [in_recv] at h
  split at h
  · rename_i hp
    split at h
    · cases h
      have : { s with in_pc := .purge, in_polled := false, stopped := true }.rank < s.rank := by
        simp only [Client.rank, hp.1, hp.2, InPc.ended, InPc.rank]
        have h1 := poll_stop s.out_polled s.out_pc.ended s.out_polled s.out_pc.ended
        cases hs : s.stopped with
        | true => simp only [pollRank]; omega
        | false =>
          rw [hs] at *
          simp only [pollRank] at *
          simp only [stopRank]
          omega
      exact ⟨fun _ => this, by omega⟩
    · split at h
      · cases h
      · cases h; exact ⟨(fun e => nomatch e), by omega⟩
      · cases h
        refine ⟨(fun e => nomatch e), ?_⟩
        simp only [Client.rank, hp.1, hp.2, InPc.ended, InPc.rank]
        omega
  · cases h

theorem l_step_rank {cfg : Cfg} {bound : Nat} {s t : Local} {l : LLabel} (ho : LOwn s l) (h : l_step cfg bound s l = some t) :
    t.rank < s.rank := by
  cases l with
  | srv_recv | srv_send | fatal | drop_rx | drop_tx => cases ho
  | client l =>
    have : ∃ c, step cfg s.client l = some c ∧ t = { s with client := c } := by
      cases l <;> simp only [l_step] at h <;>
        first | (cases h; done) | (obtain ⟨c, h1, h2⟩ := Option.map_eq_some_iff.mp h; exact ⟨c, h1, h2.symm⟩)
    obtain ⟨c, h1, rfl⟩ := this
    have := step_rank (show Own s.client l from ho) h1
    simp only [Local.rank]
    omega
  | rx_check =>
    simp only [l_step] at h
    split at h
    · rename_i hx; cases h
      simp [Local.rank, hx.2.2.1]
    · cases h
  | tx_check =>
    simp only [l_step] at h
    split at h
    · split at h
      · rename_i hx; cases h
        simp [Local.rank, hx.2.1]
      · cases h
    · cases h
  | rx_msg b =>
    simp only [l_step] at h
    split at h
    · cases h
    · rename_i x q hq
      split at h
      · rename_i hx
        obtain ⟨c, h1, rfl⟩ := Option.map_eq_some_iff.mp h
        have := (in_recv_rank (show in_recv s.client (some b) = some c from h1)).2
        simp only [Local.rank, hq, hx.1, if_true, List.length_cons, Bool.false_eq_true, if_false]
        omega
      · cases h
  | rx_err =>
    simp only [l_step] at h
    split at h
    · obtain ⟨c, h1, rfl⟩ := Option.map_eq_some_iff.mp h
      have := (in_recv_rank (show in_recv s.client none = some c from h1)).1 rfl
      simp only [Local.rank, Bool.false_eq_true, if_false]
      split <;> omega
    · cases h
  | tx_ok =>
    simp only [l_step] at h
    split at h
    · split at h
      · obtain ⟨c, h1, rfl⟩ := Option.map_eq_some_iff.mp h
        have := step_rank (show Own s.client (.out_done true) from trivial) h1
        simp only [Local.rank, Bool.false_eq_true, if_false]
        split <;> split <;> omega
      · cases h
    · cases h
  | tx_err =>
    simp only [l_step] at h
    split at h
    · obtain ⟨c, h1, rfl⟩ := Option.map_eq_some_iff.mp h
      have := step_rank (show Own s.client (.out_done false) from trivial) h1
      simp only [Local.rank, Bool.false_eq_true, if_false]
      split <;> split <;> omega
    · cases h

theorem lOwnRun_rank {cfg : Cfg} {bound : Nat} {s t : Local} {ls : List LLabel} (h : LOwnRun cfg bound s ls t) :
    ls.length + t.rank ≤ s.rank := by
  induction h with
  | nil => simp
  | cons ho h _ ih =>
    have := l_step_rank ho h
    simp only [List.length_cons]
    omega

theorem lOwnRun_run {cfg : Cfg} {bound : Nat} {s t : Local} {ls : List LLabel} (h : LOwnRun cfg bound s ls t) :
    l_run cfg bound ls s = some t := by
  induction h with
  | nil => rfl
  | cons ho h _ ih => simp only [l_run, h]; exact ih

theorem lOwnRun_to_stuck {cfg : Cfg} {bound : Nat} (n : Nat) : ∀ s : Local, s.rank ≤ n →
    ∃ ls t, LOwnRun cfg bound s ls t ∧ LStuck cfg bound t := by
  induction n with
  | zero =>
    intro s hs
    refine ⟨[], s, .nil _, fun l ho => ?_⟩
    cases h : l_step cfg bound s l with
    | none => rfl
    | some t => have := l_step_rank ho h; omega
  | succ n ih =>
    intro s hs
    by_cases hst : LStuck cfg bound s
    · exact ⟨[], s, .nil _, hst⟩
    · have : ∃ l, LOwn s l ∧ l_step cfg bound s l ≠ none := Classical.byContradiction fun hn =>
        hst fun l ho => Classical.byContradiction fun h => hn ⟨l, ho, h⟩
      obtain ⟨l, ho, hne⟩ := this
      cases h : l_step cfg bound s l with
      | none => exact absurd h hne
      | some t =>
        have := l_step_rank ho h
        obtain ⟨ls, u, h1, h2⟩ := ih t (by omega)
        exact ⟨l :: ls, u, .cons ho h h1, h2⟩

/-- The four things that end a client besides the server's dropping its sending end. -/
theorem ends_step {cfg : Cfg} {bound : Nat} {s t : Local} {l : LLabel} (h : l_step cfg bound s l = some t)
    (h1 : l ≠ .fatal) (h2 : l ≠ .drop_rx) (h3 : l ≠ .client .close) (h4 : l ≠ .client .drop_handles)
    (hf : s.failed = false) (hr : s.srv_rx = true) (hh : s.client.handles = true)
    (hs : s.client.stopped = true → s.srv_tx = false ∧ s.down = []) :
    t.failed = false ∧ t.srv_rx = true ∧ t.client.handles = true ∧ (t.client.stopped = true → t.srv_tx = false ∧ t.down = []) ∧
      (t.srv_tx = false → s.srv_tx = false ∨ l = .drop_tx) := by
  cases l with
  | fatal => exact absurd rfl h1
  | drop_rx => exact absurd rfl h2
  | client l =>
    have : ∃ c, step cfg s.client l = some c ∧ t = { s with client := c } ∧ (∀ r, l ≠ .in_recv r) ∧ (∀ r, l ≠ .out_done r) := by
      cases l <;> simp only [l_step] at h <;>
        first | (cases h; done) | (obtain ⟨c, h1, h2⟩ := Option.map_eq_some_iff.mp h; exact ⟨c, h1, h2.symm, by simp, by simp⟩)
    obtain ⟨c, hc, rfl, n1, n2⟩ := this
    refine ⟨hf, hr, step_handles hc hh (fun e => h4 (e ▸ rfl)), fun ht => ?_, fun ht => .inl ht⟩
    cases hst : s.client.stopped with
    | true => exact hs hst
    | false =>
      rcases step_stops hc hst ht with e | e | e | e
      · exact absurd (e ▸ rfl) h3
      · exact absurd e (n2 _)
      · exact absurd e (n1 _)
      · rw [hh] at e; cases e
  | drop_tx =>
    cases h
    exact ⟨hf, hr, hh, fun ht => ⟨rfl, (hs ht).2⟩, fun _ => .inr rfl⟩
  | rx_check | tx_check =>
    simp only [l_step] at h
    repeat' split at h
    all_goals (first | (cases h; done) | (cases h; exact ⟨hf, hr, hh, hs, .inl⟩))
  | rx_msg b =>
    simp only [l_step] at h
    split at h
    · cases h
    · rename_i x q hd
      split at h
      · obtain ⟨c, hc, rfl⟩ := Option.map_eq_some_iff.mp h
        refine ⟨hf, hr, step_handles hc hh (by simp), fun ht => ?_, .inl⟩
        cases hst : s.client.stopped with
        | true => have := (hs hst).2; rw [hd] at this; cases this
        | false =>
          rcases step_stops hc hst ht with e | e | e | e
          · cases e
          · cases e
          · cases e
          · rw [hh] at e; cases e
      · cases h
  | rx_err =>
    simp only [l_step] at h
    split at h
    · rename_i hx
      obtain ⟨c, hc, rfl⟩ := Option.map_eq_some_iff.mp h
      rcases hx with hx | hx
      · rw [hf] at hx; cases hx
      · exact ⟨hf, hr, step_handles hc hh (by simp), fun _ => hx.2, .inl⟩
    · cases h
  | tx_err =>
    simp only [l_step] at h
    split at h
    · rename_i hx
      rcases hx with hx | hx
      · rw [hf] at hx; cases hx
      · rw [hr] at hx; cases hx.2
    · cases h
  | tx_ok =>
    simp only [l_step] at h
    split at h
    · split at h
      · obtain ⟨c, hc, rfl⟩ := Option.map_eq_some_iff.mp h
        refine ⟨hf, hr, step_handles hc hh (by simp), fun ht => ?_, .inl⟩
        cases hst : s.client.stopped with
        | true => exact hs hst
        | false =>
          rcases step_stops hc hst ht with e | e | e | e
          · cases e
          · cases e
          · cases e
          · rw [hh] at e; cases e
      · cases h
    · cases h
  | srv_recv =>
    simp only [l_step] at h
    rw [hr, if_pos rfl] at h
    obtain ⟨⟨r, u⟩, h1, rfl⟩ := Option.map_eq_some_iff.mp h
    rcases srv_recv_some h1 with ⟨b, q, _, _, e⟩ | ⟨_, _, _, e⟩
    · have e : u = { s with up := q } := e
      subst e; exact ⟨hf, hr, hh, hs, .inl⟩
    · have e : u = s := e
      subst e; exact ⟨hf, hr, hh, hs, .inl⟩
  | srv_send op =>
    simp only [l_step] at h
    split at h
    · rename_i htx
      obtain ⟨⟨r, u⟩, h1, rfl⟩ := Option.map_eq_some_iff.mp h
      rcases srv_send_some h1 with ⟨b, _, _, _, _, e⟩ | ⟨_, _, e⟩
      · have e : u = { s with down := s.down ++ [b] } := e
        subst e
        refine ⟨hf, hr, hh, fun ht => ?_, .inl⟩
        have := (hs ht).1; rw [htx] at this; cases this
      · have e : u = s := e
        subst e; exact ⟨hf, hr, hh, hs, .inl⟩
    · cases h

end PRpc
