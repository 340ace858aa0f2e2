import Verif.Lemmas.BrxStep
import Verif.Lemmas.LogText
import Verif.Lemmas.Ping
import Verif.Lemmas.ReplRun
import Verif.Lemmas.TopicsUsb
/-! Helper lemmas for C95: the programs. -/

namespace PRpc

open Spec

variable {E : Type}

/-! ### The application -/

/-- The application with the standard endpoints in its list. -/
def lg_full (E : Type) (I : WbIcd) : App LgVal E Unit Unit := { lg_app E I with endpoint_list := (wb_full E I).endpoint_list }

theorem lg_dispatches {I : WbIcd} {D : Dispatcher LgVal E Unit Unit} (h : define_dispatch (lg_app E I) = .ok D)
    (ha : WbApart I (keyLen D.n)) : Dispatches (lg_full E I) D := by
  obtain ⟨_, h1, h2, h3⟩ := define_dispatch_ok h
  refine dispatches_of ?_ ⟨?_, ?_, h1, h2, h3⟩
  · show DistinctAt _ ((wb_full E I).endpoint_list.endpoints.map (·.req) ++ _)
    rw [wb_reqs]
    exact (List.append_nil _).symm ▸ ha.requests
  · intro e he
    cases he
  · intro k hk
    cases hk

theorem lg_declared (E : Type) (I : WbIcd) (n : VarKeyKind) : Declared (lg_full E I) n where
  ping := (wb_declared E I n).ping
  schemas := (wb_declared E I n).schemas
  schema_topic := (wb_declared E I n).schema_topic
  names := List.nodup_nil
  sends := fun t ht => by cases ht

theorem lg_keysApart {I : WbIcd} {S : SysCfg LgVal E Unit Unit} (ha : WbApart I (keyLen S.kkind)) : KeysApart (lg_full E I) S := by
  refine apart_of_distinct ?_
  show DistinctAt _ ((wb_full E I).endpoint_list.endpoints.map (·.resp) ++ (wb_full E I).topic_out_list.topics.map (·.key))
  rw [wb_answers]
  exact distinct_tail ha.answers

theorem lg_error_apart {I : WbIcd} {n : Nat} (ha : WbApart I n) :
    (∀ r ∈ (lg_full E I).endpoint_list.endpoints, short n r.resp ≠ short n I.std.error) ∧
    ∀ t ∈ (lg_full E I).topic_out_list.topics, short n t.key ≠ short n I.std.error := wb_error_apart (E := E) ha

theorem schemas_ne_ping {I : WbIcd} {n : Nat} (ha : WbApart I n) : I.std.schemas_req ≠ I.std.ping_req := by
  intro e
  exact ha.requests 1 0 (by simp) (by simp) (by decide) (by show short n I.std.schemas_req = short n I.std.ping_req; rw [e])

theorem logging_ne_schemas {I : WbIcd} {n : Nat} (ha : WbApart I n) : I.std.logging_topic ≠ I.std.schema_topic := by
  intro e
  exact ha.answers 10 9 (by simp) (by simp) (by decide) (by show short n I.std.logging_topic = short n I.std.schema_topic; rw [e])

/-- What C95 asks of the system. -/
structure LgSetup (I : WbIcd) (U : UsbCfg LgVal E Unit Unit) (w : Nat) : Prop where
  sound : UsbSound U
  disp : define_dispatch (lg_app E I) = .ok U.S.disp
  kkind : U.S.kkind = U.S.disp.n
  apart : WbApart I (keyLen U.S.disp.n)
  enc : ∀ v, U.S.enc (.val v) = enc_lg w U.S.kkind v
  width : w = 2 ∨ w = 4 ∨ w = 8
  size : ∀ b, (∀ v, b ≠ .val v) → (U.S.enc b).length ≤ 1000

theorem LgSetup.small {I : WbIcd} {U : UsbCfg LgVal E Unit Unit} {w : Nat} (h : LgSetup I U w) (s : Sys LgVal E Unit Unit) : Small U.S s := by
  intro o _ b hb
  have h1 := isFrame_len hb
  have h2 : (U.S.enc o.frame.body).length ≤ 1000 := by
    cases hbd : o.frame.body with
    | val v => rw [h.enc]; exact Nat.le_trans (enc_lg_len h.width _ v) (by decide)
    | _ => exact h.size _ (fun v e => by cases e)
  omega

theorem LgSetup.ctx {I : WbIcd} {U : UsbCfg LgVal E Unit Unit} {w : Nat} (h : LgSetup I U w) : TopicCtx (lg_full E I) U.S I.std.logging_topic where
  disp := lg_dispatches h.disp h.apart
  decl := lg_declared E I _
  apart := lg_keysApart (by rw [h.kkind]; exact h.apart)
  topic := ⟨⟨_, List.mem_cons_of_mem _ (List.mem_cons_self ..), rfl⟩, logging_ne_schemas h.apart, fun t ht => by cases ht⟩
  err := (lg_error_apart (E := E) (by rw [h.kkind]; exact h.apart)).2 _ (List.mem_cons_of_mem _ (List.mem_cons_self ..))

/-! ### Steps -/

/-- The steps, one by one. -/
inductive LgStep (I : WbIcd) (U : UsbCfg LgVal E Unit Unit) (decode : Bytes → Option Bytes) (y : LgSys E) : LgLabel → LgSys E → Prop where
  | sys (l : ULabel LgVal) (pc : LgPc) (u : UsbSys LgVal E Unit Unit) : lg_allows I y.pc y.usb.sys.client.calls.length l = some pc →
      u_step U y.usb l = some u → LgStep I U decode y (.sys l) { y with usb := u, pc := pc }
  | tick (u : UsbSys LgVal E Unit Unit) : u_step U y.usb (.app_publish I.std.logging_topic (.Seq2 y.log_seq) (log_msg y.ctr)) = some u →
      LgStep I U decode y .tick { y with usb := u, log_seq := y.log_seq + 1#16, ctr := y.ctr + 1#16 }
  | returned (c : Nat) (cl : Call) (r : CallRes) : y.pc = .waiting c → y.usb.sys.client.calls[c]? = some cl → cl.phase = .done r →
      LgStep I U decode y .returned { y with pc := (lg_returned r).2, term := y.term ++ (lg_returned r).1 }
  | sub_ok (u : UsbSys LgVal E Unit Unit) (id : Nat) : y.pc = .subscribing →
      u_step U y.usb (.client (.sub_multi I.std.logging_topic 64)) = some u →
      (subscribe_multi_inner y.usb.sys.client.subs I.std.logging_topic 64).1 = .Ok id →
      LgStep I U decode y .subscribed { y with usb := u, pc := .receiving id }
  | sub_fail (u : UsbSys LgVal E Unit Unit) : y.pc = .subscribing →
      u_step U y.usb (.client (.sub_multi I.std.logging_topic 64)) = some u →
      LgStep I U decode y .subscribed { y with usb := u, pc := .panicked }
  | received (u : UsbSys LgVal E Unit Unit) (id : Nat) (r : MultiRes) : y.pc = .receiving id →
      u_step U y.usb (.client (.recv_multi id)) = some u → (multi_recv y.usb.sys.client.subs id).1 = some r →
      LgStep I U decode y .received { y with usb := u, pc := (lg_received decode id r).2, term := y.term ++ (lg_received decode id r).1 }

theorem lg_step_cases {I : WbIcd} {U : UsbCfg LgVal E Unit Unit} {decode : Bytes → Option Bytes} {y y' : LgSys E} {l : LgLabel}
    (h : lg_step I U decode y l = some y') : LgStep I U decode y l y' := by
  cases l with
  | sys l =>
    simp only [lg_step] at h
    split at h
    · cases h
    · rename_i pc hp
      split at h
      · cases h
      · rename_i u hu
        cases h
        exact .sys l pc u hp hu
  | tick =>
    simp only [lg_step] at h
    split at h
    · cases h
    · rename_i u hu
      cases h
      exact .tick u hu
  | returned =>
    simp only [lg_step] at h
    split at h
    · rename_i c hc
      split at h
      · cases h
      · rename_i cl hcl
        split at h
        · rename_i r hr
          cases h
          exact .returned c cl r hc hcl hr
        · cases h
    · cases h
  | subscribed =>
    simp only [lg_step] at h
    split at h
    · rename_i hp
      split at h
      · cases h
      · rename_i u hu
        split at h
        · rename_i id hid
          cases h
          exact .sub_ok u id hp hu hid
        · cases h
          exact .sub_fail u hp hu
    · cases h
  | received =>
    simp only [lg_step] at h
    split at h
    · rename_i id hp
      split at h
      · cases h
      · rename_i u hu
        split at h
        · cases h
        · rename_i r hr
          cases h
          exact .received u id r hp hu hr
    · cases h

/-- What a step allowed to the rest of the system is. -/
theorem lg_allows_cases {I : WbIcd} {pc pc' : LgPc} {n : Nat} {l : ULabel LgVal} (h : lg_allows I pc n l = some pc') :
    (pc = .calling ∧ l = .client (.call_begin I.std.ping_req I.std.ping_resp (enc_u32 42#32)) ∧ pc' = .waiting n) ∨
    (pc' = pc ∧ (∀ req resp body, l ≠ .client (.call_begin req resp body)) ∧ (∀ rqst resp, l ≠ .client (.call_begin_raw rqst resp)) ∧
      UsbUsed (lg_full E I) l ∧ (∀ k, l = .client k → pc.live = true ∧ ToDeclared (lg_full E I) k ∧ (∀ id, k ≠ .recv_multi id) ∧
        (∀ id, k ≠ .drop_multi id) ∧ ∀ key d, k ≠ .sub_multi key d) ∧ ∀ key seq v, l ≠ .app_publish key seq v) := by
  cases l with
  | client l =>
    cases l with
    | call_begin req resp body =>
      simp only [lg_allows] at h
      split at h
      · split at h
        · rename_i e
          obtain ⟨rfl, rfl, rfl⟩ := e
          cases h
          exact .inl ⟨rfl, rfl, rfl⟩
        · cases h
      · cases h
    | call_begin_raw => cases h
    | call_drop => cases h
    | pub_begin => cases h
    | close => cases h
    | drop_handles => cases h
    | sub_excl => cases h
    | sub_repl => cases h
    | sub_multi => cases h
    | recv_excl => cases h
    | recv_multi => cases h
    | drop_excl => cases h
    | drop_multi => cases h
    | _ =>
      simp only [lg_allows] at h
      split at h
      · rename_i hl
        cases h
        exact .inr ⟨rfl, nofun, nofun, trivial, (fun k e => by cases e; exact ⟨hl, trivial, nofun, nofun, nofun⟩), nofun⟩
      · cases h
  | app_publish key seq v => cases h
  | _ =>
    cases h
    exact .inr ⟨rfl, nofun, nofun, trivial, nofun, nofun⟩

theorem lg_run_cons {I : WbIcd} {U : UsbCfg LgVal E Unit Unit} {decode : Bytes → Option Bytes} {l : LgLabel} {ls : List LgLabel} {y y' : LgSys E}
    (h : lg_run I U decode (l :: ls) y = some y') : ∃ y1, lg_step I U decode y l = some y1 ∧ lg_run I U decode ls y1 = some y' := by
  simp only [lg_run] at h
  split at h
  · rename_i y1 hs
    exact ⟨y1, hs, h⟩
  · cases h

theorem lg_run_append {I : WbIcd} {U : UsbCfg LgVal E Unit Unit} {decode : Bytes → Option Bytes} {ls2 : List LgLabel} : ∀ {ls1 : List LgLabel}
    {y y1 y2 : LgSys E}, lg_run I U decode ls1 y = some y1 → lg_run I U decode ls2 y1 = some y2 → lg_run I U decode (ls1 ++ ls2) y = some y2 := by
  intro ls1
  induction ls1 with
  | nil => intro y y1 y2 h h'; cases h; exact h'
  | cons l ls ih =>
    intro y y1 y2 h h'
    obtain ⟨z, hs, hr⟩ := lg_run_cons h
    simp only [List.cons_append, lg_run, hs]
    exact ih hr h'

theorem ticks_append (a b : List LgLabel) : ticks (a ++ b) = ticks a + ticks b := by
  induction a with
  | nil => simp [ticks]
  | cons l ls ih => cases l <;> simp only [List.cons_append, ticks, ih] <;> omega

theorem outcomes_cons {I : WbIcd} {U : UsbCfg LgVal E Unit Unit} {decode : Bytes → Option Bytes} {l : LgLabel} {ls : List LgLabel} {y y' : LgSys E}
    (h : lg_step I U decode y l = some y') : outcomes I U decode (l :: ls) y = outcomes I U decode [l] y ++ outcomes I U decode ls y' := by
  cases l <;> simp only [outcomes, h] <;> rfl

theorem receivedMulti_append {cfg : Cfg} {id : Nat} {ks : List Label} : ∀ {ls : List Label} {s s' : Client}, run cfg ls s = some s' →
    receivedMulti cfg id (ls ++ ks) s = receivedMulti cfg id ls s ++ receivedMulti cfg id ks s' := by
  intro ls
  induction ls with
  | nil => intro s s' h; cases h; rfl
  | cons l ls ih =>
    intro s s' h
    simp only [run] at h
    split at h
    · rename_i s1 hs
      simp only [List.cons_append, receivedMulti, hs, ih h]
      cases l with
      | recv_multi i =>
        simp only
        split
        · split <;> rfl
        · rfl
      | _ => rfl
    · cases h

/-- A run as steps of the system. -/
structure LgTrace (I : WbIcd) (U : UsbCfg LgVal E Unit Unit) (y y' : LgSys E) (n : Nat) (us : List (ULabel LgVal))
    (bs : List Bool) : Prop where
  run : u_run U us y.usb = some y'.usb
  used : ∀ l ∈ us, UsbUsed (lg_full E I) l
  decl : ∀ k ∈ usbClientSteps us, ToDeclared (lg_full E I) k
  kept : ∀ id, Label.drop_multi id ∉ usbClientSteps us
  pubs : (usbPublications U I.std.logging_topic us y.usb).map (fun p => (p.seq, p.msg)) =
    (List.range n).map fun i => (VarSeq.Seq2 (y.log_seq + BitVec.ofNat 16 i), log_msg (y.ctr + BitVec.ofNat 16 i))
  oks : (usbPublications U I.std.logging_topic us y.usb).map (·.ok) = bs
  ctr : y'.ctr = y.ctr + BitVec.ofNat 16 n ∧ y'.log_seq = y.log_seq + BitVec.ofNat 16 n

theorem LgTrace.nil (I : WbIcd) (U : UsbCfg LgVal E Unit Unit) (y : LgSys E) : LgTrace I U y y 0 [] [] where
  run := rfl
  used := nofun
  decl := nofun
  kept := nofun
  pubs := rfl
  oks := rfl
  ctr := ⟨(BitVec.add_zero _).symm, (BitVec.add_zero _).symm⟩

theorem LgTrace.trans {I : WbIcd} {U : UsbCfg LgVal E Unit Unit} {y y1 y2 : LgSys E} {n m : Nat} {us vs : List (ULabel LgVal)}
    {bs cs : List Bool} (h1 : LgTrace I U y y1 n us bs) (h2 : LgTrace I U y1 y2 m vs cs) : LgTrace I U y y2 (n + m) (us ++ vs) (bs ++ cs) where
  run := u_run_append h1.run h2.run
  used := fun l hl => (List.mem_append.mp hl).elim (h1.used l) (h2.used l)
  decl := fun l hl => by
    rw [usbClientSteps_append] at hl
    exact (List.mem_append.mp hl).elim (h1.decl l) (h2.decl l)
  kept := fun id hl => by
    rw [usbClientSteps_append] at hl
    exact (List.mem_append.mp hl).elim (h1.kept id) (h2.kept id)
  pubs := by
    rw [usbPublications_append h1.run, List.map_append, h1.pubs, h2.pubs, List.range_add, List.map_append, List.map_map]
    congr 1
    apply List.map_congr_left
    intro i _
    show _ = (VarSeq.Seq2 (y.log_seq + BitVec.ofNat 16 (n + i)), log_msg (y.ctr + BitVec.ofNat 16 (n + i)))
    rw [h1.ctr.1, h1.ctr.2, BitVec.ofNat_add, BitVec.add_assoc, BitVec.add_assoc]
  oks := by rw [usbPublications_append h1.run, List.map_append, h1.oks, h2.oks]
  ctr := by
    rw [h2.ctr.1, h2.ctr.2, h1.ctr.1, h1.ctr.2, BitVec.ofNat_add, BitVec.add_assoc, BitVec.add_assoc]
    exact ⟨rfl, rfl⟩

/-- The steps of the system for a step of the programs. -/
theorem lg_step_trace {I : WbIcd} {U : UsbCfg LgVal E Unit Unit} {decode : Bytes → Option Bytes} {y y' : LgSys E} {l : LgLabel}
    (h : lg_step I U decode y l = some y') : ∃ us, LgTrace I U y y' (ticks [l]) us (outcomes I U decode [l] y) ∧
      (∀ id, y.pc = .receiving id →
        ((y'.pc = .receiving id ∧ y'.term = y.term ++
            ((receivedMulti U.S.cfg id (usbClientSteps us) y.usb.sys.client).filterMap fun f => decode f.body).map .log) ∨
         (y'.pc = .ended ∧ y'.term = y.term ++
            ((receivedMulti U.S.cfg id (usbClientSteps us) y.usb.sys.client).filterMap fun f => decode f.body).map .log ++ [.disconnected]))) ∧
      (y.pc = .ended → y'.pc = .ended ∧ y'.term = y.term ∧ usbClientSteps us = []) := by
  have one : ∀ {k : ULabel LgVal} {u : UsbSys LgVal E Unit Unit}, u_step U y.usb k = some u → u_run U [k] y.usb = some u := by
    intro k u h; simp only [u_run, h]
  have nopub : ∀ {k : ULabel LgVal}, (∀ key seq v, k ≠ .app_publish key seq v) → usbPublications U I.std.logging_topic [k] y.usb = [] := by
    intro k hk
    cases k with
    | app_publish key seq v => exact absurd rfl (hk key seq v)
    | _ => simp only [usbPublications]; split <;> rfl
  have noout : l ≠ .tick → outcomes I U decode [l] y = [] := by
    intro hl
    cases l with
    | tick => exact absurd rfl hl
    | _ => simp only [outcomes]; split <;> rfl
  have zero : y.ctr = y.ctr + BitVec.ofNat 16 0 ∧ y.log_seq = y.log_seq + BitVec.ofNat 16 0 :=
    ⟨(BitVec.add_zero _).symm, (BitVec.add_zero _).symm⟩
  cases lg_step_cases h with
  | sys k pc u hp hu =>
    rcases lg_allows_cases (E := E) hp with ⟨e1, rfl, rfl⟩ | ⟨rfl, n1, n2, hused, hcl, hnp⟩
    · refine ⟨[_], ⟨one hu, ?_, ?_, ?_, ?_, ?_, zero⟩, ?_, ?_⟩
      · intro l hl
        rw [List.mem_singleton.mp hl]
        exact ⟨_, List.mem_append_left _ (List.mem_cons_self ..), rfl, rfl⟩
      · intro k hk
        rw [List.mem_singleton.mp hk]
        trivial
      · intro id hk
        cases List.mem_singleton.mp hk
      · rw [nopub (fun _ _ _ e => by cases e)]; rfl
      · rw [nopub (fun _ _ _ e => by cases e), noout nofun]; rfl
      · intro id e; rw [e] at e1; cases e1
      · intro e; rw [e] at e1; cases e1
    · refine ⟨[k], ⟨one hu, ?_, ?_, ?_, ?_, ?_, zero⟩, ?_, ?_⟩
      · intro l hl
        rw [List.mem_singleton.mp hl]
        exact hused
      · intro l hl
        cases k with
        | client k =>
          rw [List.mem_singleton.mp hl]
          exact (hcl k rfl).2.1
        | _ => cases hl
      · intro id hl
        cases k with
        | client k => exact (hcl k rfl).2.2.2.1 id (List.mem_singleton.mp hl).symm
        | _ => cases hl
      · rw [nopub hnp]; rfl
      · rw [nopub hnp, noout nofun]; rfl
      · intro id e
        refine .inl ⟨e, ?_⟩
        have : receivedMulti U.S.cfg id (usbClientSteps [k]) y.usb.sys.client = [] := by
          cases k with
          | client k =>
            have h3 := (hcl k rfl).2.2.1
            cases k with
            | recv_multi i => exact absurd rfl (h3 i)
            | _ => simp only [usbClientSteps, receivedMulti]; split <;> rfl
          | _ => rfl
        rw [this]
        exact (List.append_nil _).symm
      · intro e
        refine ⟨e, rfl, ?_⟩
        cases k with
        | client k =>
          have := (hcl k rfl).1
          rw [e] at this
          cases this
        | _ => rfl
  | tick u hu =>
    refine ⟨[_], ⟨one hu, ?_, nofun, nofun, ?_, ?_, ⟨rfl, rfl⟩⟩, ?_, ?_⟩
    · intro l hl
      rw [List.mem_singleton.mp hl]
      exact ⟨_, List.mem_cons_of_mem _ (List.mem_cons_self ..), rfl⟩
    · show List.map _ (usbPublications U I.std.logging_topic [_] y.usb) = [_]
      simp only [usbPublications, if_true, hu, List.map_cons, List.map_nil, BitVec.add_zero]
    · simp only [usbPublications, outcomes, if_true, hu, h, List.map_cons, List.map_nil]
    · intro id e
      exact .inl ⟨e, (List.append_nil _).symm⟩
    · intro e
      exact ⟨e, rfl, rfl⟩
  | returned c cl r hp hc hr =>
    refine ⟨[], ⟨rfl, nofun, nofun, nofun, rfl, (noout nofun).symm, zero⟩, ?_, ?_⟩
    · intro id e; rw [e] at hp; cases hp
    · intro e; rw [e] at hp; cases hp
  | sub_ok u id hp hu hid =>
    refine ⟨[_], ⟨one hu, ?_, ?_, ?_, ?_, ?_, zero⟩, ?_, ?_⟩
    · intro l hl
      rw [List.mem_singleton.mp hl]
      trivial
    · intro k hk
      rw [List.mem_singleton.mp hk]
      exact ⟨_, List.mem_cons_of_mem _ (List.mem_cons_self ..), rfl⟩
    · intro id hk
      cases List.mem_singleton.mp hk
    · rw [nopub (fun _ _ _ e => by cases e)]; rfl
    · rw [nopub (fun _ _ _ e => by cases e), noout nofun]; rfl
    · intro id e; rw [e] at hp; cases hp
    · intro e; rw [e] at hp; cases hp
  | sub_fail u hp hu =>
    refine ⟨[_], ⟨one hu, ?_, ?_, ?_, ?_, ?_, zero⟩, ?_, ?_⟩
    · intro l hl
      rw [List.mem_singleton.mp hl]
      trivial
    · intro k hk
      rw [List.mem_singleton.mp hk]
      exact ⟨_, List.mem_cons_of_mem _ (List.mem_cons_self ..), rfl⟩
    · intro id hk
      cases List.mem_singleton.mp hk
    · rw [nopub (fun _ _ _ e => by cases e)]; rfl
    · rw [nopub (fun _ _ _ e => by cases e), noout nofun]; rfl
    · intro id e; rw [e] at hp; cases hp
    · intro e; rw [e] at hp; cases hp
  | received u id r hp hu hr =>
    refine ⟨[_], ⟨one hu, ?_, ?_, ?_, ?_, ?_, zero⟩, ?_, ?_⟩
    · intro l hl
      rw [List.mem_singleton.mp hl]
      trivial
    · intro k hk
      rw [List.mem_singleton.mp hk]
      trivial
    · intro id hk
      cases List.mem_singleton.mp hk
    · rw [nopub (fun _ _ _ e => by cases e)]; rfl
    · rw [nopub (fun _ _ _ e => by cases e), noout nofun]; rfl
    · intro id' e
      rw [hp] at e
      cases e
      have hrec : receivedMulti U.S.cfg id (usbClientSteps [(ULabel.client (.recv_multi id) : ULabel LgVal)]) y.usb.sys.client =
          match r with | .Ok f => [f] | _ => [] := by
        simp only [usbClientSteps, receivedMulti, if_true, hr]
        cases r <;> (simp only; split <;> rfl)
      rw [hrec]
      cases r with
      | Ok f =>
        refine .inl ?_
        simp only [lg_received]
        cases hd : decode f.body with
        | some t => refine ⟨rfl, ?_⟩; simp [hd]
        | none => refine ⟨rfl, ?_⟩; simp [hd]
      | IoClosed => exact .inr ⟨rfl, by simp [lg_received]⟩
      | Lagged n => exact .inr ⟨rfl, by simp [lg_received]⟩
    · intro e; rw [e] at hp; cases hp

/-- A run of the programs as one of the system. -/
theorem lg_run_trace {I : WbIcd} {U : UsbCfg LgVal E Unit Unit} {decode : Bytes → Option Bytes} : ∀ {ls : List LgLabel} {y y' : LgSys E},
    lg_run I U decode ls y = some y' → ∃ us, LgTrace I U y y' (ticks ls) us (outcomes I U decode ls y) ∧
      (∀ id, y.pc = .receiving id →
        ((y'.pc = .receiving id ∧ y'.term = y.term ++
            ((receivedMulti U.S.cfg id (usbClientSteps us) y.usb.sys.client).filterMap fun f => decode f.body).map .log) ∨
         (y'.pc = .ended ∧ y'.term = y.term ++
            ((receivedMulti U.S.cfg id (usbClientSteps us) y.usb.sys.client).filterMap fun f => decode f.body).map .log ++ [.disconnected]))) ∧
      (y.pc = .ended → y'.pc = .ended ∧ y'.term = y.term ∧ usbClientSteps us = []) := by
  intro ls
  induction ls with
  | nil =>
    intro y y' h
    cases h
    exact ⟨[], LgTrace.nil I U y, fun id e => .inl ⟨e, (List.append_nil _).symm⟩, fun e => ⟨e, rfl, rfl⟩⟩
  | cons l ls ih =>
    intro y y' h
    obtain ⟨y1, hs, hr⟩ := lg_run_cons h
    obtain ⟨us, t1, r1, e1⟩ := lg_step_trace hs
    obtain ⟨vs, t2, r2, e2⟩ := ih hr
    refine ⟨us ++ vs, ?_, ?_, ?_⟩
    · have := t1.trans t2
      rw [← ticks_append, ← outcomes_cons hs] at this
      exact this
    · intro id e
      have happ : receivedMulti U.S.cfg id (usbClientSteps (us ++ vs)) y.usb.sys.client =
          receivedMulti U.S.cfg id (usbClientSteps us) y.usb.sys.client ++ receivedMulti U.S.cfg id (usbClientSteps vs) y1.usb.sys.client := by
        rw [usbClientSteps_append]
        exact receivedMulti_append (usb_client_run t1.run)
      rw [happ, List.filterMap_append, List.map_append]
      rcases r1 id e with ⟨p1, q1⟩ | ⟨p1, q1⟩
      · rcases r2 id p1 with ⟨p2, q2⟩ | ⟨p2, q2⟩
        · exact .inl ⟨p2, by rw [q2, q1]; simp only [List.append_assoc]⟩
        · exact .inr ⟨p2, by rw [q2, q1]; simp only [List.append_assoc]⟩
      · obtain ⟨p2, q2, c2⟩ := e2 p1
        refine .inr ⟨p2, ?_⟩
        rw [c2, q2, q1]
        simp [receivedMulti]
    · intro e
      obtain ⟨p1, q1, c1⟩ := e1 e
      obtain ⟨p2, q2, c2⟩ := e2 p1
      exact ⟨p2, q2.trans q1, by rw [usbClientSteps_append, c1, c2]; rfl⟩

/-! ### Before the subscription -/

/-- The lines printed first. -/
def greeting : List LgLine := [.connecting, .connected]

/-- Those, and what is printed when the ping has returned. -/
def pinged : List LgLine := [.connecting, .connected, .got 42, .blank]

/-- Where the host is before it is subscribed. -/
def Early (I : WbIcd) (y : LgSys E) : Prop :=
  y.usb.sys.client.calls.length ≤ 1 ∧ (y.pc ≠ .panicked → y.usb.sys.client.subs.brxs = []) ∧
  match y.pc with
  | .calling => y.term = greeting ∧ y.usb.sys.client.calls.length = 0
  | .waiting c => y.term = greeting ∧ ∀ cl, y.usb.sys.client.calls[c]? = some cl →
      cl.rqst.header.key = .Key8 I.std.ping_req ∧ cl.rqst.body = enc_u32 42#32
  | .subscribing => y.term = pinged
  | .panicked => y.term = greeting ∨ y.term = pinged
  | _ => False

theorem early_start (I : WbIcd) : Early I (LgSys.start : LgSys E) := ⟨Nat.zero_le _, fun _ => rfl, rfl, rfl⟩

theorem early_same {I : WbIcd} {y : LgSys E} (h : Early I y) {u : UsbSys LgVal E Unit Unit}
    (e : u.sys.client.calls.map Call.sig = y.usb.sys.client.calls.map Call.sig)
    (eb : y.usb.sys.client.subs.brxs = [] → u.sys.client.subs.brxs = []) {n m : BitVec 16} :
    Early I { y with usb := u, log_seq := n, ctr := m } := by
  have hl := congrArg List.length e
  simp only [List.length_map] at hl
  obtain ⟨h0, hb, h⟩ := h
  refine ⟨by show u.sys.client.calls.length ≤ 1; omega, fun hp => eb (hb hp), ?_⟩
  show (match y.pc with
    | .calling => y.term = greeting ∧ u.sys.client.calls.length = 0
    | .waiting c => y.term = greeting ∧ ∀ cl, u.sys.client.calls[c]? = some cl →
        cl.rqst.header.key = .Key8 I.std.ping_req ∧ cl.rqst.body = enc_u32 42#32
    | .subscribing => y.term = pinged
    | .panicked => y.term = greeting ∨ y.term = pinged
    | _ => False)
  split
  · rename_i hp
    rw [hp] at h
    exact ⟨h.1, by omega⟩
  · rename_i c hp
    rw [hp] at h
    refine ⟨h.1, fun cl hc => ?_⟩
    obtain ⟨cl0, h1, h2⟩ := same_sig e hc
    rw [← h2]
    exact h.2 cl0 h1
  · rename_i hp
    rw [hp] at h
    exact h
  · rename_i hp
    rw [hp] at h
    exact h
  · rename_i n1 n2 n3 n4
    split at h <;> rename_i hp
    · exact n1 hp
    · exact n2 _ hp
    · exact n3 hp
    · exact n4 hp
    · exact h

/-- Only `subscribe_multi` makes receivers. -/
theorem u_no_joined {U : UsbCfg LgVal E Unit Unit} {u u' : UsbSys LgVal E Unit Unit} {l : ULabel LgVal} (h : u_step U u l = some u')
    (hl : ∀ key d, l ≠ .client (.sub_multi key d)) (h0 : u.sys.client.subs.brxs = []) : u'.sys.client.subs.brxs = [] := by
  rcases u_step_client h with ⟨k, rfl, hk⟩ | ⟨_, e⟩
  · exact step_no_joined hk (fun key d e => hl key d (by rw [e])) h0
  · rw [e]; exact h0

/-- The number `ping` returned. -/
theorem lg_ping {I : WbIcd} {U : UsbCfg LgVal E Unit Unit} {w : Nat} (S : LgSetup I U w) {us : List (ULabel LgVal)} {u : UsbSys LgVal E Unit Unit}
    (hrun : u_run U us (UsbSys.new ()) = some u) (hu : ∀ l ∈ us, UsbUsed (lg_full E I) l) (hlen : u.sys.client.calls.length ≤ 1) {c : Nat}
    {cl : Call} {r : CallRes} (hc : u.sys.client.calls[c]? = some cl) (hk : cl.rqst.header.key = .Key8 I.std.ping_req)
    (hb : cl.rqst.body = enc_u32 42#32) (hr : cl.phase = .done r) {n : BitVec 32} (hn : wb_result (.ping 42#32) r = .num n) : n = 42#32 := by
  obtain ⟨_, ls', hr', hst⟩ := sim_run S.sound.buffer S.sound.some_buffer (usbInv_new U.S ()) (S.small u.sys) hrun
  have inv := sys_run_inv hr' (fun l' hl' => by
    obtain ⟨l, hl, h⟩ := hst l' hl'
    exact stands_used h (hu l hl)) (sysInv_new (lg_full E I) U.S ())
  obtain ⟨f, i, rfl⟩ := wb_result_resp (m := .ping 42#32) (r := r) (by rw [hn]; nofun)
  have hv : from_bytes take_u32 f.body = some n := by
    simp only [wb_result, finish_call] at hn
    cases hd : from_bytes take_u32 f.body with
    | none => rw [hd] at hn; cases hn
    | some v => rw [hd] at hn; cases hn; rfl
  have x := S.ctx
  exact ping_value x.disp x.decl x.apart (lg_error_apart (by rw [S.kkind]; exact S.apart)).1 (schemas_ne_ping S.apart)
    (val := LgVal.num) (define_dispatch_ping S.disp) (fun n => S.enc _) (s := u.abs) inv (sys_run_new_old hr')
    (Nat.lt_of_le_of_lt hlen (by decide)) hc hk hb hr hv

theorem early_step {I : WbIcd} {U : UsbCfg LgVal E Unit Unit} {w : Nat} (S : LgSetup I U w) {decode : Bytes → Option Bytes} {y y' : LgSys E}
    {n : Nat} {us : List (ULabel LgVal)} {bs : List Bool} (ht : LgTrace I U LgSys.start y n us bs) (he : Early I y) {l : LgLabel}
    (h : lg_step I U decode y l = some y') : Early I y' ∨ (l = .subscribed ∧ y.term = pinged ∧ y.usb.sys.client.subs.brxs = [] ∧ ∃ id, y'.pc = .receiving id ∧
      y'.term = y.term ∧ u_step U y.usb (.client (.sub_multi I.std.logging_topic 64)) = some y'.usb ∧
      (subscribe_multi_inner y.usb.sys.client.subs I.std.logging_topic 64).1 = .Ok id) := by
  cases lg_step_cases h with
  | sys k pc u hp hu =>
    left
    rcases lg_allows_cases (E := E) hp with ⟨e1, rfl, rfl⟩ | ⟨rfl, n1, n2, hused, hcl, hnp⟩
    · obtain ⟨cl, e, h1, _, h3⟩ := u_step_begin hu
      obtain ⟨_, hb, he⟩ := he
      have hb := u_no_joined hu (fun _ _ e => by cases e) (hb (by rw [e1]; nofun))
      rw [e1] at he
      have hl : u.sys.client.calls.length = 1 := by rw [e, List.length_append, he.2]; rfl
      refine ⟨Nat.le_of_eq hl, fun _ => hb, he.1, fun cl' hc => ?_⟩
      rw [e, List.getElem?_append_right (Nat.le_refl _), Nat.sub_self] at hc
      cases hc
      exact ⟨h1, h3⟩
    · exact early_same he (u_step_same hu n1 n2) (u_no_joined hu (fun key d e => (hcl _ e).2.2.2.2 key d rfl))
  | tick u hu => exact .inl (early_same he (u_step_same hu nofun nofun) (u_no_joined hu (fun _ _ e => by cases e)))
  | returned c cl r hp hc hr =>
    left
    obtain ⟨h0, hj, he⟩ := he
    have hj := hj (by rw [hp]; nofun)
    rw [hp] at he
    obtain ⟨ht1, hcl⟩ := he
    obtain ⟨hk, hb⟩ := hcl cl hc
    refine ⟨h0, fun _ => hj, ?_⟩
    show (match (lg_returned r).2 with
      | .calling => y.term ++ (lg_returned r).1 = greeting ∧ y.usb.sys.client.calls.length = 0
      | .waiting c => y.term ++ (lg_returned r).1 = greeting ∧ ∀ cl, y.usb.sys.client.calls[c]? = some cl →
          cl.rqst.header.key = .Key8 I.std.ping_req ∧ cl.rqst.body = enc_u32 42#32
      | .subscribing => y.term ++ (lg_returned r).1 = pinged
      | .panicked => y.term ++ (lg_returned r).1 = greeting ∨ y.term ++ (lg_returned r).1 = pinged
      | _ => False)
    unfold lg_returned
    cases hn : wb_result (.ping 42#32) r with
    | num v =>
      have := lg_ping S ht.run ht.used h0 hc hk hb hr hn
      subst this
      show y.term ++ _ = pinged
      rw [ht1]
      rfl
    | _ => exact .inl (by rw [ht1]; rfl)
  | sub_ok u id hp hu hid =>
    right
    obtain ⟨h0, hj, he⟩ := he
    have hj := hj (by rw [hp]; nofun)
    rw [hp] at he
    exact ⟨rfl, he, hj, id, rfl, rfl, hu, hid⟩
  | sub_fail u hp hu =>
    left
    obtain ⟨h0, _, he⟩ := he
    rw [hp] at he
    have hl := congrArg List.length (u_step_same hu (fun _ _ _ e => by cases e) (fun _ _ e => by cases e))
    simp only [List.length_map] at hl
    exact ⟨by show u.sys.client.calls.length ≤ 1; omega, fun h => absurd rfl h, .inr he⟩
  | received u id r hp hu hr =>
    obtain ⟨_, _, he⟩ := he
    rw [hp] at he
    exact he.elim

/-- A run in which the host is subscribed: before, the subscription, after. -/
structure SubbedAt (I : WbIcd) (U : UsbCfg LgVal E Unit Unit) (decode : Bytes → Option Bytes) (y0 y : LgSys E) (ls ls1 ls2 : List LgLabel)
    (y1 y2 : LgSys E) (id : Nat) : Prop where
  split : ls = ls1 ++ .subscribed :: ls2
  before : lg_run I U decode ls1 y0 = some y1
  sub : lg_step I U decode y1 .subscribed = some y2
  after : lg_run I U decode ls2 y2 = some y
  pc : y2.pc = .receiving id
  term : y2.term = pinged
  fresh : y1.usb.sys.client.subs.brxs = []
  usb : u_step U y1.usb (.client (.sub_multi I.std.logging_topic 64)) = some y2.usb
  ok : (subscribe_multi_inner y1.usb.sys.client.subs I.std.logging_topic 64).1 = .Ok id

theorem early_run {I : WbIcd} {U : UsbCfg LgVal E Unit Unit} {w : Nat} (S : LgSetup I U w) {decode : Bytes → Option Bytes} :
    ∀ {ls : List LgLabel} {y y' : LgSys E} {n : Nat} {us : List (ULabel LgVal)} {bs : List Bool}, LgTrace I U LgSys.start y n us bs → Early I y →
    lg_run I U decode ls y = some y' → Early I y' ∨ ∃ ls1 ls2 y1 y2 id, SubbedAt I U decode y y' ls ls1 ls2 y1 y2 id := by
  intro ls
  induction ls with
  | nil => intro y y' n us bs _ he h; cases h; exact .inl he
  | cons l ls ih =>
    intro y y' n us bs ht he h
    obtain ⟨z, hs, hr⟩ := lg_run_cons h
    rcases early_step S ht he hs with he' | ⟨rfl, h1, hj, id, h2, h3, h4, h5⟩
    · obtain ⟨vs, t2, _⟩ := lg_step_trace hs
      rcases ih (ht.trans t2) he' hr with h' | ⟨ls1, ls2, y1, y2, id, x⟩
      · exact .inl h'
      · refine .inr ⟨l :: ls1, ls2, y1, y2, id, ?_, ?_, x.sub, x.after, x.pc, x.term, x.fresh, x.usb, x.ok⟩
        · rw [x.split]; rfl
        · simp only [lg_run, hs]; exact x.before
    · exact .inr ⟨[], ls, y, z, id, rfl, rfl, hs, hr, h2, h3.trans h1, hj, h4, h5⟩

theorem early_from_start {I : WbIcd} {U : UsbCfg LgVal E Unit Unit} {w : Nat} (S : LgSetup I U w) {decode : Bytes → Option Bytes}
    {ls : List LgLabel} {y : LgSys E} (h : lg_run I U decode ls LgSys.start = some y) :
    Early I y ∨ ∃ ls1 ls2 y1 y2 id, SubbedAt I U decode LgSys.start y ls ls1 ls2 y1 y2 id :=
  early_run S (LgTrace.nil I U _) (early_start I) h

/-! ### The subscription -/

theorem healthy_step {I : WbIcd} {U : UsbCfg LgVal E Unit Unit} {decode : Bytes → Option Bytes} {y y' : LgSys E} {l : LgLabel} {id cap : Nat}
    (h : lg_step I U decode y l = some y') (hp : y.pc = .receiving id) (hp' : y'.pc = .receiving id)
    (hh : Healthy cap y.usb.sys.client.subs id) : Healthy cap y'.usb.sys.client.subs id := by
  have other : ∀ {k : ULabel LgVal} {u : UsbSys LgVal E Unit Unit}, u_step U y.usb k = some u → k ≠ .client (.recv_multi id) →
      k ≠ .client (.drop_multi id) → Healthy cap u.sys.client.subs id := by
    intro k u hu h1 h2
    rcases u_step_client hu with ⟨k', rfl, hk⟩ | ⟨_, e⟩
    · exact healthy_other hk hh (fun e => h1 (by rw [e])) (fun e => h2 (by rw [e]))
    · rw [e]; exact hh
  cases lg_step_cases h with
  | sys k pc u hq hu =>
    rcases lg_allows_cases (E := E) hq with ⟨e1, _⟩ | ⟨rfl, _, _, _, hcl, _⟩
    · rw [hp] at e1; cases e1
    · exact other hu (fun e => (hcl _ e).2.2.1 id rfl) (fun e => (hcl _ e).2.2.2.1 id rfl)
  | tick u hu => exact other hu nofun nofun
  | returned c cl r hq => rw [hp] at hq; cases hq
  | sub_ok u i hq => rw [hp] at hq; cases hq
  | sub_fail u hq => rw [hp] at hq; cases hq
  | received u i r hq hu hr =>
    rw [hp] at hq
    cases hq
    rcases u_step_client hu with ⟨k', e, hk⟩ | ⟨hn, _⟩
    · cases e
      simp only [step, Option.some.injEq] at hk
      cases r with
      | Ok f =>
        show Healthy cap u.sys.client.subs id
        rw [← hk]
        exact healthy_recv hh hr
      | IoClosed => cases hp'
      | Lagged n => cases hp'
    · exact absurd rfl (hn _)

theorem stays_receiving {I : WbIcd} {U : UsbCfg LgVal E Unit Unit} {decode : Bytes → Option Bytes} {ls : List LgLabel} {y y' : LgSys E} {id j : Nat}
    (h : lg_run I U decode ls y = some y') (hp : y.pc = .receiving id) (hp' : y'.pc = .receiving j) : j = id := by
  obtain ⟨_, _, h1, _⟩ := lg_run_trace h
  rcases h1 id hp with ⟨e, _⟩ | ⟨e, _⟩
  · rw [hp'] at e; cases e; rfl
  · rw [hp'] at e; cases e

theorem healthy_run {I : WbIcd} {U : UsbCfg LgVal E Unit Unit} {decode : Bytes → Option Bytes} {id cap : Nat} : ∀ {ls : List LgLabel} {y y' : LgSys E},
    lg_run I U decode ls y = some y' → y.pc = .receiving id → y'.pc = .receiving id → Healthy cap y.usb.sys.client.subs id →
    Healthy cap y'.usb.sys.client.subs id := by
  intro ls
  induction ls with
  | nil => intro y y' h _ _ hh; cases h; exact hh
  | cons l ls ih =>
    intro y y' h hp hp' hh
    obtain ⟨z, hs, hr⟩ := lg_run_cons h
    have hz : z.pc = .receiving id := by
      obtain ⟨_, _, h1, _⟩ := lg_step_trace hs
      obtain ⟨_, _, _, h2⟩ := lg_run_trace hr
      rcases h1 id hp with ⟨e, _⟩ | ⟨e, _⟩
      · exact e
      · rw [(h2 e).1] at hp'; cases hp'
    exact ih hr hz hp' (healthy_step hs hp hz hh)

/-- The subscription as long as the host receives. -/
theorem SubbedAt.healthy {I : WbIcd} {U : UsbCfg LgVal E Unit Unit} {decode : Bytes → Option Bytes} {y : LgSys E}
    {ls ls1 ls2 : List LgLabel} {y1 y2 : LgSys E} {id : Nat} (x : SubbedAt I U decode LgSys.start y ls ls1 ls2 y1 y2 id)
    (hp : y.pc = .receiving id) : Healthy 64 y.usb.sys.client.subs id := by
  obtain ⟨us, t, _⟩ := lg_run_trace x.before
  have hre : Reachable U.S.cfg y1.usb.sys.client := ⟨_, usb_client_run t.run⟩
  rcases u_step_client x.usb with ⟨k, e, hk⟩ | ⟨hn, _⟩
  · cases e
    exact healthy_run x.after x.pc hp (healthy_starts hre x.fresh x.ok hk)
  · exact absurd rfl (hn _)

end PRpc
