import Verif.Lemmas.LiveSys
import Verif.Props.Progress
/-!
Helper lemmas for C67: a composed system left to itself comes to rest.
-/

namespace PRpc

open Spec

variable {V E SC Ctx : Type}

/-! ### What is still to be sent by the client -/

/-- The request of the call is still to be submitted. -/
def Phase.left : Phase → Nat
  | .begun | .kinded _ | .half _ | .registered _ => 1
  | .waiting _ | .done _ | .dropped => 0

def Pub.left (p : Pub) : Nat := if p.res = none then 1 else 0

def callsLeft : List Call → Nat
  | [] => 0
  | c :: cs => c.phase.left + callsLeft cs

def pubsLeft : List Pub → Nat
  | [] => 0
  | p :: ps => p.left + pubsLeft ps

theorem callsLeft_set (cs : List Call) (c : Nat) (cl x : Call) (h : cs[c]? = some cl) :
    callsLeft (cs.set c x) + cl.phase.left = callsLeft cs + x.phase.left := by
  induction cs generalizing c with
  | nil => cases h
  | cons a cs ih =>
    cases c with
    | zero => cases h; simp only [List.set_cons_zero, callsLeft]; omega
    | succ c => simp only [List.set_cons_succ, callsLeft]; have := ih c (by simpa using h); omega

theorem pubsLeft_set (cs : List Pub) (c : Nat) (cl x : Pub) (h : cs[c]? = some cl) :
    pubsLeft (cs.set c x) + cl.left = pubsLeft cs + x.left := by
  induction cs generalizing c with
  | nil => cases h
  | cons a cs ih =>
    cases c with
    | zero => cases h; simp only [List.set_cons_zero, pubsLeft]; omega
    | succ c => simp only [List.set_cons_succ, pubsLeft]; have := ih c (by simpa using h); omega

/-- All frames the client has sent or can still send without new calls and publications. -/
def Client.load (s : Client) : Nat := callsLeft s.calls + pubsLeft s.pubs + s.outq.length + s.tx.length

theorem load_phase {s : Client} {c : Nat} {cl : Call} {x : Call} {m : List (WaitId × VarHeader)} {w : List Woken} {k : VarKeyKind}
    (hc : s.calls[c]? = some cl) (hle : x.phase.left ≤ cl.phase.left) :
    { s with calls := s.calls.set c x, map := m, woken := w, kkind := k }.load ≤ s.load := by
  have := callsLeft_set s.calls c cl x hc
  simp only [Client.load]
  omega

theorem step_load {cfg : Cfg} {s s' : Client} {l : Label} (ho : Own s l ∨ ∃ r, l = .in_recv r) (h : step cfg s l = some s') :
    s'.load ≤ s.load := by
  cases l with
  | call_begin | call_begin_raw | call_drop | pub_begin | close | drop_handles | sub_excl | sub_repl | sub_multi |
    recv_excl | recv_multi | drop_excl | drop_multi => rcases ho with ho | ⟨_, ho⟩ <;> cases ho
  | call_kind c =>
    simp only [step] at h
    repeat' split at h
    all_goals first
      | (cases h; done)
      | (rename_i cl hc hp; cases h; exact load_phase hc (by rw [hp]; simp [Phase.left]))
  | call_reg_ok c =>
    simp only [step] at h
    split at h
    · rename_i cl hc
      split at h
      · rename_i k hp
        cases h
        unfold call_reg_ok
        split
        · exact load_phase hc (by rw [hp]; simp [Phase.left])
        · exact load_phase hc (by rw [hp]; simp [Phase.left])
      · cases h
    · cases h
  | call_reg_err c =>
    simp only [step] at h
    split at h
    · rename_i cl hc
      split at h
      · rename_i k hp
        cases h
        unfold call_reg_err
        split
        · exact load_phase hc (by rw [hp]; simp [Phase.left])
        · exact load_phase hc (by rw [hp]; simp [Phase.left])
      · cases h
    · cases h
  | call_send c =>
    simp only [step] at h
    split at h
    · rename_i cl hc
      split at h
      · rename_i k hp
        unfold call_send at h
        split at h
        · cases h
          exact load_phase hc (by rw [hp]; simp [Phase.left])
        · split at h
          · cases h
            have := callsLeft_set s.calls c cl { cl with phase := .waiting k } hc
            simp only [hp, Phase.left] at this
            simp only [Client.load, Client.set_phase, List.length_append, List.length_singleton]
            omega
          · cases h
      · cases h
    · cases h
  | call_closed c =>
    simp only [step] at h
    split at h
    · rename_i cl hc
      split at h
      · rename_i k hp
        split at h
        · cases h
          exact load_phase hc (by rw [hp]; simp [Phase.left])
        · cases h
      · cases h
    · cases h
  | call_ok c =>
    simp only [step] at h
    split at h
    · rename_i cl hc
      split at h
      · rename_i k hp
        unfold call_take at h
        split at h
        · cases h
        · cases h
          exact load_phase hc (by rw [hp]; simp [Phase.left])
      · cases h
    · cases h
  | call_err c =>
    simp only [step] at h
    split at h
    · rename_i cl hc
      split at h
      · rename_i k hp
        unfold call_take at h
        split at h
        · cases h
        · cases h
          exact load_phase hc (by rw [hp]; simp [Phase.left])
      · cases h
    · cases h
  | pub_send p =>
    simp only [step] at h
    split at h
    · rename_i pb hp
      split at h
      · rename_i hn
        unfold pub_send at h
        split at h
        · cases h
          have := pubsLeft_set s.pubs p pb { pb with res := some false } hp
          simp only [Pub.left, hn, if_true] at this
          simp only [Client.load]
          simp at this
          omega
        · split at h
          · cases h
            have := pubsLeft_set s.pubs p pb { pb with res := some true } hp
            simp only [Pub.left, hn, if_true] at this
            simp at this
            simp only [Client.load, List.length_append, List.length_singleton]
            omega
          · cases h
      · cases h
    · cases h
  | pub_closed p =>
    simp only [step] at h
    split at h
    · rename_i pb hp
      split at h
      · rename_i hn
        cases h
        have := pubsLeft_set s.pubs p pb { pb with res := some false } hp
        simp only [Pub.left, hn.1, if_true] at this
        simp at this
        simp only [Client.load]
        omega
      · cases h
    · cases h
  | out_recv =>
    simp only [step, out_recv] at h
    split at h
    · rename_i hp
      split at h
      · rename_i f q hq
        split at h
        · cases h
          simp only [Client.load, hq, List.length_cons, List.length_append, List.length_nil]
          omega
        · cases h
      · split at h
        · cases h
        · cases h; exact Nat.le_refl _
    · cases h
  | _ =>
    simp only [step, out_poll, out_done, in_poll, in_recv, in_lookup, in_full_send, in_full_timeout, in_wake] at h
    repeat' split at h
    all_goals first
      | (cases h; done)
      | (cases h; exact Nat.le_refl _)
      | (cases h; simp only [Client.load, List.length_nil]; omega)

/-! ### Handlers that have not replied -/

/-- The spawned handler is one of an endpoint and has not replied. -/
def waitsReply (s : Sys V E SC Ctx) (i : Nat) : Bool :=
  (match s.tasks[i]? with
    | some (_, t) => decide (t.role = .endpoint)
    | none => false) && !(s.outs.any fun o => o.src = .task i)

theorem waitsReply_of {s : Sys V E SC Ctx} {i j : Nat} {t : Task V SC} (h1 : s.tasks[i]? = some (j, t)) (h2 : t.role = .endpoint)
    (h3 : ¬ Replied s i) : waitsReply s i = true := by
  simp only [waitsReply, h1, h2, decide_true, Bool.true_and, Bool.not_eq_true']
  cases e : s.outs.any fun o => o.src = .task i with
  | false => rfl
  | true =>
    obtain ⟨o, ho, e⟩ := List.any_eq_true.mp e
    exact absurd ⟨o, ho, by simpa using e⟩ h3

def unreplied (s : Sys V E SC Ctx) : Nat := (List.range s.tasks.length).countP (waitsReply s)

theorem countP_lt {α : Type} {p q : α → Bool} {l : List α} {x : α} (h : ∀ y ∈ l, p y = true → q y = true) (hx : x ∈ l)
    (h1 : p x = false) (h2 : q x = true) : l.countP p < l.countP q := by
  induction l with
  | nil => cases hx
  | cons a l ih =>
    have hm : l.countP p ≤ l.countP q := List.countP_mono_left fun y hy => h y (List.mem_cons_of_mem _ hy)
    rw [List.countP_cons, List.countP_cons]
    rcases List.mem_cons.mp hx with rfl | hx
    · simp only [h1, h2, Bool.false_eq_true, if_false, if_true]
      omega
    · have := ih (fun y hy => h y (List.mem_cons_of_mem _ hy)) hx
      have ha := h a (List.mem_cons_self ..)
      cases hpa : p a with
      | false => simp only [Bool.false_eq_true, if_false]; omega
      | true => simp only [ha hpa, if_true]; omega

/-! ### The order in which the work gets less -/

/-- Frames the server may still take; answers it has still to send; frames on the link; steps of the client. -/
def Sys.work (s : Sys V E SC Ctx) : Nat × Nat × Nat × Nat :=
  (s.client.load - s.taken, s.pending.length + unreplied s, s.air.length, s.client.rank)

/-- Lexicographic order. -/
def lexLt (x y : Nat × Nat × Nat × Nat) : Prop :=
  x.1 < y.1 ∨ (x.1 = y.1 ∧ (x.2.1 < y.2.1 ∨ (x.2.1 = y.2.1 ∧ (x.2.2.1 < y.2.2.1 ∨ (x.2.2.1 = y.2.2.1 ∧ x.2.2.2 < y.2.2.2)))))

theorem lexLt_wf : WellFounded lexLt := by
  refine ⟨fun ⟨a, b, c, d⟩ => ?_⟩
  induction a using Nat.strongRecOn generalizing b c d with
  | _ a iha =>
  induction b using Nat.strongRecOn generalizing c d with
  | _ b ihb =>
  induction c using Nat.strongRecOn generalizing d with
  | _ c ihc =>
  induction d using Nat.strongRecOn with
  | _ d ihd =>
    refine ⟨_, fun ⟨a', b', c', d'⟩ h => ?_⟩
    rcases h with h | ⟨h1, h | ⟨h2, h | ⟨h3, h⟩⟩⟩
    · exact iha a' h b' c' d'
    · simp only at h1; subst h1; exact ihb b' h c' d'
    · simp only at h1 h2; subst h1; subst h2; exact ihc c' h d'
    · simp only at h1 h2 h3; subst h1; subst h2; subst h3; exact ihd d' h

theorem lexLt_of {a b c d a' b' c' d' : Nat} (ha : a' ≤ a) (hb : b' ≤ b) (hc : c' ≤ c)
    (h : a' < a ∨ b' < b ∨ c' < c ∨ d' < d) : lexLt (a', b', c', d') (a, b, c, d) := by
  unfold lexLt
  simp only
  omega

theorem put_work {S : SysCfg V E SC Ctx} {s s' : Sys V E SC Ctx} {o : Out V} (h : Sys.put S s o = some s') :
    s'.client = s.client ∧ s'.taken = s.taken ∧ s'.pending = s.pending ∧ s'.tasks = s.tasks ∧ s'.outs = s.outs ++ [o] := by
  simp only [Sys.put] at h
  split at h
  · cases h; exact ⟨rfl, rfl, rfl, rfl, rfl⟩
  · cases h

theorem waitsReply_mono {s s' : Sys V E SC Ctx} {o : Out V} (h1 : s'.tasks = s.tasks) (h2 : s'.outs = s.outs ++ [o]) (i : Nat) :
    waitsReply s' i = true → waitsReply s i = true := by
  simp only [waitsReply, h1, h2, List.any_append, Bool.and_eq_true, Bool.not_eq_true', Bool.or_eq_false_iff]
  exact fun ⟨a, b, _⟩ => ⟨a, b⟩

theorem unreplied_mono {s s' : Sys V E SC Ctx} {o : Out V} (h1 : s'.tasks = s.tasks) (h2 : s'.outs = s.outs ++ [o]) :
    unreplied s' ≤ unreplied s := by
  unfold unreplied
  rw [h1]
  exact List.countP_mono_left fun i _ => waitsReply_mono h1 h2 i

/-- Every step of the system's own makes its work less. -/
theorem sys_step_work {S : SysCfg V E SC Ctx} {s s' : Sys V E SC Ctx} {l : SLabel V} (hs : ∀ log f, S.env.send log f = none)
    (hle : s.taken ≤ s.client.tx.length) (ho : SysOwn s l) (h : sys_step S s l = some s') : lexLt s'.work s.work := by
  cases l with
  | reject => cases ho
  | app_publish key seq v => cases ho
  | serve =>
    obtain ⟨b, up, srv, hb, rfl, hp, _⟩ := serve_cases h
    have hlt := (List.getElem?_eq_some_iff.mp hb).1
    left
    show s.client.load - (s.taken + 1) < s.client.load - s.taken
    have : s.client.tx.length ≤ s.client.load := by simp only [Client.load]; omega
    omega
  | flush =>
    simp only [sys_step] at h
    split at h
    · cases h
    · rename_i o rest e
      obtain ⟨h1, h2, h3, h4, h5⟩ := put_work h
      right
      refine ⟨by simp only [Sys.work, h1, h2], .inl ?_⟩
      have hu : unreplied s' ≤ unreplied s := unreplied_mono (s := s) h4 h5
      simp only [Sys.work, h3, e, List.length_cons]
      omega
  | task_reply i v =>
    have ho : ¬ Replied s i := ho
    simp only [sys_step, task_reply] at h
    split at h
    · cases h
    · rename_i j t ht
      split at h
      · cases h
      · rename_i hr
        split at h
        · cases h
        · rename_i hh hf
          simp only [Sys.send, sender_reply_eq, sendOne, hs] at h
          obtain ⟨h1, h2, h3, h4, h5⟩ := put_work h
          right
          refine ⟨by simp only [Sys.work, h1, h2], .inl ?_⟩
          have hu : unreplied s' < unreplied s := by
            unfold unreplied
            rw [h4]
            refine countP_lt (x := i) (fun y _ => waitsReply_mono (s := s) h4 h5 y) ?_ ?_ (waitsReply_of ht hr ho)
            · exact List.mem_range.mpr (List.getElem?_eq_some_iff.mp ht).1
            · simp [waitsReply, h5]
          simp only [Sys.work, h3]
          omega
  | client l =>
    have own : ∀ {c : Client}, Own s.client l → step S.cfg s.client l = some c → s' = { s with client := c } → lexLt s'.work s.work := by
      intro c how hst e
      subst e
      have h1 := step_load (.inl how) hst
      have h2 := step_rank how hst
      refine lexLt_of ?_ (Nat.le_refl _) (Nat.le_refl _) (.inr (.inr (.inr h2)))
      show c.load - s.taken ≤ _
      omega
    simp only [sys_step, client_step] at h
    split at h
    · rename_i b
      split at h
      · cases h
      · rename_i b' air e
        split at h
        · split at h
          · rename_i c hc
            cases h
            have h1 := step_load (.inr ⟨_, rfl⟩) hc
            refine lexLt_of ?_ (Nat.le_refl _) ?_ (.inr (.inr (.inl ?_)))
            · show c.load - s.taken ≤ s.client.load - s.taken; omega
            · rw [e]; simp
            · rw [e]; simp
          · cases h
        · cases h
    · rename_i hne
      split at h
      · rename_i c hc
        cases h
        refine own ?_ hc rfl
        clear own hc
        cases l with
        | in_recv r =>
          cases r with
          | none => exact absurd rfl ho
          | some b => exact absurd rfl (hne b)
        | out_done ok => trivial
        | _ => exact ho
      · cases h

/-! ### Where it ends -/

theorem handle_total {env : Env V E SC} {D : Dispatcher V E SC Ctx} {kk : VarKeyKind} {hdr : VarHeader} {body : Bytes} {s : St V E SC Ctx}
    (hcnt : env.overflow_checks = false ∨ (schemaMsgs D.device_map).length ≤ 65535) :
    ∃ q, handle env D kk hdr body s = .ok q := by
  rcases frame_cases D hdr with c | ⟨h, c⟩ | ⟨h, c, c'⟩ | ⟨g, hg, c⟩ | ⟨g, hg, c⟩ | ⟨h, c⟩
  · exact ⟨_, handle_short _ _ _ _ _ _ c⟩
  · exact ⟨_, handle_ping _ _ _ _ _ _ h c⟩
  · rw [handle_schemas _ _ _ _ _ _ h c c', send_all_schemas_eq]
    obtain ⟨q, hq⟩ := publish_loop_total env D.std kk (schemaMsgs D.device_map) 0 0 s (by
      rcases hcnt with h | h
      · exact .inl h
      · exact .inr ⟨by omega, by omega⟩)
    rw [show (0#16) = BitVec.ofNat 16 0 from rfl, show (0#32) = BitVec.ofNat 32 0 from rfl, hq]
    exact ⟨_, rfl⟩
  · exact ⟨_, handle_ep _ _ _ _ _ _ g c⟩
  · exact ⟨_, handle_tp _ _ _ _ _ _ g c⟩
  · exact ⟨_, handle_unknown _ _ _ _ _ _ h c⟩

theorem put_total {S : SysCfg V E SC Ctx} (s : Sys V E SC Ctx) (o : Out V) : Sys.put S s o ≠ none := by
  simp [Sys.put, frame_bytes_eq]

theorem serve_total {a : App V E SC Ctx} {S : SysCfg V E SC Ctx} {s : Sys V E SC Ctx} (hfit : Fits a S) (hup : s.up = true)
    (hp : s.pending = []) (hlt : s.taken < s.client.tx.length) : serve S s ≠ none := by
  have hb : s.client.tx[s.taken]? = some s.client.tx[s.taken] := List.getElem?_eq_getElem hlt
  simp only [serve, hup, hp, List.length_nil, and_self, if_true, hb]
  rcases take_cases s.client.tx[s.taken] with e | ⟨hdr, body, e⟩
  · simp [server_run, e]
  · simp only [server_run, e, Exec.ok_bind]
    obtain ⟨⟨r, srv⟩, hq⟩ := handle_total (env := S.env) (D := S.disp) (kk := S.kkind) (hdr := hdr) (body := body) (s := s.srv) hfit.counters
    obtain ⟨rfl, _⟩ := handle_answers hfit.sends hq
    rw [hq]
    simp

theorem stuck_atRest {a : App V E SC Ctx} {S : SysCfg V E SC Ctx} {s : Sys V E SC Ctx} (hd : 0 < S.cfg.outgoing_depth)
    (hfit : Fits a S) (inv : SysInvR a S s) (lv : LiveInv a S s) (ho : Open s) (h : SysStuck S s) : AtRest s := by
  have cstuck : ∀ l, (∀ b, l ≠ .in_recv (some b)) → SysOwn (SC := SC) (E := E) (Ctx := Ctx) s (.client l : SLabel V) → step S.cfg s.client l = none := by
    intro l hne hol
    have := h (.client l) hol (by simp)
    simp only [sys_step, client_step] at this
    split at this
    · cases this
    · rename_i e; exact e
  have hst : Stuck S.cfg s.client := by
    intro l hol
    cases l with
    | out_done ok =>
      have := cstuck (.out_done true) (by simp) rfl
      simp only [step, out_done, if_true] at this ⊢
      split at this
      · cases this
      · rename_i hn
        rfl
    | in_recv r => cases hol
    | _ => exact cstuck _ (by simp) hol
  have hidle := (Props.c66_nothing_stuck hd inv.reach hst).1 ho.1
  have hpend : s.pending = [] := by
    have := h .flush trivial (by simp)
    simp only [sys_step] at this
    split at this
    · rename_i e; exact e
    · exact absurd this (put_total _ _)
  refine ⟨hidle, ?_, hpend, ?_, ?_⟩
  · rcases Nat.lt_or_ge s.taken s.client.tx.length with hlt | hge
    · exact absurd (h .serve trivial (by simp)) (serve_total hfit lv.up hpend hlt)
    · have := lv.le; omega
  · intro i j t ht hold hr
    refine Classical.byContradiction fun hn => ?_
    have := h (.task_reply i t.arg) hn (fun _ _ e => by cases e; exact hold)
    obtain ⟨hdr, body, _, hfor⟩ := inv.tasks i j t ht hold
    obtain ⟨g, hg, _, hname, _⟩ := hfor.row hr
    simp only [sys_step, task_reply, ht, hr] at this
    split at this
    · rename_i e
      have := List.find?_eq_none.mp e g hg
      simp [hname] at this
    · simp only [Sys.send, sender_reply_eq, sendOne, hfit.sends] at this
      exact put_total _ _ this
  · cases e : s.air with
    | nil => rfl
    | cons b air =>
      have hpol : s.client.in_polled = true := by
        cases hb : s.client.in_polled with
        | true => rfl
        | false =>
          have := hst .in_poll trivial
          simp [step, in_poll, hidle.inp, hb, ho.1] at this
      have := h (.client (.in_recv (some b))) (by simp [SysOwn]) (by simp)
      simp only [sys_step, client_step, e, if_true] at this
      split at this
      · cases this
      · rename_i e2
        simp only [step, in_recv, hidle.inp, hpol, and_self, if_true] at e2
        rcases take_cases b with e3 | ⟨hdr, r, e3⟩ <;> rw [e3] at e2 <;> cases e2

/-- Steps of the system's own keep the client open. -/
theorem sys_step_open {S : SysCfg V E SC Ctx} {s s' : Sys V E SC Ctx} {l : SLabel V} (ho : SysOwn s l) (h : sys_step S s l = some s')
    (hop : Open s) : Open s' := by
  have put : ∀ (t t' : Sys V E SC Ctx) (o : Out V), Sys.put S t o = some t' → t'.client = t.client := fun t t' o h => (put_work h).1
  cases l with
  | reject => cases ho
  | app_publish key seq v => cases ho
  | serve =>
    obtain ⟨b, up, srv, hb, rfl, hp, _⟩ := serve_cases h
    exact hop
  | flush =>
    simp only [sys_step] at h
    split at h
    · cases h
    · have := put _ _ _ h
      unfold Open
      rw [this]
      exact hop
  | task_reply i v =>
    simp only [sys_step, task_reply] at h
    repeat' split at h
    all_goals first
      | (cases h; done)
      | (simp only [Sys.send] at h
         split at h <;>
           (have := put _ _ _ h
            unfold Open
            rw [this]
            exact hop))
  | client l =>
    have main : ∀ {c : Client}, step S.cfg s.client l = some c → c.stopped = false ∧ c.handles = true := by
      intro c hc
      obtain ⟨h1, h2⟩ := hop
      cases l with
      | call_begin | call_begin_raw | call_drop | pub_begin | close | drop_handles | sub_excl | sub_repl | sub_multi |
        recv_excl | recv_multi | drop_excl | drop_multi => cases ho
      | in_recv r =>
        cases r with
        | none => exact absurd rfl ho
        | some b =>
          simp only [step, in_recv] at hc
          repeat' split at hc
          all_goals first
            | (cases hc; done)
            | (cases hc; exact ⟨h1, h2⟩)
      | out_done ok =>
        have : ok = true := ho
        subst this
        simp only [step, out_done, if_true] at hc
        repeat' split at hc
        all_goals first
          | (cases hc; done)
          | (cases hc; exact ⟨h1, h2⟩)
      | out_recv =>
        simp only [step, out_recv, h2, if_true] at hc
        repeat' split at hc
        all_goals first
          | (cases hc; done)
          | (cases hc; exact ⟨h1, rfl⟩)
          | (cases hc; exact ⟨h1, h2⟩)
      | _ =>
        simp only [step, call_reg_ok, call_reg_err, call_send, call_take, pub_send, out_poll,
          in_poll, in_lookup, in_full_send, in_full_timeout, after_lookup, in_wake, Client.set_phase, Client.drop_waits] at hc
        repeat' split at hc
        all_goals first
          | (cases hc; done)
          | (cases hc; exact ⟨h1, h2⟩)
    simp only [sys_step, client_step] at h
    repeat' split at h
    all_goals first
      | (cases h; done)
      | (rename_i hc; cases h; exact main hc)

theorem own_used {a : App V E SC Ctx} {s : Sys V E SC Ctx} {l : SLabel V} (ho : SysOwn s l) : Used a l ∧ Listens a l := by
  cases l with
  | client l => cases l <;> first | exact ⟨trivial, trivial⟩ | cases ho
  | reject => cases ho
  | app_publish => cases ho
  | _ => exact ⟨trivial, trivial⟩

theorem own_calls_len {S : SysCfg V E SC Ctx} {s s' : Sys V E SC Ctx} {l : SLabel V} (ho : SysOwn s l) (h : sys_step S s l = some s') :
    s'.client.calls.length = s.client.calls.length := by
  have put : ∀ (t t' : Sys V E SC Ctx) (o : Out V), Sys.put S t o = some t' → t'.client = t.client := fun t t' o h => (put_work h).1
  cases l with
  | reject => cases ho
  | app_publish key seq v => cases ho
  | serve =>
    obtain ⟨b, up, srv, hb, rfl, hp, _⟩ := serve_cases h
    rfl
  | flush =>
    simp only [sys_step] at h
    split at h
    · cases h
    · rw [put _ _ _ h]
  | task_reply i v =>
    simp only [sys_step, task_reply] at h
    repeat' split at h
    all_goals first
      | (cases h; done)
      | (simp only [Sys.send] at h
         split at h <;> rw [put _ _ _ h])
  | client l =>
    have main : ∀ {c : Client}, step S.cfg s.client l = some c → c.calls.length = s.client.calls.length := by
      intro c hc
      cases l with
      | call_begin | call_begin_raw | call_drop | pub_begin | close | drop_handles | sub_excl | sub_repl | sub_multi |
        recv_excl | recv_multi | drop_excl | drop_multi => cases ho
      | _ =>
        simp only [step, call_reg_ok, call_reg_err, call_send, call_take, pub_send, out_poll, out_recv, out_done, in_recv,
          in_poll, in_lookup, in_full_send, in_full_timeout, after_lookup, in_wake, Client.set_phase, Client.drop_waits] at hc
        repeat' split at hc
        all_goals first
          | (cases hc; done)
          | (cases hc; simp; done)
          | (cases hc; rfl)
    simp only [sys_step, client_step] at h
    repeat' split at h
    all_goals first
      | (cases h; done)
      | (rename_i hc; cases h; exact main hc)

/-- Both invariants and openness along a run of the system's own. -/
theorem own_run_invR {a : App V E SC Ctx} {S : SysCfg V E SC Ctx} {s s' : Sys V E SC Ctx} {ls : List (SLabel V)}
    (hD : Dispatches a S.disp) (hdecl : Declared a S.kkind) (hfit : Fits a S) (h : SysOwnRun S s ls s')
    (inv : SysInvR a S s) (lv : LiveInv a S s) (hn : (numbers s.client).Nodup) :
    SysInvR a S s' ∧ LiveInv a S s' ∧ (Open s → Open s') ∧ numbers s'.client = numbers s.client := by
  induction h with
  | nil s => exact ⟨inv, lv, id, rfl⟩
  | cons ho h hr ih =>
    obtain ⟨hu, hl⟩ := own_used (a := a) ho
    have e := own_calls_len ho h
    have e2 := (sys_step_numbers h).eq_of_length (by simp only [numbers, List.length_map]; omega)
    obtain ⟨i1, i2, i3, i4⟩ := ih (sys_step_invR h (used_raw hu) inv) (sys_step_liveR hD hdecl hfit h hl inv lv hn) (by rw [← e2]; exact hn)
    exact ⟨i1, i2, fun o => i3 (sys_step_open ho h o), i4.trans e2.symm⟩

theorem own_run_inv {a : App V E SC Ctx} {S : SysCfg V E SC Ctx} {s s' : Sys V E SC Ctx} {ls : List (SLabel V)}
    (hD : Dispatches a S.disp) (hdecl : Declared a S.kkind) (hfit : Fits a S) (h : SysOwnRun S s ls s')
    (inv : SysInv a S s) (lv : LiveInv a S s) (hn : s.client.calls.length < 2 ^ 32) :
    SysInv a S s' ∧ LiveInv a S s' ∧ (Open s → Open s') ∧ s'.client.calls.length = s.client.calls.length := by
  induction h with
  | nil s => exact ⟨inv, lv, id, rfl⟩
  | cons ho h hr ih =>
    obtain ⟨hu, hl⟩ := own_used (a := a) ho
    have e := own_calls_len ho h
    obtain ⟨i1, i2, i3, i4⟩ := ih (sys_step_inv h hu inv) (sys_step_live hD hdecl hfit h hl inv lv (by omega)) (by omega)
    exact ⟨i1, i2, fun o => i3 (sys_step_open ho h o), i4.trans e⟩

theorem own_run_append {S : SysCfg V E SC Ctx} {s t u : Sys V E SC Ctx} {ls : List (SLabel V)} {l : SLabel V}
    (h : SysOwnRun S s ls t) (ho : SysOwn t l) (hs : sys_step S t l = some u) : SysOwnRun S s (ls ++ [l]) u := by
  induction h with
  | nil s => exact .cons ho hs (.nil _)
  | cons ho' h' _ ih => exact .cons ho' h' (ih ho hs)

/-! ### A check for being at rest, for concrete states -/

def Phase.settled : Phase → Bool
  | .waiting _ | .done _ | .dropped => true
  | _ => false

def clientRests (s : Client) : Bool :=
  !s.stopped && s.handles && (match s.out_pc with | .recv => true | _ => false) && s.outq.isEmpty &&
  (match s.in_pc with | .recv => true | _ => false) && s.pubs.all (·.res.isSome) && s.calls.all (·.phase.settled) && s.woken.isEmpty

def rests (s : Sys V E SC Ctx) : Bool :=
  clientRests s.client && decide (s.taken = s.client.tx.length) && s.pending.isEmpty &&
  ((List.range s.tasks.length).all fun i => !waitsReply s i) && s.air.isEmpty

theorem clientRests_idle {s : Client} (h : clientRests s = true) : Idle s := by
  simp only [clientRests, Bool.and_eq_true, Bool.not_eq_true', List.isEmpty_iff, List.all_eq_true] at h
  obtain ⟨⟨⟨⟨⟨⟨⟨h1, h2⟩, h3⟩, h4⟩, h5⟩, h6⟩, h7⟩, h8⟩ := h
  refine ⟨⟨h1, h2⟩, ⟨?_, h4⟩, ?_, fun p hp => Option.isSome_iff_exists.mp (h6 p hp), fun c cl hc => ?_⟩
  · cases e : s.out_pc <;> rw [e] at h3 <;> first | rfl | cases h3
  · cases e : s.in_pc <;> rw [e] at h5 <;> first | rfl | cases h5
  · have := h7 cl (List.mem_iff_getElem?.mpr ⟨c, hc⟩)
    cases e : cl.phase <;> rw [e] at this <;> first | cases this; done | skip
    · exact .inr (.inr ⟨⟨_, rfl⟩, by rw [h8]; intro w hw; cases hw⟩)
    · exact .inl ⟨_, rfl⟩
    · exact .inr (.inl rfl)

theorem rests_atRest {s : Sys V E SC Ctx} (h : rests s = true) : AtRest s := by
  simp only [rests, Bool.and_eq_true, List.isEmpty_iff, List.all_eq_true, decide_eq_true_eq, List.mem_range,
    Bool.not_eq_true'] at h
  obtain ⟨⟨⟨⟨h1, h2⟩, h3⟩, h4⟩, h5⟩ := h
  refine ⟨clientRests_idle h1, h2, h3, fun i j t ht _ hr => ?_, h5⟩
  refine Classical.byContradiction fun hn => ?_
  have := h4 i (List.getElem?_eq_some_iff.mp ht).1
  rw [waitsReply_of ht hr hn] at this
  cases this

theorem own_run_old {S : SysCfg V E SC Ctx} {s s' : Sys V E SC Ctx} {ls : List (SLabel V)} (h : SysOwnRun S s ls s') : s'.old = s.old := by
  induction h with
  | nil s => rfl
  | cons _ h _ ih => rw [ih, sys_step_old h]

/-! ### What a system left to itself comes to, from any state with the invariants -/

theorem rest_answeredR {a : App V E SC Ctx} {S : SysCfg V E SC Ctx} {s : Sys V E SC Ctx} (inv : SysInvR a S s) (lv : LiveInv a S s)
    (hrest : AtRest s) {c : Nat} {cl : Call} (hc : s.client.calls[c]? = some cl) :
    cl.phase = .dropped ∨ ∃ err f i, result cl = some (err, f, i) := by
  rcases hrest.client.calls c cl hc with ⟨r, hr⟩ | hd | ⟨⟨k, hw⟩, hnw⟩
  · obtain ⟨h1, h2⟩ := lv.ended hrest.client.running.1 c cl r hc hr
    right
    simp only [result, hr]
    cases r with
    | Resp f i => exact ⟨_, _, _, rfl⟩
    | ErrResp f i => exact ⟨_, _, _, rfl⟩
    | Closed => exact absurd rfl h1
    | BadResponse => exact absurd rfl h2
  · exact .inl hd
  · refine absurd ?_ (id : ¬ False)
    cases lv.owed hrest.client.running.1 c cl k hc hw with
    | queued j h1 h2 =>
      have := (Props.c66_idle_sent_everything inv.reach hrest.client).1
      have := (List.getElem?_eq_some_iff.mp h2).1
      have := hrest.taken
      omega
    | pending o h1 h2 => rw [hrest.pending] at h1; cases h1
    | task i j t h h1 h7 h2 h3 h4 h5 h6 => exact h6 (hrest.tasks i j t h1 h7 h2)
    | air fr b h1 h2 h3 => rw [hrest.air] at h1; cases h1
    | held f h1 h2 => rw [hrest.client.inp] at h1; rcases h1 with h1 | h1 <;> cases h1
    | handed w h1 h2 => exact hnw w h1 h2

theorem own_finiteR {a : App V E SC Ctx} {S : SysCfg V E SC Ctx} {s : Sys V E SC Ctx} (hD : Dispatches a S.disp)
    (hdecl : Declared a S.kkind) (hfit : Fits a S) (inv : SysInvR a S s) (lv : LiveInv a S s)
    (hlen : (numbers s.client).Nodup) :
    ¬ ∃ (f : Nat → Sys V E SC Ctx) (g : Nat → SLabel V), f 0 = s ∧
      ∀ n, SysOwn (f n) (g n) ∧ sys_step S (f n) (g n) = some (f (n + 1)) := by
  rintro ⟨f, g, h0, hf⟩
  have runs : ∀ n, ∃ ls, SysOwnRun S (f 0) ls (f n) := by
    intro n
    induction n with
    | zero => exact ⟨[], .nil _⟩
    | succ n ih => obtain ⟨ls, h⟩ := ih; exact ⟨_, own_run_append h (hf n).1 (hf n).2⟩
  have dec : ∀ n, lexLt (f (n + 1)).work (f n).work := by
    intro n
    obtain ⟨ls, h⟩ := runs n
    rw [h0] at h
    obtain ⟨_, l2, _⟩ := own_run_invR hD hdecl hfit h inv lv hlen
    exact sys_step_work hfit.sends l2.le (hf n).1 (hf n).2
  have none : ∀ x, ∀ n, (f n).work = x → False := by
    intro x
    induction x using lexLt_wf.induction with
    | _ x ih => intro n e; exact ih _ (e ▸ dec n) (n + 1) rfl
  exact none _ 0 rfl

theorem own_answeredR {a : App V E SC Ctx} {S : SysCfg V E SC Ctx} {s : Sys V E SC Ctx} (hD : Dispatches a S.disp)
    (hdecl : Declared a S.kkind) (hfit : Fits a S) (hdepth : 0 < S.cfg.outgoing_depth) (inv : SysInvR a S s) (lv : LiveInv a S s)
    (hlen : (numbers s.client).Nodup) (hopen : Open s) {own : List (SLabel V)} {t : Sys V E SC Ctx}
    (ho : SysOwnRun S s own t) :
    (SysStuck S t → AtRest t) ∧ ∃ more u, SysOwnRun S t more u ∧ SysStuck S u ∧ u.client.calls.length = s.client.calls.length ∧
      ∀ cl ∈ u.client.calls, cl.phase = .dropped ∨ ∃ err f i, result cl = some (err, f, i) := by
  obtain ⟨j1, j2, j3, j4⟩ := own_run_invR hD hdecl hfit ho inv lv hlen
  refine ⟨stuck_atRest hdepth hfit j1 j2 (j3 hopen), ?_⟩
  have toStuck : ∀ x, ∀ t, t.work = x → SysInvR a S t → LiveInv a S t → (numbers t.client).Nodup →
      ∃ more u, SysOwnRun S t more u ∧ SysStuck S u := by
    intro x
    induction x using lexLt_wf.induction with
    | _ x ih =>
      intro t e i1 i2 i3
      by_cases hst : SysStuck S t
      · exact ⟨[], t, .nil _, hst⟩
      · have : ∃ l, SysOwn t l ∧ sys_step S t l ≠ none := by
          refine Classical.byContradiction fun hn => hst fun l ho _ => ?_
          refine Classical.byContradiction fun h => hn ⟨l, ho, h⟩
        obtain ⟨l, hol, hne⟩ := this
        cases hs : sys_step S t l with
        | none => exact absurd hs hne
        | some t' =>
          obtain ⟨k1, k2, _, k4⟩ := own_run_invR hD hdecl hfit (.cons hol hs (.nil _)) i1 i2 i3
          obtain ⟨more, u, hr, hst'⟩ := ih _ (e ▸ sys_step_work hfit.sends i2.le hol hs) t' rfl k1 k2 (by rw [k4]; exact i3)
          exact ⟨l :: more, u, .cons hol hs hr, hst'⟩
  obtain ⟨more, u, hr, hst⟩ := toStuck _ t rfl j1 j2 (by rw [j4]; exact hlen)
  obtain ⟨k1, k2, k3, k4⟩ := own_run_invR hD hdecl hfit hr j1 j2 (by rw [j4]; exact hlen)
  have hrest := stuck_atRest hdepth hfit k1 k2 (k3 (j3 hopen)) hst
  have hcl : u.client.calls.length = s.client.calls.length := by
    have := congrArg List.length (k4.trans j4)
    simpa only [numbers, List.length_map] using this
  refine ⟨more, u, hr, hst, hcl, fun cl hcl => ?_⟩
  obtain ⟨c, hc⟩ := List.mem_iff_getElem?.mp hcl
  exact rest_answeredR k1 k2 hrest hc

theorem rest_answered {a : App V E SC Ctx} {S : SysCfg V E SC Ctx} {s : Sys V E SC Ctx} (inv : SysInv a S s) (lv : LiveInv a S s)
    (hrest : AtRest s) {c : Nat} {cl : Call} (hc : s.client.calls[c]? = some cl) :
    cl.phase = .dropped ∨ ∃ err f i, result cl = some (err, f, i) := rest_answeredR inv.toSysInvR lv hrest hc

theorem own_finite {a : App V E SC Ctx} {S : SysCfg V E SC Ctx} {s : Sys V E SC Ctx} (hD : Dispatches a S.disp)
    (hdecl : Declared a S.kkind) (hfit : Fits a S) (inv : SysInv a S s) (lv : LiveInv a S s)
    (hlen : s.client.calls.length < 2 ^ 32) :
    ¬ ∃ (f : Nat → Sys V E SC Ctx) (g : Nat → SLabel V), f 0 = s ∧
      ∀ n, SysOwn (f n) (g n) ∧ sys_step S (f n) (g n) = some (f (n + 1)) :=
  own_finiteR hD hdecl hfit inv lv (typed_numbers inv hlen)

theorem own_answered {a : App V E SC Ctx} {S : SysCfg V E SC Ctx} {s : Sys V E SC Ctx} (hD : Dispatches a S.disp)
    (hdecl : Declared a S.kkind) (hfit : Fits a S) (hdepth : 0 < S.cfg.outgoing_depth) (inv : SysInv a S s) (lv : LiveInv a S s)
    (hlen : s.client.calls.length < 2 ^ 32) (hopen : Open s) {own : List (SLabel V)} {t : Sys V E SC Ctx}
    (ho : SysOwnRun S s own t) :
    (SysStuck S t → AtRest t) ∧ ∃ more u, SysOwnRun S t more u ∧ SysStuck S u ∧ u.client.calls.length = s.client.calls.length ∧
      ∀ cl ∈ u.client.calls, cl.phase = .dropped ∨ ∃ err f i, result cl = some (err, f, i) :=
  own_answeredR hD hdecl hfit hdepth inv lv (typed_numbers inv hlen) hopen ho

end PRpc
