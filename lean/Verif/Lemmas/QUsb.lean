import Verif.Lemmas.QSysTypes
import Verif.Lemmas.UsbSim
import Verif.Spec.QUsb
/-! Helper lemmas for C91 over a USB cable: a query over the cable is one over links that carry whole messages. -/

namespace PRpc

open Spec Props

variable {V E SC Ctx : Type}

/-- The query may change its client where the cable does not look. -/
theorem usbInv_client {S : SysCfg V E SC Ctx} {u : UsbSys V E SC Ctx} {c : Client} (inv : UsbInv S u) (h : c.tx = u.sys.client.tx) :
    UsbInv S { u with sys := { u.sys with client := c } } := by
  obtain ⟨fp, f1, f2, f3⟩ := inv.stream
  refine ⟨?_, ⟨fp, f1, f2, ?_⟩, inv.idle, fun w hw => ?_⟩
  · show u.sys.taken ≤ c.tx.length
    rw [h]; exact inv.taken
  · show fp ++ u.ep_out ++ u.bus_out = (c.tx.drop u.sys.taken).flatMap host_packets
    rw [h]; exact f3
  · have i := inv.send w hw
    exact ⟨i.out, i.bytes, i.todo, i.full, i.le, i.first, i.cur⟩

theorem collect_poll_tx (qc : QCfg) (q : Query) (id : Nat) : (collect_poll qc q id).client.tx = q.client.tx := by
  rw [collect_poll]
  generalize multi_recv q.client.subs id = x
  obtain ⟨x1, x2⟩ := x
  cases x1 with
  | none =>
    simp only
    split <;> rfl
  | some y =>
    cases y with
    | Ok f =>
      simp only
      cases qc.decode f.body <;> rfl
    | IoClosed => rfl
    | Lagged n => rfl

/-- The query's own steps send nothing themselves. -/
theorem q_step_tx {qc : QCfg} {q q' : Query} {l : QLabel} (hl : ∀ l', l ≠ .client l') (h : q_step qc q l = some q') :
    q'.client.tx = q.client.tx := by
  cases l with
  | client l => exact absurd rfl (hl l)
  | tick => cases h; rfl
  | subscribe =>
    simp only [q_step] at h
    split at h
    · cases h
    · obtain ⟨c, hc, hq⟩ := Option.map_eq_some_iff.mp h
      have := step_tx_same (by intro h; cases h) hc
      subst hq
      split <;> exact this
  | trigger =>
    simp only [q_step] at h
    split at h
    · obtain ⟨c, hc, hq⟩ := Option.map_eq_some_iff.mp h
      have := step_tx_same (by intro h; cases h) hc
      subst hq
      exact this
    · cases h
  | poll =>
    simp only [q_step] at h
    split at h
    · split at h
      · cases h
      · cases h; exact collect_poll_tx ..
    · cases h

/-- Which step over whole messages a step over the cable stands for. -/
inductive QStands : QULabel V → QSLabel V → Prop where
  | query (l : QLabel) : QStands (.query l) (.query l)
  | server (l : ULabel V) (l' : SLabel V) : (∀ c, l ≠ .client c) → Stands l l' → QStands (.usb l) (.server l')

/-- A run of the query without steps of the client that change nothing. -/
inductive QThinned (qc : QCfg) : Query → List QLabel → List QLabel → Prop where
  | nil (q : Query) : QThinned qc q [] []
  | keep {q q' : Query} {l : QLabel} {ls ls' : List QLabel} : q_step qc q l = some q' → QThinned qc q' ls ls' → QThinned qc q (l :: ls) (l :: ls')
  | skip {q : Query} {l : Label} {ls ls' : List QLabel} : q_step qc q (.client l) = some q → QThinned qc q ls ls' →
      QThinned qc q (.client l :: ls) ls'

theorem QThinned.mem {qc : QCfg} {q : Query} {ls ls' : List QLabel} (h : QThinned qc q ls ls') : ∀ l ∈ ls', l ∈ ls := by
  induction h with
  | nil => exact fun l h => h
  | keep _ _ ih =>
    intro l hl
    rcases List.mem_cons.mp hl with rfl | hl
    · exact List.mem_cons_self ..
    · exact List.mem_cons_of_mem _ (ih l hl)
  | skip _ _ ih => exact fun l hl => List.mem_cons_of_mem _ (ih l hl)

theorem QThinned.prefix {qc : QCfg} {q : Query} {ls ls' : List QLabel} (h : QThinned qc q ls ls') : ∀ {as' bs' : List QLabel} {t : Query} (n : Nat),
    ls' = as' ++ bs' → q_run qc as' q = some t →
    ∃ as bs, ls = as ++ bs ∧ q_run qc as q = some t ∧ silence qc as q n = silence qc as' q n := by
  induction h with
  | nil q =>
    intro as' bs' t n e hr
    obtain ⟨rfl, rfl⟩ := List.append_eq_nil_iff.mp e.symm
    exact ⟨[], [], rfl, hr, rfl⟩
  | @keep q q' l ls ls' hs _ ih =>
    intro as' bs' t n e hr
    cases as' with
    | nil => exact ⟨[], _, rfl, hr, rfl⟩
    | cons l1 as' =>
      simp only [List.cons_append, List.cons.injEq] at e
      obtain ⟨rfl, e⟩ := e
      simp only [q_run, hs] at hr
      obtain ⟨as, bs, h1, h2, h3⟩ := ih _ e hr
      exact ⟨l :: as, bs, by rw [h1]; rfl, by simp only [q_run, hs]; exact h2, by simp only [silence, hs]; exact h3⟩
  | @skip q l ls ls' hs _ ih =>
    intro as' bs' t n e hr
    obtain ⟨as, bs, h1, h2, h3⟩ := ih n e hr
    refine ⟨.client l :: as, bs, by rw [h1]; rfl, by simp only [q_run, hs]; exact h2, ?_⟩
    simp only [silence, hs, if_true]
    exact h3

theorem QThinned.throughout {qc : QCfg} {P : Query → Nat → Prop} {ls ls' : List QLabel} (h : QThinned qc Query.new ls ls')
    (hp : Throughout qc P ls) : Throughout qc P ls' := by
  intro as' bs' t e hr
  obtain ⟨as, bs, h1, h2, h3⟩ := h.prefix 0 e hr
  rw [← h3]
  exact hp as bs t h1 h2

/-- A step over the cable. -/
theorem qu_sim {Q : QUsbCfg V E SC Ctx} (hU : UsbSound Q.U) {x x' : QUsb V E SC Ctx} {l : QULabel V} (inv : UsbInv Q.U.S x.u)
    (hsm : Small Q.U.S x.u.sys) (same : x.u.sys.client = x.q.client) (h : qu_step Q x l = some x') :
    UsbInv Q.U.S x'.u ∧ x'.u.sys.client = x'.q.client ∧
    ((x'.q = x.q ∧ x'.u.abs = x.u.abs ∧ ∀ ql, l = .query ql → ∃ cl, ql = .client cl ∧ q_step Q.plain.qc x.q (.client cl) = some x.q) ∨
      ∃ l', QStands l l' ∧ qs_step Q.plain ⟨x.q, x.u.abs⟩ l' = some ⟨x'.q, x'.u.abs⟩ ∧
        (∀ ql, l = .query ql → q_step Q.plain.qc x.q ql = some x'.q)) := by
  have own : ∀ {ql : QLabel}, (∀ l', ql ≠ .client l') →
      ((q_step Q.plain.qc x.q ql).map fun q => (⟨q, { x.u with sys := { x.u.sys with client := q.client } }⟩ : QUsb V E SC Ctx)) = some x' →
      (∀ y : QSys V E SC Ctx, qs_step Q.plain y (.query ql) =
        (q_step Q.plain.qc y.q ql).map fun q => ⟨q, { y.s with client := q.client }⟩) → l = .query ql →
      UsbInv Q.U.S x'.u ∧ x'.u.sys.client = x'.q.client ∧
      ((x'.q = x.q ∧ x'.u.abs = x.u.abs ∧ ∀ ql, l = .query ql → ∃ cl, ql = .client cl ∧ q_step Q.plain.qc x.q (.client cl) = some x.q) ∨
      ∃ l', QStands l l' ∧ qs_step Q.plain ⟨x.q, x.u.abs⟩ l' = some ⟨x'.q, x'.u.abs⟩ ∧
        (∀ ql, l = .query ql → q_step Q.plain.qc x.q ql = some x'.q)) := by
    intro ql hl h0 hq e
    subst e
    obtain ⟨q, h1, rfl⟩ := Option.map_eq_some_iff.mp h0
    have htx := q_step_tx hl h1
    refine ⟨usbInv_client inv (by rw [htx, same]), rfl, .inr ⟨_, .query ql, ?_, ?_⟩⟩
    · rw [hq, h1]; rfl
    · intro ql' e; cases e; exact h1
  cases l with
  | query ql =>
    cases ql with
    | client l =>
      simp only [qu_step] at h
      split at h
      · cases h
      · rename_i hown
        obtain ⟨u, hu, rfl⟩ := Option.map_eq_some_iff.mp h
        obtain ⟨i, hs⟩ := sim_client inv hu
        refine ⟨i, rfl, ?_⟩
        rcases hs with ⟨rfl, e1, _, e2⟩ | hs
        · left
          have eq : ({ x.q with client := u.sys.client } : Query) = x.q := by rw [e2, same]
          refine ⟨eq, e1, fun ql e => ?_⟩
          cases e
          refine ⟨_, rfl, ?_⟩
          obtain ⟨s, hcs, hcase⟩ := u_client_cases hu
          have hss : s.client = u.sys.client := by rcases hcase with ⟨_, rfl⟩ | ⟨_, _, rfl⟩ <;> rfl
          have := client_step_step hcs
          rw [hss, same] at this
          simp only [q_step, if_neg hown]
          show (step Q.U.S.cfg x.q.client _).map _ = _
          rw [this]
          exact congrArg some eq
        · right
          refine ⟨_, .query _, ?_, fun ql e => ?_⟩
          · simp only [qs_step, if_neg hown]
            show (client_step Q.U.S x.u.abs l).map _ = _
            rw [show client_step Q.U.S x.u.abs l = some u.abs from hs]
            rfl
          · cases e
            have := client_step_step (show client_step Q.U.S x.u.abs l = some u.abs from hs)
            simp only [q_step, if_neg hown]
            show (step Q.U.S.cfg x.q.client _).map _ = _
            rw [← same, show step Q.U.S.cfg x.u.sys.client l = some u.sys.client from this]
            rfl
    | tick => exact own (ql := .tick) (fun l' e => by cases e) h (fun _ => rfl) rfl
    | subscribe => exact own (ql := .subscribe) (fun l' e => by cases e) h (fun _ => rfl) rfl
    | trigger => exact own (ql := .trigger) (fun l' e => by cases e) h (fun _ => rfl) rfl
    | poll => exact own (ql := .poll) (fun l' e => by cases e) h (fun _ => rfl) rfl
  | usb l =>
    have hl : ∀ l', l ≠ .client l' := by rintro l' rfl; cases h
    have h' : (u_step Q.U x.u l).map (fun u => (⟨x.q, u⟩ : QUsb V E SC Ctx)) = some x' := by
      cases l with
      | client l => exact absurd rfl (hl l)
      | _ => exact h
    obtain ⟨u, hu, rfl⟩ := Option.map_eq_some_iff.mp h'
    obtain ⟨i, hs⟩ := sim_step hU.buffer hU.some_buffer inv hsm hu
    have hc : u.sys.client = x.u.sys.client := by
      rcases hs with e | ⟨l', hst, hs⟩
      · have := congrArg (fun s => s.client) e
        exact this
      · have := server_client (fun l'' e => by subst e; cases hst; exact hl _ rfl) hs
        exact this
    refine ⟨i, hc.trans same, ?_⟩
    rcases hs with e | ⟨l', hst, hs⟩
    · exact .inl ⟨rfl, e, fun ql e => nomatch e⟩
    · refine .inr ⟨_, .server l l' hl hst, ?_, fun ql e => nomatch e⟩
      cases l' with
      | client l' => cases hst; exact absurd rfl (hl _)
      | _ => simp only [qs_step]; rw [show sys_step Q.plain.S x.u.abs _ = some u.abs from hs]; rfl

theorem qu_step_grows {Q : QUsbCfg V E SC Ctx} {x x' : QUsb V E SC Ctx} {l : QULabel V} (h : qu_step Q x l = some x') :
    x.u.sys.outs <+: x'.u.sys.outs := by
  have own : ∀ {ql : QLabel},
      ((q_step Q.plain.qc x.q ql).map fun q => (⟨q, { x.u with sys := { x.u.sys with client := q.client } }⟩ : QUsb V E SC Ctx)) = some x' →
      x.u.sys.outs <+: x'.u.sys.outs := by
    intro ql h
    obtain ⟨q, h1, rfl⟩ := Option.map_eq_some_iff.mp h
    exact List.prefix_rfl
  have one : ∀ {l : ULabel V} {u : UsbSys V E SC Ctx}, u_step Q.U x.u l = some u → x.u.sys.outs <+: u.sys.outs := by
    intro l u hu
    obtain ⟨x1, h1⟩ := (u_run_grows (ls := [l]) (u' := u) (by simp only [u_run]; rw [hu])).1
    exact ⟨x1, h1.symm⟩
  cases l with
  | query ql =>
    cases ql with
    | client l =>
      simp only [qu_step] at h
      split at h
      · cases h
      · obtain ⟨u, hu, rfl⟩ := Option.map_eq_some_iff.mp h
        exact one (l := .client l) hu
    | tick => exact own (ql := .tick) h
    | subscribe => exact own (ql := .subscribe) h
    | trigger => exact own (ql := .trigger) h
    | poll => exact own (ql := .poll) h
  | usb l =>
    cases l with
    | client l => cases h
    | _ =>
      obtain ⟨u, hu, rfl⟩ := Option.map_eq_some_iff.mp h
      exact one hu

theorem qu_run_grows {Q : QUsbCfg V E SC Ctx} {ls : List (QULabel V)} {x x' : QUsb V E SC Ctx} (h : qu_run Q ls x = some x') :
    x.u.sys.outs <+: x'.u.sys.outs := by
  induction ls generalizing x with
  | nil => cases h; exact List.prefix_rfl
  | cons l ls ih =>
    simp only [qu_run] at h
    split at h
    · rename_i x1 h1
      exact (qu_step_grows h1).trans (ih h)
    · cases h

/-- A run over the cable. -/
theorem qu_sim_run {Q : QUsbCfg V E SC Ctx} (hU : UsbSound Q.U) {ls : List (QULabel V)} : ∀ {x x' : QUsb V E SC Ctx}, UsbInv Q.U.S x.u →
    x.u.sys.client = x.q.client → Small Q.U.S x'.u.sys → qu_run Q ls x = some x' →
    ∃ ls', qs_run Q.plain ls' ⟨x.q, x.u.abs⟩ = some ⟨x'.q, x'.u.abs⟩ ∧ (∀ l' ∈ ls', ∃ l ∈ ls, QStands l l') ∧
      QThinned Q.plain.qc x.q (usbQueryPart ls) (queryPart ls') := by
  induction ls with
  | nil => intro x x' _ _ _ h; cases h; exact ⟨[], rfl, by simp, .nil _⟩
  | cons l ls ih =>
    intro x x' inv same hsm h
    have hg : ∃ o, x'.u.sys.outs = x.u.sys.outs ++ o := by
      obtain ⟨o, ho⟩ := qu_run_grows h
      exact ⟨o, ho.symm⟩
    simp only [qu_run] at h
    split at h
    · rename_i x1 h1
      obtain ⟨i, s1, hs⟩ := qu_sim hU inv (small_before hsm hg) same h1
      obtain ⟨ls', r1, r2, r3⟩ := ih i s1 hsm h
      rcases hs with ⟨e1, e2, e3⟩ | ⟨l', hst, hs, hq⟩
      · rw [e1, e2] at r1
        rw [e1] at r3
        refine ⟨ls', r1, fun y hy => by obtain ⟨z, hz, hh⟩ := r2 y hy; exact ⟨z, List.mem_cons_of_mem _ hz, hh⟩, ?_⟩
        cases l with
        | usb l => exact r3
        | query ql =>
          obtain ⟨cl, rfl, hcl⟩ := e3 ql rfl
          exact .skip hcl r3
      · refine ⟨l' :: ls', by simp only [qs_run, hs, r1], fun y hy => ?_, ?_⟩
        · rcases List.mem_cons.mp hy with rfl | hy
          · exact ⟨l, List.mem_cons_self .., hst⟩
          · obtain ⟨z, hz, hh⟩ := r2 y hy
            exact ⟨z, List.mem_cons_of_mem _ hz, hh⟩
        · cases hst with
          | query ql => exact .keep (hq ql rfl) r3
          | server l l' hne hst =>
            have : x1.q = x.q := by
              cases l with
              | client l => cases h1
              | _ => obtain ⟨u, _, rfl⟩ := Option.map_eq_some_iff.mp h1; rfl
            rw [this] at r3
            exact r3
    · cases h

end PRpc
