import Verif.Spec.Context
import Verif.Lemmas.Schemas
import Verif.Lemmas.Dispatch
/-! Helper lemmas for C69. -/

namespace PRpc

open Spec

variable {V E SC Ctx : Type}

/-- No row is for a frame that is for a standard endpoint, too short or unknown. -/
theorem noHandler_of {D : Dispatcher V E SC Ctx} {hdr : VarHeader} {body : Bytes} (h : ¬ (LongEnough D hdr ∧ NotStd D hdr)) :
    NoHandler D hdr body :=
  ⟨fun _ hf => absurd ⟨hf.long, hf.notStd⟩ h, fun _ hf => absurd ⟨hf.long, hf.notStd⟩ h⟩

theorem handlerSends_append (a b : List (Event V E SC)) : handlerSends (a ++ b) = handlerSends a ++ handlerSends b := by
  induction a with
  | nil => rfl
  | cons e a ih =>
    cases e with
    | sent who f r => cases who <;> simp [handlerSends, ih]
    | ran => simp [handlerSends, ih]
    | spawned => simp [handlerSends, ih]

theorem handlerSends_own {ev : List (Event V E SC)} (h : AllSent ev) : handlerSends ev = [] := by
  induction ev with
  | nil => rfl
  | cons e ev ih =>
    have h1 := h e (List.mem_cons_self ..)
    have h2 := ih (fun x hx => h x (List.mem_cons_of_mem _ hx))
    obtain ⟨f, r, rfl⟩ := h1
    exact h2

theorem prog_run_ends (env : Env V E SC) (p : Prog V E Ctx) (s : St V E SC Ctx) :
    ∃ ev, (p.run env s).log = s.log ++ ev ∧ Ends p (handlerSends ev) (p.run env s).ctx := by
  induction p generalizing s with
  | done c => exact ⟨[], by simp [Prog.run], .done c⟩
  | send f k ih =>
    obtain ⟨ev, h1, h2⟩ := ih (env.send s.log f) (wire_send env .handler f s).2
    refine ⟨.sent .handler f (env.send s.log f) :: ev, ?_, ?_⟩
    · show ((k (env.send s.log f)).run env (wire_send env .handler f s).2).log = _
      rw [h1]
      simp [wire_send, St.note]
    · exact .send f k _ _ _ h2

theorem first_unique {α : Type} {l pre pre' post post' : List α} {x y : α} {P : α → Prop} (h1 : l = pre ++ x :: post)
    (h2 : l = pre' ++ y :: post') (hp : ∀ g ∈ pre, ¬ P g) (hp' : ∀ g ∈ pre', ¬ P g) (hx : P x) (hy : P y) : x = y := by
  subst h1
  induction pre generalizing pre' with
  | nil =>
    cases pre' with
    | nil => simp at h2; exact h2.1
    | cons a pre' =>
      simp only [List.nil_append, List.cons_append, List.cons.injEq] at h2
      exact absurd (h2.1 ▸ hx) (hp' a (List.mem_cons_self ..))
  | cons b pre ih =>
    cases pre' with
    | nil =>
      simp only [List.nil_append, List.cons_append, List.cons.injEq] at h2
      exact absurd (h2.1 ▸ hy) (hp b (List.mem_cons_self ..))
    | cons a pre' =>
      simp only [List.cons_append, List.cons.injEq] at h2
      exact ih (fun g hg => hp g (List.mem_cons_of_mem _ hg)) (fun g hg => hp' g (List.mem_cons_of_mem _ hg)) h2.2

theorem forEndpoint_unique {D : Dispatcher V E SC Ctx} {hdr : VarHeader} {g h : EpHandler V Ctx} (h1 : ForEndpoint D hdr g)
    (h2 : ForEndpoint D hdr h) : g = h := by
  obtain ⟨pre, post, e, hp⟩ := h1.first
  obtain ⟨pre', post', e', hp'⟩ := h2.first
  exact first_unique (P := fun g : EpHandler V Ctx => rxShort D hdr = short (keyLen D.n) g.req) e e' hp hp' h1.here h2.here

theorem forTopic_unique {D : Dispatcher V E SC Ctx} {hdr : VarHeader} {g h : TpHandler V E Ctx} (h1 : ForTopic D hdr g)
    (h2 : ForTopic D hdr h) : g = h := by
  obtain ⟨pre, post, e, hp⟩ := h1.first
  obtain ⟨pre', post', e', hp'⟩ := h2.first
  exact first_unique (P := fun g : TpHandler V E Ctx => rxShort D hdr = short (keyLen D.n) g.key) e e' hp hp' h1.here h2.here

theorem forEndpoint_mem {D : Dispatcher V E SC Ctx} {hdr : VarHeader} {g : EpHandler V Ctx} (h : ForEndpoint D hdr g) : g ∈ D.eps := by
  obtain ⟨pre, post, e, _⟩ := h.first
  rw [e]; simp

end PRpc
