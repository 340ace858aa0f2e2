import Verif.Spec.Setup
/-! What setting up leads to, in closed form. -/

namespace PRpc
open Spec

/-- What a call builds. -/
def built_of : SetupAct → UBuilt
  | .poststation k o i buf =>
    ⟨k, ⟨[⟨0xFF#8, 0xCA#8, 0x7D#8, some 4#8, [[⟨true, true, o, 64⟩, ⟨true, false, i, 64⟩]]⟩], 5#8, [.poststation]⟩, EUsbTx.new buf, i, o⟩
  | .plain k o i buf ifs hs =>
    ⟨k, ⟨⟨0xFF#8, 0#8, 0#8, none, [[⟨true, true, o, 64⟩, ⟨true, false, i, 64⟩]]⟩ :: ifs, 4#8, hs.map .app⟩, EUsbTx.new buf, i, o⟩

/-- The state after calls that worked. -/
def after (acts : List SetupAct) : SetupSt :=
  ⟨⟨(acts.map storageOf).reverse, (acts.map storageOf).reverse, acts.any isPost, if acts.any isPost then 4#8 else 0xFF#8⟩, acts.map built_of⟩

/-- When calls work. -/
def Works (acts : List SetupAct) : Prop := EachOnce acts ∧ acts.countP isPost ≤ 1

theorem works_snoc (acts : List SetupAct) (a : SetupAct) :
    Works (acts ++ [a]) ↔ Works acts ∧ storageOf a ∉ acts.map storageOf ∧ (isPost a = true → acts.any isPost = false) := by
  have hc : acts.any isPost = false ↔ acts.countP isPost = 0 := by
    rw [List.countP_eq_zero, List.any_eq_false]
  unfold Works EachOnce
  rw [List.map_append, List.nodup_append, List.countP_append, hc]
  constructor
  · rintro ⟨⟨h1, -, h3⟩, h4⟩
    refine ⟨⟨h1, by omega⟩, fun h => h3 _ h _ (by simp) rfl, fun h => ?_⟩
    simp [h] at h4
    rw [List.countP_eq_zero]
    simpa using h4
  · rintro ⟨⟨h1, h2⟩, h3, h4⟩
    refine ⟨⟨h1, by simp, fun x hx y hy => ?_⟩, ?_⟩
    · simp at hy
      subst hy
      intro h
      subst h
      exact h3 hx
    · cases h : isPost a
      · simp [h]
        exact h2
      · have := h4 h
        simp [h, this]

theorem setup_step_after (acts : List SetupAct) (a : SetupAct) :
    (Works (acts ++ [a]) → setup_step (after acts) a = .ok (after (acts ++ [a]))) ∧
      (Works acts → ¬ Works (acts ++ [a]) → setup_step (after acts) a = .panic) := by
  rw [works_snoc]
  cases a with
  | poststation k o i buf =>
    constructor
    · rintro ⟨-, h2, h3⟩
      have h3 := h3 rfl
      have hk : k ∉ (acts.map storageOf).reverse := by simpa [storageOf] using h2
      simp [setup_step, init_poststation, take_bufs, take_hdlr, init_cell, after, h3, hk, UBuilder.new, built_of, storageOf, isPost, Bind.bind, Exec.bind, pure, Pure.pure]
    · intro hw hn
      by_cases hk : k ∈ (acts.map storageOf).reverse
      · simp [setup_step, init_poststation, take_bufs, after, hk, Bind.bind, Exec.bind]
      · have h3 : acts.any isPost = true := by
          cases h : acts.any isPost
          · exact absurd ⟨hw, by simpa [storageOf] using hk, fun _ => h⟩ hn
          · rfl
        simp [setup_step, init_poststation, take_bufs, take_hdlr, after, hk, h3, Bind.bind, Exec.bind]
  | plain k o i buf ifs hs =>
    constructor
    · rintro ⟨-, h2, -⟩
      have hk : k ∉ (acts.map storageOf).reverse := by simpa [storageOf] using h2
      simp [setup_step, init_without_build, take_bufs, init_cell, after, hk, UBuilder.new, built_of, storageOf, isPost, Bind.bind, Exec.bind, pure, Pure.pure]
    · intro hw hn
      have hk : k ∈ (acts.map storageOf).reverse := by
        refine Classical.byContradiction fun h => hn ⟨hw, by simpa [storageOf] using h, nofun⟩
      simp [setup_step, init_without_build, take_bufs, after, hk, Bind.bind, Exec.bind]

theorem works_prefix (acts more : List SetupAct) (h : Works (acts ++ more)) : Works acts := by
  unfold Works EachOnce at h ⊢
  rw [List.map_append, List.nodup_append, List.countP_append] at h
  exact ⟨h.1.1, by omega⟩

/-- Calls that work lead to the closed form; others panic. -/
theorem setup_run_after (more acts : List SetupAct) (hw : Works acts) :
    (Works (acts ++ more) → setup_run more (after acts) = .ok (after (acts ++ more))) ∧
      (¬ Works (acts ++ more) → setup_run more (after acts) = .panic) := by
  induction more generalizing acts with
  | nil => simp [setup_run, hw]
  | cons a more ih =>
    have hsplit : acts ++ a :: more = (acts ++ [a]) ++ more := by simp
    rw [hsplit]
    by_cases ha : Works (acts ++ [a])
    · have := ih _ ha
      simp only [setup_run, (setup_step_after acts a).1 ha, Bind.bind, Exec.bind]
      exact this
    · refine ⟨fun h => absurd (works_prefix _ _ h) ha, fun _ => ?_⟩
      simp [setup_run, (setup_step_after acts a).2 hw ha, Bind.bind, Exec.bind]

theorem setup_run_start (acts : List SetupAct) :
    (Works acts → setup_run acts ⟨Statics.new, []⟩ = .ok (after acts)) ∧ (¬ Works acts → setup_run acts ⟨Statics.new, []⟩ = .panic) := by
  have h0 : (⟨Statics.new, []⟩ : SetupSt) = after [] := rfl
  rw [h0]
  simpa using setup_run_after acts [] ⟨by simp [EachOnce], by simp⟩

theorem listed_numbered (n : Nat) (is : List UIface) : listed n is = numbered n (is.map fun x => (x.cls, x.alts)) := by
  induction is generalizing n with
  | nil => rfl
  | cons i is ih => simp [listed, numbered, ih]

end PRpc
