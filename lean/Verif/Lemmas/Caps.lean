import Verif.Lemmas.BrxStep
/-! Helper lemmas for C101: the capacity of a topic's broadcast channels. -/

namespace PRpc

open Spec Props

/-- The channel of the topic has this capacity. -/
def CapOf (key : Key) (cap : Nat) (s : Subs) : Prop := ∀ b, (key, b) ∈ s.broadcast_list → s.bchans[b]? = some cap

theorem step_ents {cfg : Cfg} {s s' : Client} {l : Label} (h : step cfg s l = some s') (hl : ∀ key d, l ≠ .sub_multi key d) :
    ∀ e ∈ s'.subs.broadcast_list, e ∈ s.subs.broadcast_list := by
  have hj : s'.subs.brxs.length = s.subs.brxs.length := by
    rcases step_joined h with e | ⟨k, d, e, _⟩
    · have := congrArg List.length e
      simpa [Subs.joined] using this
    · exact absurd e (hl k d)
  have aux : ∀ {e e' : Bc}, BStep e e' → e'.rx.length = e.rx.length → ∀ x ∈ e'.bl, x ∈ e.bl := by
    intro e e' h
    cases h <;> intro hr x hx <;> first
      | exact hx
      | exact (List.mem_filter.mp hx).1
      | (simp at hr; done)
      | cases hx
  exact aux (step_bc h) hj

theorem capOf_step {cfg : Cfg} {s s' : Client} {l : Label} {key : Key} {cap : Nat} (h : step cfg s l = some s')
    (hl : ∀ d, l = .sub_multi key d → next_pow2 d d = cap) (hc : CapOf key cap s.subs) : CapOf key cap s'.subs := by
  obtain ⟨t, ht⟩ := step_bchans h
  have keep : ∀ b, s.subs.bchans[b]? = some cap → s'.subs.bchans[b]? = some cap := fun b hb => by
    rw [← ht, List.getElem?_append_left (List.getElem?_eq_some_iff.mp hb).1]
    exact hb
  by_cases hm : ∃ k d, l = .sub_multi k d
  · obtain ⟨k, d, rfl⟩ := hm
    intro b hb
    simp only [step] at h
    split at h
    · cases h
      revert hb
      clear ht keep
      simp only [subscribe_multi_inner]
      split
      · exact hc b
      · split
        · exact hc b
        · split
          · exact hc b
          · intro hb
            rcases List.mem_append.mp hb with hb | hb
            · have := hc b hb
              rw [List.getElem?_append_left (List.getElem?_eq_some_iff.mp this).1]
              exact this
            · cases List.mem_singleton.mp hb
              rw [List.getElem?_append_right (Nat.le_refl _), Nat.sub_self, hl d rfl]
              rfl
    · cases h
  · exact fun b hb => keep b (hc b (step_ents h (fun k d e => hm ⟨k, d, e⟩) _ hb))

theorem find_entry_mem {l : List (Key × Nat)} {key : Key} {b : Nat} (h : find_entry l key = some b) : (key, b) ∈ l := by
  simp only [find_entry, Option.map_eq_some_iff] at h
  obtain ⟨⟨k, b'⟩, h1, rfl⟩ := h
  have := List.find?_some h1
  simp only [decide_eq_true_eq] at this
  subst this
  exact List.mem_of_find?_eq_some h1

/-- A new receiver of a topic all of whose channels have the same capacity. -/
theorem healthy_starts_at {cfg : Cfg} {s s' : Client} {key : Key} {id d : Nat} (hc : CapOf key (next_pow2 d d) s.subs)
    (hs : (subscribe_multi_inner s.subs key d).1 = .Ok id) (h : step cfg s (.sub_multi key d) = some s') :
    Healthy (next_pow2 d d) s'.subs id := by
  simp only [step] at h
  split at h
  · cases h
    revert hs
    simp only [subscribe_multi_inner]
    split
    · intro hs; cases hs
    · split
      · rename_i b hb
        intro hs
        cases hs
        refine ⟨⟨b, [], 0, true, key, s.subs.arrived.length, [], 0⟩, ?_, rfl, rfl, hc b (find_entry_mem hb), Nat.zero_le _,
          fun h => absurd h (Nat.lt_irrefl 0)⟩
        simp
      · split
        · intro hs; cases hs
        · intro hs
          cases hs
          refine ⟨⟨s.subs.bchans.length, [], 0, true, key, s.subs.arrived.length, [], 0⟩, ?_, rfl, rfl, ?_, Nat.zero_le _,
            fun h => absurd h (Nat.lt_irrefl 0)⟩
          · simp
          · simp
  · cases h

end PRpc
