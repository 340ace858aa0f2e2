import Verif.Lemmas.MinKey
/-!
Property theorems C09-C10: the key-length calculator and the dispatcher's key length.
-/

namespace PRpc.Props

open PRpc

/-- C09: the calculator returns `n` exactly when `n` is the least legal key length at which all keys of all lists
together have pairwise different short forms. -/
theorem c09_min_key_least (lists : List (List Key)) (n : Nat) :
    min_key_needed lists = .ok n ↔
      Spec.KeySize n ∧ Spec.DistinctAt n lists.flatten ∧
        ∀ m, Spec.KeySize m → m < n → ¬ Spec.DistinctAt m lists.flatten := by
  rw [min_key_needed_eq]
  constructor
  · intro h
    by_cases h1 : Spec.DistinctAt 1 lists.flatten
    · rw [if_pos h1] at h; cases h
      exact ⟨Or.inl rfl, h1, fun m hm hlt => by rcases hm with rfl | rfl | rfl | rfl <;> omega⟩
    rw [if_neg h1] at h
    by_cases h2 : Spec.DistinctAt 2 lists.flatten
    · rw [if_pos h2] at h; cases h
      refine ⟨Or.inr (Or.inl rfl), h2, fun m hm hlt => ?_⟩
      rcases hm with rfl | rfl | rfl | rfl <;> first | omega | assumption
    rw [if_neg h2] at h
    by_cases h4 : Spec.DistinctAt 4 lists.flatten
    · rw [if_pos h4] at h; cases h
      refine ⟨Or.inr (Or.inr (Or.inl rfl)), h4, fun m hm hlt => ?_⟩
      rcases hm with rfl | rfl | rfl | rfl <;> first | omega | assumption
    rw [if_neg h4] at h
    by_cases h8 : Spec.DistinctAt 8 lists.flatten
    · rw [if_pos h8] at h; cases h
      refine ⟨Or.inr (Or.inr (Or.inr rfl)), h8, fun m hm hlt => ?_⟩
      rcases hm with rfl | rfl | rfl | rfl <;> first | omega | assumption
    rw [if_neg h8] at h
    cases h
  · rintro ⟨hn, hd, hmin⟩
    rcases hn with rfl | rfl | rfl | rfl
    · rw [if_pos hd]
    · rw [if_neg (hmin 1 (by simp [Spec.KeySize]) (by omega)), if_pos hd]
    · rw [if_neg (hmin 1 (by simp [Spec.KeySize]) (by omega)), if_neg (hmin 2 (by simp [Spec.KeySize]) (by omega)),
        if_pos hd]
    · rw [if_neg (hmin 1 (by simp [Spec.KeySize]) (by omega)), if_neg (hmin 2 (by simp [Spec.KeySize]) (by omega)),
        if_neg (hmin 4 (by simp [Spec.KeySize]) (by omega)), if_pos hd]

/-- Two keys that collide at one byte but not at two, in different lists. -/
example : min_key_needed [[⟨1#8, 0#8, 0#8, 0#8, 0#8, 0#8, 0#8, 0#8⟩], [⟨0#8, 0#8, 0#8, 0#8, 0#8, 0#8, 0#8, 1#8⟩]] =
    .ok 2 := by decide +kernel

/-- C09: the calculator panics exactly when some full key occurs twice. -/
theorem c09_min_key_panics_iff (lists : List (List Key)) :
    min_key_needed lists = .panic ↔ ¬ lists.flatten.Nodup := by
  rw [min_key_needed_eq]
  have h8 : Spec.DistinctAt 8 lists.flatten ↔ lists.flatten.Nodup := by
    rw [← nodup_map_iff mk_eight 8 mk_eight_iff]
    unfold List.Nodup
    rw [List.pairwise_map]
    simp only [mk_eight, ne_eq, to_u64_inj]
  rw [← h8]
  have m1 : Spec.DistinctAt 1 lists.flatten → Spec.DistinctAt 8 lists.flatten :=
    distinct_mono (by simp [Spec.KeySize]) (by simp [Spec.KeySize]) (by omega)
  have m2 : Spec.DistinctAt 2 lists.flatten → Spec.DistinctAt 8 lists.flatten :=
    distinct_mono (by simp [Spec.KeySize]) (by simp [Spec.KeySize]) (by omega)
  have m4 : Spec.DistinctAt 4 lists.flatten → Spec.DistinctAt 8 lists.flatten :=
    distinct_mono (by simp [Spec.KeySize]) (by simp [Spec.KeySize]) (by omega)
  constructor
  · intro h
    repeat' split at h
    all_goals first | (cases h; done) | assumption
  · intro h
    rw [if_neg (fun q => h (m1 q)), if_neg (fun q => h (m2 q)), if_neg (fun q => h (m4 q)), if_neg h]

example : min_key_needed [[⟨1#8, 0#8, 0#8, 0#8, 0#8, 0#8, 0#8, 0#8⟩], [⟨1#8, 0#8, 0#8, 0#8, 0#8, 0#8, 0#8, 0#8⟩]] =
    .panic := by decide +kernel

/-- C09: distinctness at one key length implies distinctness at every longer one. -/
theorem c09_distinct_mono (m n : Nat) (hm : Spec.KeySize m) (hn : Spec.KeySize n) (h : m ≤ n) (ks : List Key)
    (d : Spec.DistinctAt m ks) : Spec.DistinctAt n ks := distinct_mono hm hn h d

example : Spec.KeySize 2 ∧ Spec.KeySize 8 ∧
    Spec.DistinctAt 2 [⟨1#8, 0#8, 0#8, 0#8, 0#8, 0#8, 0#8, 0#8⟩, ⟨0#8, 0#8, 0#8, 0#8, 0#8, 0#8, 0#8, 1#8⟩] := by
  refine ⟨by simp [Spec.KeySize], by simp [Spec.KeySize], ?_⟩
  rw [← nodup_map_iff mk_two 2 mk_two_iff]
  decide +kernel

/-- C10: when compilation succeeds, the chosen length is legal, all incoming keys (requests and incoming topics) are
pairwise distinct at it, all outgoing keys (responses and outgoing topics) are, and every handler is declared. -/
theorem c10_dispatcher_key_length (s : SizerIn) (n : Nat) (h : needed_sz s = .ok n) :
    Spec.KeySize n ∧
    Spec.DistinctAt n (s.endpoints.map (·.req) ++ s.topics_in.map (·.key)) ∧
    Spec.DistinctAt n (s.endpoints.map (·.resp) ++ s.topics_out.map (·.key)) ∧
    (∀ e ∈ s.handler_eps, e.1 ∈ s.endpoints.map (·.req) ∧ e.2 ∈ s.endpoints.map (·.resp)) ∧
    (∀ k ∈ s.handler_tps, k ∈ s.topics_in.map (·.key)) := by
  obtain ⟨i, o, hi, ho, ⟨h1, h2, h3⟩, hn⟩ := needed_sz_ok h
  obtain ⟨ki, di, _⟩ := (c09_min_key_least _ _).mp hi
  obtain ⟨ko, d_o, _⟩ := (c09_min_key_least _ _).mp ho
  simp only [List.flatten_cons, List.flatten_nil, List.append_nil] at di d_o
  have kn : Spec.KeySize n := by rw [hn]; rcases Nat.le_total i o with h | h <;> simp [h, ki, ko]
  refine ⟨kn, distinct_mono ki kn (by omega) di, distinct_mono ko kn (by omega) d_o, ?_, h3⟩
  intro e he
  exact ⟨h1 _ (List.mem_map_of_mem he), h2 _ (List.mem_map_of_mem he)⟩

/-- The interface used in the non-vacuity examples: two endpoints, one incoming and one outgoing topic. -/
def exSizer : SizerIn where
  endpoints := [⟨[97#8], ⟨1#8, 0#8, 0#8, 0#8, 0#8, 0#8, 0#8, 0#8⟩, ⟨9#8, 0#8, 0#8, 0#8, 0#8, 0#8, 0#8, 0#8⟩⟩,
    ⟨[98#8], ⟨0#8, 0#8, 0#8, 0#8, 0#8, 0#8, 0#8, 1#8⟩, ⟨7#8, 0#8, 0#8, 0#8, 0#8, 0#8, 0#8, 0#8⟩⟩]
  topics_in := [⟨[99#8], ⟨3#8, 0#8, 0#8, 0#8, 0#8, 0#8, 0#8, 0#8⟩⟩]
  topics_out := [⟨[100#8], ⟨5#8, 0#8, 0#8, 0#8, 0#8, 0#8, 0#8, 0#8⟩⟩]
  handler_eps := [(⟨1#8, 0#8, 0#8, 0#8, 0#8, 0#8, 0#8, 0#8⟩, ⟨9#8, 0#8, 0#8, 0#8, 0#8, 0#8, 0#8, 0#8⟩)]
  handler_tps := [⟨3#8, 0#8, 0#8, 0#8, 0#8, 0#8, 0#8, 0#8⟩]

example : needed_sz exSizer = .ok 2 := by decide +kernel

/-- C10: the chosen length is the least one that is collision-free in both directions. -/
theorem c10_dispatcher_key_length_least (s : SizerIn) (n m : Nat) (h : needed_sz s = .ok n) (hm : Spec.KeySize m)
    (di : Spec.DistinctAt m (s.endpoints.map (·.req) ++ s.topics_in.map (·.key)))
    (dout : Spec.DistinctAt m (s.endpoints.map (·.resp) ++ s.topics_out.map (·.key))) : n ≤ m := by
  obtain ⟨i, o, hi, ho, _, hn⟩ := needed_sz_ok h
  obtain ⟨_, _, mi⟩ := (c09_min_key_least _ _).mp hi
  obtain ⟨_, _, mo⟩ := (c09_min_key_least _ _).mp ho
  simp only [List.flatten_cons, List.flatten_nil, List.append_nil] at mi mo
  have a : ¬ m < i := fun q => mi m hm q di
  have b : ¬ m < o := fun q => mo m hm q dout
  omega

example : Spec.DistinctAt 4 (exSizer.endpoints.map (·.req) ++ exSizer.topics_in.map (·.key)) ∧
    Spec.DistinctAt 4 (exSizer.endpoints.map (·.resp) ++ exSizer.topics_out.map (·.key)) := by
  rw [← nodup_map_iff mk_four 4 mk_four_iff, ← nodup_map_iff mk_four 4 mk_four_iff]
  decide +kernel

/-- C10: compilation is refused exactly when a handler is undeclared or a full key occurs twice in one direction. -/
theorem c10_dispatcher_refused_iff (s : SizerIn) :
    needed_sz s = .panic ↔
      (∃ e ∈ s.handler_eps, e.1 ∉ s.endpoints.map (·.req) ∨ e.2 ∉ s.endpoints.map (·.resp)) ∨
      (∃ k ∈ s.handler_tps, k ∉ s.topics_in.map (·.key)) ∨
      ¬ (s.endpoints.map (·.req) ++ s.topics_in.map (·.key)).Nodup ∨
      ¬ (s.endpoints.map (·.resp) ++ s.topics_out.map (·.key)).Nodup := by
  have pi := c09_min_key_panics_iff [s.endpoints.map (·.req), s.topics_in.map (·.key)]
  have po := c09_min_key_panics_iff [s.endpoints.map (·.resp), s.topics_out.map (·.key)]
  simp only [List.flatten_cons, List.flatten_nil, List.append_nil] at pi po
  rw [needed_sz_panic, subset_iff, subset_iff, subset_iff, ← pi, ← po]
  simp only [needed_sz_in, needed_sz_out, List.forall_mem_map]
  constructor
  · rintro (h | h | h | h | h)
    · simp only [Classical.not_forall] at h
      obtain ⟨e, he, q⟩ := h
      exact Or.inl ⟨e, he, Or.inl q⟩
    · simp only [Classical.not_forall] at h
      obtain ⟨e, he, q⟩ := h
      exact Or.inl ⟨e, he, Or.inr q⟩
    · simp only [Classical.not_forall] at h
      obtain ⟨e, he, q⟩ := h
      exact Or.inr (Or.inl ⟨e, he, q⟩)
    · exact Or.inr (Or.inr (Or.inl h))
    · exact Or.inr (Or.inr (Or.inr h))
  · rintro (⟨e, he, q | q⟩ | ⟨e, he, q⟩ | h | h)
    · exact Or.inl fun a => q (a e he)
    · exact Or.inr (Or.inl fun a => q (a e he))
    · exact Or.inr (Or.inr (Or.inl fun a => q (a e he)))
    · exact Or.inr (Or.inr (Or.inr (Or.inl h)))
    · exact Or.inr (Or.inr (Or.inr (Or.inr h)))

example : needed_sz { exSizer with handler_tps := [⟨4#8, 0#8, 0#8, 0#8, 0#8, 0#8, 0#8, 0#8⟩] } = .panic := by
  decide +kernel

/-- C10: the device map's kind is defined for every length the calculator can choose (no `unreachable!`). -/
theorem c10_kind_of_sz (s : SizerIn) (n : Nat) (h : needed_sz s = .ok n) :
    ∃ k, kind_of_sz n = .ok k ∧ Spec.keyLen k = n := by
  rcases (c10_dispatcher_key_length s n h).1 with rfl | rfl | rfl | rfl
  · exact ⟨.Key1, rfl, rfl⟩
  · exact ⟨.Key2, rfl, rfl⟩
  · exact ⟨.Key4, rfl, rfl⟩
  · exact ⟨.Key8, rfl, rfl⟩

example : kind_of_sz 2 = .ok .Key2 := by decide

end PRpc.Props
