import Verif.Spec.MinKey
import Verif.Lemmas.Key
import Verif.Lemmas.Header
/-! Helper lemmas for the key-length calculator. -/

namespace PRpc

section
variable {α : Type} [DecidableEq α]

theorem kc_y_eq (func : Key → α) (akey : α) (xlist : List Key) (y : Nat) :
    kc_y func akey xlist y = true ↔ akey ∉ (xlist.drop y).map func := by
  fun_induction kc_y with
  | case1 y h ykey bkey he =>
    rw [List.drop_eq_getElem_cons h, List.map_cons]
    simp [he, bkey, ykey]
  | case2 y h ykey bkey he ih =>
    rw [ih, List.drop_eq_getElem_cons h, List.map_cons, List.mem_cons]
    simp only [not_or]
    exact ⟨fun h => ⟨he, h⟩, fun h => h.2⟩
  | case3 y h =>
    rw [List.drop_eq_nil_of_le (by omega)]; simp

theorem kc_x_after (func : Key → α) (lists : List (List Key)) (akey : α) (i j x : Nat) (hx : i < x) :
    kc_x func lists akey i j x = true ↔ akey ∉ (lists.drop x).flatten.map func := by
  fun_induction kc_x with
  | case1 x h xlist y hy ih =>
    have hne : x ≠ i := by omega
    rw [ih (by omega), List.drop_eq_getElem_cons h, List.flatten_cons, List.map_append, List.mem_append]
    rw [kc_y_eq] at hy
    simp [y, hne] at hy
    simp only [not_or]
    exact ⟨fun h => ⟨by simpa using hy, h⟩, fun h => h.2⟩
  | case2 x h xlist y hy =>
    have hne : x ≠ i := by omega
    rw [kc_y_eq] at hy
    simp [y, hne] at hy
    rw [List.drop_eq_getElem_cons h, List.flatten_cons, List.map_append, List.mem_append]
    simp only [Bool.false_eq_true, false_iff]
    exact fun q => q (Or.inl (by simpa using hy))
  | case3 x h =>
    rw [List.drop_eq_nil_of_le (by omega)]; simp

theorem kc_x_start (func : Key → α) (lists : List (List Key)) (akey : α) (i j : Nat) (hi : i < lists.length) :
    kc_x func lists akey i j i = true ↔
      akey ∉ (lists[i].drop (j + 1) ++ (lists.drop (i + 1)).flatten).map func := by
  rw [kc_x, dif_pos hi]
  simp only [reduceIte]
  rw [List.map_append, List.mem_append, not_or]
  split
  · rename_i h
    rw [kc_x_after _ _ _ _ _ _ (by omega)]
    rw [kc_y_eq] at h
    exact ⟨fun x => ⟨h, x⟩, fun x => x.2⟩
  · rename_i h
    rw [kc_y_eq] at h
    simp only [Bool.false_eq_true, false_iff]
    exact fun x => h x.1

theorem kc_j_eq (func : Key → α) (lists : List (List Key)) (i j : Nat) (hi : i < lists.length)
    (hrest : ((lists.drop (i + 1)).flatten.map func).Nodup) :
    kc_j func lists i lists[i] j = true ↔
      ((lists[i].drop j ++ (lists.drop (i + 1)).flatten).map func).Nodup := by
  generalize hil : lists[i] = ilist
  fun_induction kc_j with
  | case1 j h jkey akey hx ih =>
    rw [ih, List.drop_eq_getElem_cons h, List.cons_append, List.map_cons, List.nodup_cons]
    rw [kc_x_start _ _ _ _ _ hi] at hx
    simp only [hil] at hx
    exact ⟨fun q => ⟨hx, q⟩, fun q => q.2⟩
  | case2 j h jkey akey hx =>
    rw [kc_x_start _ _ _ _ _ hi] at hx
    simp only [hil] at hx
    rw [List.drop_eq_getElem_cons h, List.cons_append, List.map_cons, List.nodup_cons]
    simp only [Bool.false_eq_true, false_iff]
    exact fun q => hx q.1
  | case3 j h =>
    rw [List.drop_eq_nil_of_le (by omega)]
    simpa using hrest

theorem kc_j_false (func : Key → α) (lists : List (List Key)) (i j : Nat) (hi : i < lists.length)
    (h : kc_j func lists i lists[i] j = false) :
    ¬ ((lists[i].drop j ++ (lists.drop (i + 1)).flatten).map func).Nodup := by
  intro hn
  have hr : ((lists.drop (i + 1)).flatten.map func).Nodup := by
    rw [List.map_append, List.nodup_append] at hn
    exact hn.2.1
  rw [← kc_j_eq func lists i j hi hr, h] at hn
  cases hn

theorem kc_i_eq (func : Key → α) (lists : List (List Key)) (i : Nat) :
    kc_i func lists i = true ↔ ((lists.drop i).flatten.map func).Nodup := by
  fun_induction kc_i with
  | case1 i h ilist hj ih =>
    rw [ih, List.drop_eq_getElem_cons h, List.flatten_cons]
    constructor
    · intro hr
      rw [kc_j_eq func lists i 0 h hr, List.drop_zero] at hj
      exact hj
    · intro hn
      rw [List.map_append, List.nodup_append] at hn
      exact hn.2.1
  | case2 i h ilist hj =>
    have := kc_j_false func lists i 0 h (by simpa using hj)
    rw [List.drop_zero] at this
    rw [List.drop_eq_getElem_cons h, List.flatten_cons]
    simpa using this
  | case3 i h =>
    rw [List.drop_eq_nil_of_le (by omega)]; simp

end

theorem u64_from_toNat (a b c d e f g h : Byte) :
    (u64_from_le_bytes a b c d e f g h).toNat =
      a.toNat + 256 * (b.toNat + 256 * (c.toNat + 256 * (d.toNat + 256 * (e.toNat + 256 * (f.toNat + 256 *
        (g.toNat + 256 * h.toNat)))))) := by
  unfold u64_from_le_bytes
  have step : ∀ {w : Nat} (x : BitVec w) (y : Byte), (x ++ y).toNat = y.toNat + 256 * x.toNat := by
    intro w x y
    have := y.isLt
    rw [BitVec.toNat_append, Nat.shiftLeft_eq, Nat.mul_comm _ (2 ^ 8),
      ← Nat.two_pow_add_eq_or_of_lt (by omega)]
    omega
  simp only [step]

theorem to_u64_inj {x y : Key} : x.to_u64 = y.to_u64 ↔ x = y := by
  constructor
  · intro h
    have h := congrArg BitVec.toNat h
    obtain ⟨a, b, c, d, e, f, g, i⟩ := x
    obtain ⟨a', b', c', d', e', f', g', i'⟩ := y
    simp only [Key.to_u64, u64_from_toNat] at h
    simp only [Key.mk.injEq, ← BitVec.toNat_inj]
    omega
  · rintro rfl; rfl

theorem u16_inj {a b a' b' : Byte} : u16_from_le_bytes a b = u16_from_le_bytes a' b' ↔ a = a' ∧ b = b' := by
  simp only [← BitVec.toNat_inj, u16_from_toNat]; omega

theorem u32_inj {a b c d a' b' c' d' : Byte} :
    u32_from_le_bytes a b c d = u32_from_le_bytes a' b' c' d' ↔ a = a' ∧ b = b' ∧ c = c' ∧ d = d' := by
  simp only [← BitVec.toNat_inj, u32_from_toNat]; omega

theorem short_one (k : Key) : Spec.short 1 k = [(Key1.from_key8 k).v] := by
  simp [Spec.short, Spec.fold, Spec.groups, Spec.xorAll, Key1.from_key8, BitVec.xor_assoc]

theorem short_two (k : Key) : Spec.short 2 k = [(Key2.from_key8 k).a, (Key2.from_key8 k).b] := by
  simp [Spec.short, Spec.fold, Spec.groups, Spec.xorAll, Key2.from_key8, BitVec.xor_assoc]

theorem short_four (k : Key) :
    Spec.short 4 k =
      [(Key4.from_key8 k).a, (Key4.from_key8 k).b, (Key4.from_key8 k).c, (Key4.from_key8 k).d] := by
  simp [Spec.short, Spec.fold, Spec.groups, Spec.xorAll, Key4.from_key8]

theorem short_eight (k : Key) : Spec.short 8 k = k.to_bytes := by
  simp [Spec.short, Spec.fold, Spec.groups, Spec.xorAll, Key.to_bytes]

theorem mk_one_iff (a b : Key) : mk_one a = mk_one b ↔ Spec.short 1 a = Spec.short 1 b := by
  simp [short_one, mk_one]

theorem mk_two_iff (a b : Key) : mk_two a = mk_two b ↔ Spec.short 2 a = Spec.short 2 b := by
  simp [short_two, mk_two, u16_inj]

theorem mk_four_iff (a b : Key) : mk_four a = mk_four b ↔ Spec.short 4 a = Spec.short 4 b := by
  simp [short_four, mk_four, u32_inj]

theorem mk_eight_iff (a b : Key) : mk_eight a = mk_eight b ↔ Spec.short 8 a = Spec.short 8 b := by
  rw [mk_eight, mk_eight, to_u64_inj, short_eight, short_eight]
  cases a; cases b; simp [Key.to_bytes]

/-- `Nodup` of an image, by indices. -/
theorem nodup_map_iff {α : Type} (f : Key → α) (n : Nat) (hf : ∀ a b, f a = f b ↔ Spec.short n a = Spec.short n b)
    (ks : List Key) : (ks.map f).Nodup ↔ Spec.DistinctAt n ks := by
  unfold List.Nodup Spec.DistinctAt
  rw [List.pairwise_iff_getElem]
  simp only [List.length_map, List.getElem_map]
  constructor
  · intro h i j hi hj hij
    rcases Nat.lt_or_gt_of_ne hij with h' | h'
    · intro e; exact h i j hi hj h' ((hf _ _).mpr e)
    · intro e; exact h j i hj hi h' ((hf _ _).mpr e.symm)
  · intro h i j hi hj hij e
    exact h i j hi hj (by omega) ((hf _ _).mp e)

theorem kc_one (ls : List (List Key)) : kc_i mk_one ls 0 = true ↔ Spec.DistinctAt 1 ls.flatten := by
  rw [kc_i_eq, List.drop_zero, nodup_map_iff _ _ mk_one_iff]
theorem kc_two (ls : List (List Key)) : kc_i mk_two ls 0 = true ↔ Spec.DistinctAt 2 ls.flatten := by
  rw [kc_i_eq, List.drop_zero, nodup_map_iff _ _ mk_two_iff]
theorem kc_four (ls : List (List Key)) : kc_i mk_four ls 0 = true ↔ Spec.DistinctAt 4 ls.flatten := by
  rw [kc_i_eq, List.drop_zero, nodup_map_iff _ _ mk_four_iff]
theorem kc_eight (ls : List (List Key)) : kc_i mk_eight ls 0 = true ↔ Spec.DistinctAt 8 ls.flatten := by
  rw [kc_i_eq, List.drop_zero, nodup_map_iff _ _ mk_eight_iff]

open Classical in
theorem min_key_needed_eq (ls : List (List Key)) :
    min_key_needed ls =
      if Spec.DistinctAt 1 ls.flatten then .ok 1
      else if Spec.DistinctAt 2 ls.flatten then .ok 2
      else if Spec.DistinctAt 4 ls.flatten then .ok 4
      else if Spec.DistinctAt 8 ls.flatten then .ok 8
      else .panic := by
  unfold min_key_needed
  have c : ∀ {α : Type} (b : Bool) (P : Prop) (x y : α), (b = true ↔ P) → (if b then x else y) = if P then x else y := by
    intro α b P x y h
    by_cases hP : P
    · rw [if_pos hP, if_pos (h.mpr hP)]
    · rw [if_neg hP, if_neg (fun q => hP (h.mp q))]
  rw [c _ _ _ _ (kc_one ls), c _ _ _ _ (kc_two ls), c _ _ _ _ (kc_four ls), c _ _ _ _ (kc_eight ls)]

theorem keySize_kind {n : Nat} (h : Spec.KeySize n) : ∃ k, Spec.keyLen k = n := by
  rcases h with rfl | rfl | rfl | rfl
  · exact ⟨.Key1, rfl⟩
  · exact ⟨.Key2, rfl⟩
  · exact ⟨.Key4, rfl⟩
  · exact ⟨.Key8, rfl⟩

theorem short_shrink (kind : VarKeyKind) (k : Key) :
    Spec.short (Spec.keyLen kind) k = Spec.keyBytes ((VarKey.Key8 k).shrink_to kind) := by
  rw [shrink_bytes]
  cases kind <;> rfl

/-- Equal long forms have equal short forms. -/
theorem short_mono {m n : Nat} (hm : Spec.KeySize m) (hn : Spec.KeySize n) (h : m ≤ n) {a b : Key}
    (e : Spec.short n a = Spec.short n b) : Spec.short m a = Spec.short m b := by
  obtain ⟨km, rfl⟩ := keySize_kind hm
  obtain ⟨kn, rfl⟩ := keySize_kind hn
  rw [short_shrink, short_shrink] at e ⊢
  rw [shrink_mono (keyBytes_inj e) h]

theorem distinct_mono {m n : Nat} (hm : Spec.KeySize m) (hn : Spec.KeySize n) (h : m ≤ n) {ks : List Key}
    (d : Spec.DistinctAt m ks) : Spec.DistinctAt n ks :=
  fun i j hi hj hij e => d i j hi hj hij (short_mono hm hn h e)

theorem subset_inner_iff (x : BitVec 64) (b : List Key) (j : Nat) :
    subset_inner x b j = true ↔ ∃ k ∈ b.drop j, k.to_u64 = x := by
  fun_induction subset_inner with
  | case1 j h y hy => exact ⟨fun _ => ⟨_, by rw [List.drop_eq_getElem_cons h]; exact List.mem_cons_self .., hy.symm⟩, fun _ => rfl⟩
  | case2 j h y hy ih =>
    rw [ih, List.drop_eq_getElem_cons h]
    simp only [List.mem_cons, exists_eq_or_imp]
    exact ⟨Or.inr, fun q => q.resolve_left fun e => hy e.symm⟩
  | case3 j h => rw [List.drop_eq_nil_of_le (by omega)]; simp

theorem subset_outer_iff (a b : List Key) (i : Nat) :
    subset_outer a b i = true ↔ ∀ k ∈ a.drop i, k ∈ b := by
  fun_induction subset_outer with
  | case1 i h x matched hm =>
    simp only [matched, Bool.not_eq_true', ← Bool.not_eq_true, subset_inner_iff, List.drop_zero] at hm
    rw [List.drop_eq_getElem_cons h]
    simp only [Bool.false_eq_true, List.mem_cons, forall_eq_or_imp, false_iff]
    intro q
    exact hm ⟨_, q.1, rfl⟩
  | case2 i h x matched hm ih =>
    simp only [matched, Bool.not_eq_true', Bool.not_eq_false, subset_inner_iff, List.drop_zero] at hm
    rw [ih, List.drop_eq_getElem_cons h]
    simp only [List.mem_cons, forall_eq_or_imp]
    obtain ⟨k, hk, e⟩ := hm
    rw [to_u64_inj] at e
    subst e
    exact ⟨fun q => ⟨hk, q⟩, fun q => q.2⟩
  | case3 i h => rw [List.drop_eq_nil_of_le (by omega)]; simp

theorem subset_iff (a b : List Key) : a_is_subset_of_b a b = true ↔ ∀ k ∈ a, k ∈ b := by
  unfold a_is_subset_of_b
  rw [subset_outer_iff, List.drop_zero]

theorem needed_sz_ok {s : SizerIn} {n : Nat} (h : needed_sz s = .ok n) :
    ∃ i o, needed_sz_in s = .ok i ∧ needed_sz_out s = .ok o ∧
      ((∀ k ∈ s.handler_eps.map (·.1), k ∈ s.endpoints.map (·.req)) ∧
       (∀ k ∈ s.handler_eps.map (·.2), k ∈ s.endpoints.map (·.resp)) ∧
       (∀ k ∈ s.handler_tps, k ∈ s.topics_in.map (·.key))) ∧ n = max i o := by
  unfold needed_sz at h
  simp only [← subset_iff]
  split at h; · cases h
  split at h; · cases h
  split at h; · cases h
  rename_i a b c
  cases hi : needed_sz_in s with
  | panic => rw [hi] at h; simp at h
  | ok i =>
    cases ho : needed_sz_out s with
    | panic => rw [hi, ho] at h; simp at h
    | ok o =>
      rw [hi, ho] at h
      simp only [Exec.ok_bind] at h
      refine ⟨i, o, rfl, rfl, ⟨by simpa using a, by simpa using b, by simpa using c⟩, ?_⟩
      split at h <;> cases h <;> omega

theorem needed_sz_panic (s : SizerIn) :
    needed_sz s = .panic ↔
      ¬ a_is_subset_of_b (s.handler_eps.map (·.1)) (s.endpoints.map (·.req)) = true ∨
      ¬ a_is_subset_of_b (s.handler_eps.map (·.2)) (s.endpoints.map (·.resp)) = true ∨
      ¬ a_is_subset_of_b s.handler_tps (s.topics_in.map (·.key)) = true ∨
      needed_sz_in s = .panic ∨ needed_sz_out s = .panic := by
  unfold needed_sz
  split
  · simp_all
  split
  · simp_all
  split
  · simp_all
  rename_i a b c
  cases hi : needed_sz_in s with
  | panic => simp
  | ok i =>
    cases ho : needed_sz_out s with
    | panic => simp
    | ok o =>
      simp only [Exec.ok_bind]
      split <;> simp_all

end PRpc
