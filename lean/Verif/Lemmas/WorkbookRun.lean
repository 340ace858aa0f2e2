import Verif.Lemmas.Workbook
import Verif.Lemmas.UsbServer
/-! Helper lemmas for C89: runs of the example. -/

namespace PRpc

open Spec

variable {E : Type}

/-! ### Sizes -/

theorem varint_loop_le (fuel n : Nat) : (varint_loop fuel n).length ≤ fuel := by
  induction fuel generalizing n with
  | zero => exact Nat.le_refl _
  | succ fuel ih =>
    rw [varint_loop]
    split
    · exact Nat.succ_le_succ (Nat.zero_le _)
    · exact Nat.succ_le_succ (ih _)

theorem enc_rgbs_len {n : Nat} (v : Vector Rgb8 n) : (enc_rgbs v).length = 3 * n := by
  have : ∀ l : List Rgb8, (l.flatMap enc_rgb).length = 3 * l.length := by
    intro l
    induction l with
    | nil => rfl
    | cons x l ih => rw [List.flatMap_cons, List.length_append, ih]; simp [enc_rgb]; omega
  unfold enc_rgbs
  rw [this, Vector.length_toList]

theorem enc_start_len (s : StartAccel) : (enc_start s).length ≤ 10 := by
  have h1 := (enc_u32_len s.interval_ms).2
  have h2 : (enc_range s.range).length ≤ 5 := by
    cases s.range <;> exact (enc_u32_len _).2
  unfold enc_start
  rw [List.length_append]
  omega

theorem enc_led_len (l : SingleLed) : (enc_led l).length ≤ 8 := by
  have h1 := (enc_u32_len l.position).2
  unfold enc_led
  rw [List.length_append]
  simp [enc_rgb]
  omega

theorem enc_wb_len (v : WbVal) : (enc_wb v).length ≤ 72 := by
  cases v with
  | u32 n => have := (enc_u32_len n).2; simp only [enc_wb]; omega
  | u64 n => have := varint_loop_le (varint_max 8) n.toNat; simp only [enc_wb, enc_u64]; simp [varint_max] at this ⊢; omega
  | unit => simp [enc_wb]
  | led l => have := enc_led_len l; simp only [enc_wb]; omega
  | set_res b => cases b <;> decide
  | all v => simp only [enc_wb]; rw [enc_rgbs_len]; omega
  | start s => have := enc_start_len s; simp only [enc_wb]; omega
  | bool b => cases b <;> decide
  | accel a =>
    have h : ∀ n, (enc_i16 n).length ≤ 3 := fun n => varint_loop_le _ _
    have h1 := h a.x
    have h2 := h a.y
    have h3 := h a.z
    simp only [enc_wb, enc_accel, List.length_append]
    omega

theorem isFrame_len {b : Bytes} {hdr : VarHeader} {body : Bytes} (h : IsFrame b hdr body) : b.length ≤ 13 + body.length := by
  have e := congrArg List.length h
  rw [List.length_map, List.length_append, List.length_map] at e
  have : (layout hdr).length ≤ 13 := by
    rw [layout_length]
    have h1 : (keyBytes hdr.key).length ≤ 8 := by
      cases hdr.key <;> exact Nat.le_of_ble_eq_true rfl
    have h2 : seqWidth hdr.seq_no ≤ 4 := by cases hdr.seq_no <;> exact Nat.le_of_ble_eq_true rfl
    unfold encLen
    omega
  omega

theorem wb_small {Ctx : Type} {U : UsbCfg WbVal E Unit Ctx} (henc : ∀ v, U.S.enc (.val v) = enc_wb v)
    (hsize : ∀ b, (∀ v, b ≠ .val v) → (U.S.enc b).length ≤ 1000) (s : Sys WbVal E Unit Ctx) : Small U.S s := by
  intro o _ b hb
  have h1 := isFrame_len hb
  have h2 : (U.S.enc o.frame.body).length ≤ 1000 := by
    cases h : o.frame.body with
    | val v => rw [henc]; exact Nat.le_trans (enc_wb_len v) (by decide)
    | _ => exact hsize _ (fun v e => by cases e)
  omega

theorem distinct_of_nodup {n : Nat} {xs : List Key} (h : (xs.map (short n)).Nodup) : DistinctAt n xs := by
  intro i j hi hj hne e
  have := (List.getElem_inj (i := i) (j := j) (h₀ := by simpa using hi) (h₁ := by simpa using hj) h).mp (by simpa using e)
  exact hne this

/-! ### Runs -/

theorem wb_used {I : WbIcd} {l : ULabel WbVal} (h : WbUses I l) : UsbUsed (wb_full E I) l := by
  cases l with
  | client l =>
    cases l with
    | call_begin req resp body =>
      obtain ⟨m, rfl, rfl, _⟩ := h
      show ∃ r ∈ (wb_full E I).endpoint_list.endpoints, _
      cases m <;> simp [wb_full, WbMethod.req, WbMethod.resp]
    | call_begin_raw => exact h.elim
    | pub_begin => exact h.elim
    | _ => trivial
  | app_publish key seq v =>
    obtain ⟨rfl, _⟩ := h
    exact ⟨I.accel, List.mem_cons_of_mem _ (List.mem_cons_of_mem _ (List.mem_cons_self ..)), rfl⟩
  | _ => trivial

theorem wb_result_resp {m : WbMethod} {r : CallRes} (h : wb_result m r ≠ .comms) : ∃ f i, r = .Resp f i := by
  cases r with
  | Resp f i => exact ⟨f, i, rfl⟩
  | ErrResp f i =>
    exfalso
    apply h
    cases m <;> (simp only [wb_result, finish_call]; cases from_bytes take_wire_error f.body <;> rfl)
  | _ => exact absurd (by cases m <;> rfl) h

theorem u_run_split {V E SC Ctx : Type} {U : UsbCfg V E SC Ctx} {ls1 ls2 : List (ULabel V)} : ∀ {u0 u1 u : UsbSys V E SC Ctx},
    u_run U (ls1 ++ ls2) u0 = some u → u_run U ls1 u0 = some u1 → u_run U ls2 u1 = some u := by
  induction ls1 with
  | nil => intro u0 u1 u h h1; cases h1; exact h
  | cons l ls ih =>
    intro u0 u1 u h h1
    simp only [List.cons_append, u_run] at h h1
    split at h1
    · rename_i v hv
      rw [hv] at h
      exact ih h h1
    · cases h1

theorem later_calls {V E SC Ctx : Type} {s s' : Sys V E SC Ctx} (h : Later s s') : s.client.calls.length ≤ s'.client.calls.length := by
  rcases Nat.eq_zero_or_pos s.client.calls.length with h0 | h0
  · omega
  · obtain ⟨cl', hc, _⟩ := h.calls (s.client.calls.length - 1) _ (List.getElem?_eq_getElem (by omega))
    have := getElem?_lt hc
    omega

/-- What a step does to the client and to the contexts. -/
theorem sys_step_parts {V E SC Ctx : Type} {S : SysCfg V E SC Ctx} {s s' : Sys V E SC Ctx} {l : SLabel V} (h : sys_step S s l = some s') :
    ((∃ l', l = .client l' ∧ step S.cfg s.client l' = some s'.client) ∨ s'.client = s.client) ∧
    (∃ x, contexts s' = contexts s ++ x) := by
  have put : ∀ {t : Sys V E SC Ctx} {o : Out V}, Sys.put S t o = some s' → t.client = s.client → contexts t = contexts s →
      s'.client = s.client ∧ contexts s' = contexts s := by
    intro t o h e e'
    simp only [Sys.put] at h
    split at h
    · cases h; exact ⟨e, e'⟩
    · cases h
  have send : ∀ {src r f}, Sys.send S s src r f = some s' → r.2.ctx = s.srv.ctx → s'.client = s.client ∧ contexts s' = contexts s := by
    intro src r f h e
    simp only [Sys.send] at h
    split at h
    · exact put h rfl (by unfold contexts; rw [e])
    · exact put h rfl (by unfold contexts; rw [e])
  have same : s'.client = s.client ∧ contexts s' = contexts s →
      ((∃ l', l = .client l' ∧ step S.cfg s.client l' = some s'.client) ∨ s'.client = s.client) ∧ (∃ x, contexts s' = contexts s ++ x) :=
    fun h => ⟨.inr h.1, [], by rw [h.2, List.append_nil]⟩
  cases l with
  | client l =>
    obtain ⟨c, hc, ⟨b, air, _, _, rfl⟩ | ⟨_, rfl⟩⟩ := client_step_cases h
    · exact ⟨.inl ⟨l, rfl, hc⟩, [], (List.append_nil _).symm⟩
    · exact ⟨.inl ⟨l, rfl, hc⟩, [], (List.append_nil _).symm⟩
  | serve =>
    obtain ⟨b, up, srv, hb, rfl, hp, _⟩ := serve_cases h
    exact ⟨.inr rfl, [srv.ctx], rfl⟩
  | reject =>
    simp only [sys_step, reject] at h
    split at h
    · cases h; exact ⟨.inr rfl, [s.srv.ctx], rfl⟩
    · cases h
  | flush =>
    simp only [sys_step] at h
    split at h
    · cases h
    · exact same (put h rfl rfl)
  | task_reply i v =>
    simp only [sys_step, task_reply] at h
    split at h
    · cases h
    · split at h
      · cases h
      · split at h
        · cases h
        · exact same (send h (by rw [sender_reply_eq]; rfl))
  | app_publish key seq v => exact same (send h rfl)

theorem sys_run_contexts {V E SC Ctx : Type} {S : SysCfg V E SC Ctx} {ls : List (SLabel V)} : ∀ {s s' : Sys V E SC Ctx},
    sys_run S ls s = some s' → ∃ x, contexts s' = contexts s ++ x := by
  induction ls with
  | nil => intro s s' h; cases h; exact ⟨[], (List.append_nil _).symm⟩
  | cons l ls ih =>
    intro s s' h
    simp only [sys_run] at h
    split at h
    · rename_i s1 hs
      obtain ⟨x, e⟩ := (sys_step_parts hs).2
      obtain ⟨y, e'⟩ := ih h
      exact ⟨x ++ y, by rw [e', e, List.append_assoc]⟩
    · cases h

theorem handled_later {V E SC Ctx : Type} {S : SysCfg V E SC Ctx} {ls : List (SLabel V)} {s s' : Sys V E SC Ctx}
    (h : sys_run S ls s = some s') {D : Dispatcher V E SC Ctx} {j : Nat} (hh : HandledAt D s j) : HandledAt D s' j := by
  obtain ⟨ctx, ctx', b, hdr, body, sends, h1, h2, h3, h4, h5⟩ := hh
  have hc := sys_run_contexts h
  exact ⟨ctx, ctx', b, hdr, body, sends, get_append hc h1, get_append hc h2, get_append (sys_run_later h).tx h3, h4, h5⟩

/-- Every call is one of a method. -/
def Methods {Ctx : Type} (I : WbIcd) (s : Sys WbVal E Unit Ctx) : Prop :=
  ∀ (c : Nat) (cl : Call), s.client.calls[c]? = some cl →
    ∃ m : WbMethod, cl.rqst.header.key = .Key8 (m.req I) ∧ cl.resp_key = m.resp I ∧ cl.rqst.body = m.body

theorem sys_run_methods {Ctx : Type} {I : WbIcd} {S : SysCfg WbVal E Unit Ctx} {ls : List (SLabel WbVal)} : ∀ {s s' : Sys WbVal E Unit Ctx},
    sys_run S ls s = some s' → (∀ l' ∈ ls, ∃ l, Stands l l' ∧ WbUses I l) → Methods I s → Methods I s' := by
  induction ls with
  | nil => intro s s' h _ hm; cases h; exact hm
  | cons l ls ih =>
    intro s s' h hu hm
    simp only [sys_run] at h
    split at h
    · rename_i s1 hs
      refine ih h (fun l' hl' => hu l' (List.mem_cons_of_mem _ hl')) ?_
      rcases (sys_step_parts hs).1 with ⟨l', rfl, hst⟩ | e
      · intro c cl hc
        rcases step_sig hst hc with ⟨cl0, h1, h2⟩ | ⟨req, resp, body, rfl, h2⟩ | ⟨rqst, resp, rfl, _⟩
        · simp only [Call.sig, Prod.mk.injEq] at h2
          rw [h2.1, h2.2.1]
          exact hm c cl0 h1
        · simp only [Call.sig, Prod.mk.injEq] at h2
          rw [h2.1, h2.2.1]
          obtain ⟨l, hl, hw⟩ := hu _ (List.mem_cons_self ..)
          cases hl
          obtain ⟨m, rfl, rfl, rfl⟩ := hw
          exact ⟨m, rfl, rfl, rfl⟩
        · obtain ⟨l, hl, hw⟩ := hu _ (List.mem_cons_self ..)
          cases hl
          exact hw.elim
      · intro c cl hc
        rw [e] at hc
        exact hm c cl hc
    · cases h

theorem list_of {α β : Type} {R : α → β → Prop} : ∀ (l : List α), (∀ x ∈ l, ∃ y, R x y) →
    ∃ ys : List β, ys.length = l.length ∧ ∀ (i : Nat) x y, l[i]? = some x → ys[i]? = some y → R x y
  | [], _ => ⟨[], rfl, fun i x y h _ => by simp at h⟩
  | x :: l, h => by
    obtain ⟨y, hy⟩ := h x (List.mem_cons_self ..)
    obtain ⟨ys, h1, h2⟩ := list_of l (fun x hx => h x (List.mem_cons_of_mem _ hx))
    refine ⟨y :: ys, by simp [h1], fun i x' y' a b => ?_⟩
    cases i with
    | zero => cases a; cases b; exact hy
    | succ i => exact h2 i x' y' (by simpa using a) (by simpa using b)

theorem made_of {I : WbIcd} {s : Sys WbVal E Unit WbCtx} (h : Methods I s) : ∃ ms, Made I s ms := by
  obtain ⟨ms, h1, h2⟩ := list_of (R := fun (cl : Call) (m : WbMethod) =>
    cl.rqst.header.key = .Key8 (m.req I) ∧ cl.resp_key = m.resp I ∧ cl.rqst.body = m.body) s.client.calls (fun cl hcl => by
      obtain ⟨c, hc⟩ := List.mem_iff_getElem?.mp hcl
      exact h c cl hc)
  exact ⟨ms, h1, fun c cl m a b => h2 c cl m a b⟩

end PRpc
