import Verif.Lemmas.System
import Verif.Lemmas.ClientHist
/-! Helper lemmas for C91: what arrives at the client arrives in the order in which it was put on the link. -/

namespace PRpc

open Spec

variable {V E SC Ctx : Type}

/-- The bytes that get on the link of a frame. -/
def Out.bits (enc : Body V → Bytes) (o : Out V) : List Bytes := o.part (encOf o.frame.hdr ++ enc o.frame.body)

/-- What has become of a frame that is no longer on the link. -/
def Fate (enc : Body V → Bytes) (p : Out V × Option RpcFrame) : Prop :=
  match p.2 with
  | some f => CarriesPart enc p.1 f
  | none => p.1.cut ≠ none

/-- The frames put on the link, in order: those no longer on it, with what arrived of them, and the others. -/
structure OrdInv (S : SysCfg V E SC Ctx) (s : Sys V E SC Ctx) (z : List (Out V × Option RpcFrame)) : Prop where
  fed : ∃ os, s.outs = z.map (·.1) ++ os ∧ (s.client.in_pc.over = false → s.air = os.flatMap (Out.bits S.enc))
  got : s.client.arrNow = z.filterMap (·.2)
  fate : ∀ p ∈ z, Fate S.enc p

theorem ordInv_start (S : SysCfg V E SC Ctx) {s : Sys V E SC Ctx} (hc : s.client = Client.new) (ho : s.outs = []) (ha : s.air = []) :
    OrdInv S s [] :=
  ⟨⟨[], by rw [ho]; rfl, fun _ => ha⟩, by rw [hc]; rfl, (fun p h => nomatch h)⟩

theorem OrdInv.same {S : SysCfg V E SC Ctx} {s t : Sys V E SC Ctx} {z : List (Out V × Option RpcFrame)} (inv : OrdInv S s z)
    (hc : t.client = s.client) (ho : t.outs = s.outs) (ha : t.air = s.air) : OrdInv S t z := by
  obtain ⟨h1, h2, h3⟩ := inv
  exact ⟨by rw [hc, ho, ha]; exact h1, by rw [hc]; exact h2, h3⟩

theorem OrdInv.put {S : SysCfg V E SC Ctx} {s s' : Sys V E SC Ctx} {z : List (Out V × Option RpcFrame)} {o : Out V} (inv : OrdInv S s z)
    (h : Sys.put S s o = some s') : OrdInv S s' z := by
  simp only [Sys.put, frame_bytes_eq] at h
  cases h
  obtain ⟨os, h1, h2⟩ := inv.fed
  refine ⟨⟨os ++ [o], ?_, fun hov => ?_⟩, inv.got, inv.fate⟩
  · show s.outs ++ [o] = _
    rw [h1, List.append_assoc]
  · show s.air ++ _ = _
    rw [h2 hov, List.flatMap_append]
    simp [Out.bits]

theorem OrdInv.send {S : SysCfg V E SC Ctx} {s s' : Sys V E SC Ctx} {z : List (Out V × Option RpcFrame)} {src : Src}
    {r : Option E × St V E SC Ctx} {f : Frame V} (inv : OrdInv S s z) (h : Sys.send S s src r f = some s') : OrdInv S s' z := by
  simp only [Sys.send] at h
  have inv2 : OrdInv S { s with srv := r.2 } z := inv.same rfl rfl rfl
  split at h
  · exact inv2.put h
  · exact inv2.put h

/-- The next byte string on the link is of the first frame of which anything is left. -/
theorem next_bits {enc : Body V → Bytes} {os : List (Out V)} {b : Bytes} {air : List Bytes} (h : os.flatMap (Out.bits enc) = b :: air) :
    ∃ sk o rest, os = sk ++ o :: rest ∧ (∀ x ∈ sk, x.cut ≠ none) ∧ Out.bits enc o = [b] ∧ air = rest.flatMap (Out.bits enc) := by
  induction os with
  | nil => cases h
  | cons o os ih =>
    rw [List.flatMap_cons] at h
    have hb : Out.bits enc o = [] ∧ o.cut ≠ none ∨ ∃ b', Out.bits enc o = [b'] := by
      simp only [Out.bits, Out.part]
      split
      · exact .inr ⟨_, rfl⟩
      · rename_i e; exact .inl ⟨rfl, by rw [e]; exact nofun⟩
      · exact .inr ⟨_, rfl⟩
    rcases hb with ⟨e, hc⟩ | ⟨b', e⟩
    · rw [e, List.nil_append] at h
      obtain ⟨sk, o', rest, h1, h2, h3, h4⟩ := ih h
      refine ⟨o :: sk, o', rest, by rw [h1]; rfl, fun x hx => ?_, h3, h4⟩
      rcases List.mem_cons.mp hx with rfl | hx
      · exact hc
      · exact h2 x hx
    · rw [e] at h
      simp only [List.cons_append, List.nil_append, List.cons.injEq] at h
      obtain ⟨rfl, h⟩ := h
      exact ⟨[], o, os, rfl, (fun x hx => nomatch hx), e, h.symm⟩

/-- What arrives of a frame. -/
theorem bits_fate {enc : Body V → Bytes} {o : Out V} {b : Bytes} (h : Out.bits enc o = [b]) :
    Fate enc (o, match VarHeader.take_from_slice b with | .ok (some (hdr, body)) => some ⟨hdr, body⟩ | _ => none) := by
  have hf : IsFrame (encOf o.frame.hdr ++ enc o.frame.body) o.frame.hdr (enc o.frame.body) := (isFrame_iff ..).mpr (take_enc ..)
  simp only [Out.bits, Out.part] at h
  cases hc : o.cut with
  | none =>
    rw [hc] at h
    simp only [List.cons.injEq, and_true] at h
    rw [← h, take_enc]
    simp only [Fate]
    refine ⟨_, hf, ?_⟩
    rw [hc]
    exact hf
  | some n =>
    rw [hc] at h
    cases n with
    | zero => cases h
    | succ n =>
      simp only [List.cons.injEq, and_true] at h
      rcases take_cases b with e | ⟨hdr, body, e⟩
      · rw [e]
        simp [Fate, hc]
      · rw [e]
        simp only [Fate]
        refine ⟨_, hf, ?_⟩
        rw [hc]
        show IsFrame _ hdr body
        rw [h]
        exact (isFrame_iff ..).mpr e

theorem OrdInv.client {S : SysCfg V E SC Ctx} {s : Sys V E SC Ctx} {z : List (Out V × Option RpcFrame)} {l : Label} {c : Client} (inv : OrdInv S s z)
    (h : step S.cfg s.client l = some c) (hl : ∀ b, l ≠ .in_recv (some b)) :
    ∃ z', OrdInv S { s with client := c } z' ∧ (c.in_pc.over = false → z <+: z') := by
  obtain ⟨h1, h2⟩ := step_arr h
  have hh : heard [l] = [] := by
    cases l with
    | in_recv r =>
      cases r with
      | none => rfl
      | some b => exact absurd rfl (hl b)
    | _ => rfl
  obtain ⟨os, f1, f2⟩ := inv.fed
  cases ho : c.in_pc.over with
  | false =>
    obtain ⟨g1, g2⟩ := h1 ho
    rw [hh, List.append_nil] at g2
    exact ⟨z, ⟨⟨os, f1, fun _ => f2 g1⟩, by rw [← inv.got]; exact g2, inv.fate⟩, fun _ => List.prefix_rfl⟩
  | true =>
    obtain ⟨g1, _⟩ := h2 ho
    have hnow : c.arrNow = c.subs.arrived := by
      rw [Client.arrNow]
      cases hp : c.in_pc <;> simp_all [InPc.over]
    have got := inv.got
    rw [Client.arrNow] at got
    have keep : s.client.subs.arrived = z.filterMap (·.2) → ∃ z', OrdInv S { s with client := c } z' ∧ (true = false → z <+: z') := fun e =>
      ⟨z, ⟨⟨os, f1, fun h => by rw [ho] at h; cases h⟩, by rw [← e, hnow.trans g1], inv.fate⟩, fun _ => List.prefix_rfl⟩
    cases hp : s.client.in_pc with
    | lookup f =>
      rw [hp] at got
      simp only at got
      obtain ⟨z1, z2, e1, e2, e3⟩ := List.filterMap_eq_append_iff.mp got.symm
      refine ⟨z1, ⟨⟨z2.map (·.1) ++ os, by rw [f1, e1, List.map_append, List.append_assoc], fun h => by rw [ho] at h; cases h⟩, ?_, fun p hp => inv.fate p (by rw [e1]; exact List.mem_append_left _ hp)⟩, fun h => nomatch h⟩
      rw [e2, hnow.trans g1]
    | _ => rw [hp] at got; simp only [List.append_nil] at got; exact keep got

theorem OrdInv.recv {S : SysCfg V E SC Ctx} {s : Sys V E SC Ctx} {z : List (Out V × Option RpcFrame)} {b : Bytes} {air : List Bytes} {c : Client}
    (inv : OrdInv S s z) (ha : s.air = b :: air) (h : step S.cfg s.client (.in_recv (some b)) = some c) :
    ∃ z', OrdInv S { s with client := c, air := air } z' ∧ z <+: z' := by
  obtain ⟨h1, h2⟩ := step_arr h
  obtain ⟨os, f1, f2⟩ := inv.fed
  have ho : c.in_pc.over = false := by
    simp only [step, in_recv] at h
    split at h
    · rename_i hp
      split at h
      · cases h
      · cases h; rw [hp.1]; rfl
      · cases h; rfl
    · cases h
  obtain ⟨g1, g2⟩ := h1 ho
  rw [f2 g1] at ha
  obtain ⟨sk, o, rest, e1, e2, e3, e4⟩ := next_bits ha
  have hf := bits_fate e3
  revert hf
  generalize hr : (match VarHeader.take_from_slice b with | .ok (some (hdr, body)) => some (⟨hdr, body⟩ : RpcFrame) | _ => none) = r
  intro hf
  have hh : heard [.in_recv (some b)] = r.toList := by
    simp only [heard]
    revert hr
    cases VarHeader.take_from_slice b with
    | panic => intro hr; subst hr; rfl
    | ok y =>
      cases y with
      | none => intro hr; subst hr; rfl
      | some y => intro hr; subst hr; rfl
  refine ⟨z ++ sk.map (fun x => (x, none)) ++ [(o, r)], ⟨⟨rest, ?_, fun _ => e4⟩, ?_, fun p hp => ?_⟩, by rw [List.append_assoc]; exact List.prefix_append ..⟩
  · show s.outs = _
    rw [f1, e1]
    simp [List.map_map, Function.comp_def]
  · show c.arrNow = _
    rw [g2, inv.got, hh, List.filterMap_append, List.filterMap_append, List.filterMap_map]
    cases r <;> simp [Function.comp_def]
  · rcases List.mem_append.mp hp with hp | hp
    · rcases List.mem_append.mp hp with hp | hp
      · exact inv.fate p hp
      · obtain ⟨x, hx, rfl⟩ := List.mem_map.mp hp
        exact e2 x hx
    · rw [List.mem_singleton.mp hp]
      exact hf

theorem ordInv_grows {S : SysCfg V E SC Ctx} {s s' : Sys V E SC Ctx} {l : SLabel V} {z : List (Out V × Option RpcFrame)} (inv : OrdInv S s z)
    (h : sys_step S s l = some s') : ∃ z', OrdInv S s' z' ∧ (s'.client.in_pc.over = false → z <+: z') := by
  cases l with
  | client l =>
    simp only [sys_step, client_step] at h
    split at h
    · split at h
      · cases h
      · rename_i e
        split at h
        · rename_i eb
          subst eb
          split at h
          · rename_i c hc
            cases h
            obtain ⟨z', g1, g2⟩ := inv.recv e hc
            exact ⟨z', g1, fun _ => g2⟩
          · cases h
        · cases h
    · rename_i l hne
      split at h
      · rename_i c hc
        cases h
        exact inv.client hc hne
      · cases h
  | serve =>
    obtain ⟨b, up, srv, hb, rfl, _⟩ := serve_cases h
    exact ⟨z, inv.same rfl rfl rfl, fun _ => List.prefix_rfl⟩
  | reject =>
    simp only [sys_step, reject] at h
    split at h
    · cases h
      exact ⟨z, inv.same rfl rfl rfl, fun _ => List.prefix_rfl⟩
    · cases h
  | flush =>
    simp only [sys_step] at h
    split at h
    · cases h
    · rename_i o rest e
      have inv2 : OrdInv S { s with pending := rest } z := inv.same rfl rfl rfl
      exact ⟨z, inv2.put h, fun _ => List.prefix_rfl⟩
  | task_reply i v =>
    simp only [sys_step, task_reply] at h
    split at h
    · cases h
    · split at h
      · cases h
      · split at h
        · cases h
        · exact ⟨z, inv.send h, fun _ => List.prefix_rfl⟩
  | app_publish key seq v =>
    simp only [sys_step, app_publish] at h
    exact ⟨z, inv.send h, fun _ => List.prefix_rfl⟩

theorem ordInv_step {S : SysCfg V E SC Ctx} {s s' : Sys V E SC Ctx} {l : SLabel V} {z : List (Out V × Option RpcFrame)} (inv : OrdInv S s z)
    (h : sys_step S s l = some s') : ∃ z', OrdInv S s' z' :=
  let ⟨z', g, _⟩ := ordInv_grows inv h
  ⟨z', g⟩

end PRpc
