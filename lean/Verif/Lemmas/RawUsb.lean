import Verif.Lemmas.Raw
import Verif.Lemmas.UsbNext
import Verif.Spec.RawUsb
/-! Helper lemmas for C100 over a USB cable. -/

namespace PRpc

open Spec

variable {V E SC Ctx : Type}

theorem stands_usedR {a : App V E SC Ctx} {l : ULabel V} {l' : SLabel V} (h : Stands l l') (hu : UsbUsedRaw a l) : UsedRaw a l' := by
  cases h <;> first | exact hu | trivial

theorem usb_used_raw {a : App V E SC Ctx} {l : ULabel V} (h : UsbUsed a l) : UsbUsedRaw a l := by
  cases l with
  | client l => exact used_raw (a := a) (l := (.client l : SLabel V)) h
  | app_publish k s v => exact used_raw (a := a) (l := .app_publish k s v) h
  | _ => trivial

/-- A session over the cable with raw calls, seen as one over links that carry whole messages. -/
theorem raw_run {a : App V E SC Ctx} {U : UsbCfg V E SC Ctx} (hU : UsbSound U) {es : List (UsbSys V E SC Ctx)} {u0 : UsbSys V E SC Ctx}
    (h0 : UsbSessions a U DevIdle es u0) {ls : List (ULabel V)} {u : UsbSys V E SC Ctx} (hu : ∀ l ∈ ls, UsbUsedRaw a l)
    (hrun : u_run U ls u0 = some u) (hsm : Small U.S u.sys) : SysInvR a U.S u.abs := by
  obtain ⟨i, s⟩ := usb_sessions hU h0
  obtain ⟨_, ls', hr, hst⟩ := sim_run hU.buffer hU.some_buffer i hsm hrun
  refine sys_run_invR hr (fun l' hl' => ?_) (sessions_start s).inv
  obtain ⟨l, hl, h⟩ := hst l' hl'
  exact stands_usedR h (hu l hl)

theorem usb_step_liveR {a : App V E SC Ctx} {U : UsbCfg V E SC Ctx} {u u' : UsbSys V E SC Ctx} {l : ULabel V}
    (hD : Dispatches a U.S.disp) (hdecl : Declared a U.S.kkind) (hF : Fits a U.S) (hU : UsbSound U)
    (hl : UsbUsedRaw a l ∧ UsbListens a l) (hsm : Small U.S u.sys) (hfit : RequestsFit U u.sys)
    (hn : (numbers u.sys.client).Nodup) (inv : UsbLiveR a U u) (h : u_step U u l = some u') :
    UsbLiveR a U u' ∧ numbers u.sys.client <+: numbers u'.sys.client := by
  obtain ⟨i, hrx, hs⟩ := sim_fit hU inv.usb inv.rx hsm hfit h
  have w := whole_step hF.sends inv.whole h
  rcases hs with e | ⟨l', h1, h2, h3⟩
  · have ec : u'.sys.client = u.sys.client := congrArg (fun s => s.client) e
    exact ⟨⟨i, w, hrx, e ▸ inv.sys, e ▸ inv.live⟩, by rw [ec]; exact List.prefix_rfl⟩
  · have hp := sys_step_numbers h3
    exact ⟨⟨i, w, hrx, sys_step_invR h3 (stands_usedR h1 hl.1) inv.sys,
      sys_step_liveR hD hdecl hF h3 (stands_listens h1 h2 hl.2) inv.sys inv.live hn⟩, hp⟩

theorem usb_run_liveR {a : App V E SC Ctx} {U : UsbCfg V E SC Ctx} (hD : Dispatches a U.S.disp) (hdecl : Declared a U.S.kkind)
    (hF : Fits a U.S) (hU : UsbSound U) {ls : List (ULabel V)} : ∀ {u u' : UsbSys V E SC Ctx}, UsbLiveR a U u → Small U.S u'.sys →
    RequestsFit U u'.sys → (numbers u'.sys.client).Nodup → (∀ l ∈ ls, UsbUsedRaw a l ∧ UsbListens a l) → u_run U ls u = some u' →
    UsbLiveR a U u' := by
  induction ls with
  | nil => intro u u' inv _ _ _ _ h; cases h; exact inv
  | cons l ls ih =>
    intro u u' inv hsm hfit hn hl h
    have h0 := h
    simp only [u_run] at h
    split at h
    · rename_i v hv
      have hsm0 : Small U.S u.sys := small_before hsm (u_run_grows h0).1
      have hfit0 : RequestsFit U u.sys := fit_before hfit (u_run_grows h0).2
      obtain ⟨_, ls', hr, _⟩ := sim_run hU.buffer hU.some_buffer inv.usb hsm h0
      have hp := sys_run_numbers hr
      exact ih (usb_step_liveR hD hdecl hF hU (hl l (List.mem_cons_self ..)) hsm0 hfit0 (prefix_nodup hp hn) inv hv).1 hsm hfit hn
        (fun x hx => hl x (List.mem_cons_of_mem _ hx)) h
    · cases h

theorem usb_own_oneR {a : App V E SC Ctx} {U : UsbCfg V E SC Ctx} (hD : Dispatches a U.S.disp) (hdecl : Declared a U.S.kkind)
    (hF : Fits a U.S) (hU : UsbSound U) {u v : UsbSys V E SC Ctx} {l : ULabel V} (inv : UsbLiveR a U u) (hsm : Small U.S u.sys)
    (hfit : RequestsFit U u.sys) (hn : (numbers u.sys.client).Nodup) (ho : UsbOwn u l) (h : u_step U u l = some v) :
    UsbLiveR a U v ∧ (Open u.sys → Open v.sys) ∧ numbers v.sys.client = numbers u.sys.client ∧
      ((v.abs = u.abs ∧ v.traffic < u.traffic) ∨ lexLt v.abs.work u.abs.work) := by
  obtain ⟨ho1, ho2⟩ := usb_own_used (a := a) ho
  obtain ⟨i, hp⟩ := usb_step_liveR hD hdecl hF hU ⟨usb_used_raw ho1, ho2⟩ hsm hfit hn inv h
  refine ⟨i, ?_⟩
  rcases usb_own_step hU inv.usb inv.whole inv.rx hsm hfit ho h with ⟨e, ht⟩ | ⟨l', h1, h2⟩
  · have ec : v.sys.client = u.sys.client := congrArg (fun s => s.client) e
    exact ⟨fun o => by unfold Open; rw [ec]; exact o, by rw [ec], .inl ⟨e, ht⟩⟩
  · have hlen : v.sys.client.calls.length = u.sys.client.calls.length := own_calls_len (s := u.abs) (s' := v.abs) h1 h2
    exact ⟨fun o => sys_step_open (s := u.abs) (s' := v.abs) h1 h2 o,
      (hp.eq_of_length (by simp only [numbers, List.length_map]; omega)).symm, .inr (sys_step_work hF.sends inv.live.le h1 h2)⟩

theorem usb_own_invR {a : App V E SC Ctx} {U : UsbCfg V E SC Ctx} (hD : Dispatches a U.S.disp) (hdecl : Declared a U.S.kkind)
    (hF : Fits a U.S) (hU : UsbSound U) {ls : List (ULabel V)} {u v : UsbSys V E SC Ctx} (h : UsbOwnRun U u ls v) (inv : UsbLiveR a U u)
    (hsm : Small U.S v.sys) (hfit : RequestsFit U v.sys) (hn : (numbers u.sys.client).Nodup) :
    UsbLiveR a U v ∧ (Open u.sys → Open v.sys) ∧ numbers v.sys.client = numbers u.sys.client := by
  induction h with
  | nil u => exact ⟨inv, id, rfl⟩
  | cons ho h hr ih =>
    have hg := u_run_grows (usb_own_run (.cons ho h hr))
    obtain ⟨i1, i2, i3, _⟩ := usb_own_oneR hD hdecl hF hU inv (small_before hsm hg.1) (fit_before hfit hg.2) hn ho h
    obtain ⟨j1, j2, j3⟩ := ih i1 hsm hfit (by rw [i3]; exact hn)
    exact ⟨j1, fun o => j2 (i2 o), j3.trans i3⟩

theorem usb_own_finiteR {a : App V E SC Ctx} {U : UsbCfg V E SC Ctx} {u : UsbSys V E SC Ctx} (hD : Dispatches a U.S.disp)
    (hdecl : Declared a U.S.kkind) (hF : Fits a U.S) (hU : UsbSound U) (inv : UsbLiveR a U u) (hn : (numbers u.sys.client).Nodup) :
    ¬ ∃ (f : Nat → UsbSys V E SC Ctx) (g : Nat → ULabel V), f 0 = u ∧
      ∀ n, (Small U.S (f n).sys ∧ RequestsFit U (f n).sys) ∧ UsbOwn (f n) (g n) ∧ u_step U (f n) (g n) = some (f (n + 1)) := by
  rintro ⟨f, g, h0, hf⟩
  have good : ∀ n, UsbLiveR a U (f n) ∧ (numbers (f n).sys.client).Nodup := by
    intro n
    induction n with
    | zero => rw [h0]; exact ⟨inv, hn⟩
    | succ n ih =>
      obtain ⟨⟨c1, c2⟩, c3, c4⟩ := hf n
      obtain ⟨i1, _, i3, _⟩ := usb_own_oneR hD hdecl hF hU ih.1 c1 c2 ih.2 c3 c4
      exact ⟨i1, i3 ▸ ih.2⟩
  have dec : ∀ n, ((f (n + 1)).abs = (f n).abs ∧ (f (n + 1)).traffic < (f n).traffic) ∨ lexLt (f (n + 1)).abs.work (f n).abs.work := by
    intro n
    obtain ⟨⟨c1, c2⟩, c3, c4⟩ := hf n
    exact (usb_own_oneR hD hdecl hF hU (good n).1 c1 c2 (good n).2 c3 c4).2.2.2
  have none : ∀ x, ∀ n, (f n).abs.work = x → False := by
    intro x
    induction x using lexLt_wf.induction with
    | _ x ih =>
      have inner : ∀ m, ∀ n, (f n).traffic = m → (f n).abs.work = x → False := by
        intro m
        induction m using Nat.strongRecOn with
        | _ m ihm =>
          intro n e1 e2
          rcases dec n with ⟨d1, d2⟩ | d
          · exact ihm _ (e1 ▸ d2) (n + 1) rfl (by rw [d1]; exact e2)
          · exact ih _ (e2 ▸ d) (n + 1) rfl
      intro n e
      exact inner _ n rfl e
  exact none _ 0 rfl

end PRpc
