import Verif.Lemmas.Topics
import Verif.Lemmas.Repl
import Verif.Lemmas.WorkbookLive
/-! Helper lemmas for C94: publications over a USB cable. -/

namespace PRpc

open Spec

variable {V E SC Ctx : Type}

theorem usbClientSteps_cons (l : ULabel V) (ls : List (ULabel V)) : usbClientSteps (l :: ls) = usbClientSteps [l] ++ usbClientSteps ls := by
  cases l <;> rfl

theorem usbClientSteps_append (ls ks : List (ULabel V)) : usbClientSteps (ls ++ ks) = usbClientSteps ls ++ usbClientSteps ks := by
  induction ls with
  | nil => rfl
  | cons l ls ih => rw [List.cons_append, usbClientSteps_cons, ih, usbClientSteps_cons l ls, List.append_assoc]

theorem usb_client_run {U : UsbCfg V E SC Ctx} {ls : List (ULabel V)} : ∀ {u u' : UsbSys V E SC Ctx}, u_run U ls u = some u' →
    run U.S.cfg (usbClientSteps ls) u.sys.client = some u'.sys.client := by
  induction ls with
  | nil => intro u u' h; cases h; rfl
  | cons l ls ih =>
    intro u u' h
    simp only [u_run] at h
    split at h
    · rename_i v hv
      rw [usbClientSteps_cons]
      rcases u_step_client hv with ⟨k, rfl, e⟩ | ⟨hn, e⟩
      · show run U.S.cfg (k :: usbClientSteps ls) u.sys.client = _
        rw [run, e]; exact ih h
      · have : usbClientSteps [l] = [] := by
          cases l with
          | client k => exact absurd rfl (hn k)
          | _ => rfl
        rw [this, List.nil_append, ← e]; exact ih h
    · cases h

theorem usbPublications_cons {U : UsbCfg V E SC Ctx} {key : Key} {l : ULabel V} {ls : List (ULabel V)} {u u' : UsbSys V E SC Ctx}
    (h : u_step U u l = some u') : usbPublications U key (l :: ls) u = usbPublications U key [l] u ++ usbPublications U key ls u' := by
  simp only [usbPublications, h]
  cases l with
  | app_publish k seq v => simp only; split <;> rfl
  | _ => rfl

theorem usbPublications_append {U : UsbCfg V E SC Ctx} {key : Key} {ls ks : List (ULabel V)} : ∀ {u u1 : UsbSys V E SC Ctx},
    u_run U ls u = some u1 → usbPublications U key (ls ++ ks) u = usbPublications U key ls u ++ usbPublications U key ks u1 := by
  induction ls with
  | nil => intro u u1 h; cases h; rfl
  | cons l ls ih =>
    intro u u1 h
    simp only [u_run] at h
    split at h
    · rename_i t ht
      rw [List.cons_append, usbPublications_cons ht, usbPublications_cons (ls := ls) ht, ih h, List.append_assoc]
    · cases h

/-- A publication puts something on the link. -/
theorem usb_publish_outs {U : UsbCfg V E SC Ctx} {u u' : UsbSys V E SC Ctx} {k : Key} {seq : VarSeq} {v : V}
    (h : u_step U u (.app_publish k seq v) = some u') : u'.abs ≠ u.abs := by
  intro e
  have e : u'.sys.outs = u.sys.outs := by
    have : u'.abs.outs = u.abs.outs := by rw [e]
    exact this
  simp only [u_step, u_publish, u_send, u_begin] at h
  (repeat' split at h) <;> first
    | (cases h; done)
    | (cases h; simp at e)

/-- A run over a cable is one over links that carry whole messages, with the same publications. -/
theorem sim_publications {U : UsbCfg V E SC Ctx} (hB : 64 ∣ U.rxlen) (hpos : 0 < U.rxlen) (key : Key) {ls : List (ULabel V)} :
    ∀ {u u' : UsbSys V E SC Ctx}, UsbInv U.S u → Small U.S u'.sys → u_run U ls u = some u' →
    UsbInv U.S u' ∧ ∃ ls', sys_run U.S ls' u.abs = some u'.abs ∧ (∀ l' ∈ ls', ∃ l ∈ ls, Stands l l') ∧
      publications U.S key ls' u.abs = usbPublications U key ls u := by
  induction ls with
  | nil => intro u u' inv _ h; cases h; exact ⟨inv, [], rfl, by simp, rfl⟩
  | cons l ls ih =>
    intro u u' inv hsm h
    have hg := (u_run_grows h).1
    simp only [u_run] at h
    split at h
    · rename_i v hv
      obtain ⟨i, hs⟩ := sim_step hB hpos inv (small_before hsm hg) hv
      obtain ⟨i', ls', h1, h2, h3⟩ := ih i hsm h
      refine ⟨i', ?_⟩
      rw [usbPublications_cons hv]
      rcases hs with e | ⟨l', st, e⟩
      · have : usbPublications U key [l] u = [] := by
          cases l with
          | app_publish k seq v => exact absurd e (usb_publish_outs hv)
          | _ => simp only [usbPublications]; split <;> rfl
        refine ⟨ls', by rw [← e]; exact h1, fun l' hl' => ?_, by rw [this, List.nil_append, ← e]; exact h3⟩
        obtain ⟨m, hm, hst⟩ := h2 l' hl'
        exact ⟨m, List.mem_cons_of_mem _ hm, hst⟩
      · refine ⟨l' :: ls', by simp only [sys_run, e]; exact h1, fun m hm => ?_, ?_⟩
        · rcases List.mem_cons.mp hm with rfl | hm
          · exact ⟨l, List.mem_cons_self .., st⟩
          · obtain ⟨m', hm', hst⟩ := h2 m hm
            exact ⟨m', List.mem_cons_of_mem _ hm', hst⟩
        · rw [publications_cons (ls := ls') e, h3]
          congr 1
          simp only [publications, usbPublications, e, hv]
          cases st <;> rfl
    · cases h

theorem usbCaughtUp_abs {u : UsbSys V E SC Ctx} (h : UsbCaughtUp u) : CaughtUp u.abs := by
  refine ⟨?_, h.looked, h.running⟩
  show ne u.sys.air ++ u.rest = []
  have h1 : ne u.sys.air = [] := by
    rw [ne, List.filter_eq_nil_iff]
    intro b hb
    rw [h.air b hb]
    simp
  rw [h1, UsbSys.rest, h.cable.1, h.cable.2]
  rfl

end PRpc
