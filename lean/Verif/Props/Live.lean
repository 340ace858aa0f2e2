import Verif.Lemmas.LiveRest
import Verif.Props.EndToEnd
/-! Every call is answered: C67. -/

namespace PRpc.Props

open Spec

variable {V E SC Ctx : Type}

/-- At rest nobody waits: in every state of an open composed system in which nothing is left to do, every call was given up by
its caller or has returned a reply or an error frame. -/
theorem c67_at_rest_answered (a : App V E SC Ctx) (S : SysCfg V E SC Ctx) (hD : define_dispatch a = .ok S.disp)
    (hdecl : Declared a S.kkind) (hfit : Fits a S) {ls : List (SLabel V)} {c0 : Ctx} {s : Sys V E SC Ctx}
    (hu : ∀ l ∈ ls, Used a l) (hl : ∀ l ∈ ls, Listens a l) (hrun : sys_run S ls (Sys.new c0) = some s)
    (hlen : s.client.calls.length < 2 ^ 32) (hrest : AtRest s) {c : Nat} {cl : Call} (hc : s.client.calls[c]? = some cl) :
    cl.phase = .dropped ∨ ∃ err f i, result cl = some (err, f, i) := by
  have inv := sys_run_inv hrun hu (sysInv_new a S c0)
  have lv := sys_run_live hD hdecl hfit hrun hu hl (sysInv_new a S c0) (liveInv_new a S c0) hlen
  exact rest_answered inv lv hrest hc

/-- A composed system left to itself cannot go on for ever. -/
theorem c67_finite (a : App V E SC Ctx) (S : SysCfg V E SC Ctx) (hD : define_dispatch a = .ok S.disp)
    (hdecl : Declared a S.kkind) (hfit : Fits a S) {ls : List (SLabel V)} {c0 : Ctx} {s : Sys V E SC Ctx}
    (hu : ∀ l ∈ ls, Used a l) (hl : ∀ l ∈ ls, Listens a l) (hrun : sys_run S ls (Sys.new c0) = some s)
    (hlen : s.client.calls.length < 2 ^ 32) :
    ¬ ∃ (f : Nat → Sys V E SC Ctx) (g : Nat → SLabel V), f 0 = s ∧
      ∀ n, SysOwn (f n) (g n) ∧ sys_step S (f n) (g n) = some (f (n + 1)) := by
  have inv := sys_run_inv hrun hu (sysInv_new a S c0)
  have lv := sys_run_live hD hdecl hfit hrun hu hl (sysInv_new a S c0) (liveInv_new a S c0) hlen
  exact own_finite hD hdecl hfit inv lv hlen

/-- Whatever it has done by itself, an open system that can do nothing more by itself is at rest. -/
theorem c67_stuck_is_at_rest (a : App V E SC Ctx) (S : SysCfg V E SC Ctx) (hD : define_dispatch a = .ok S.disp)
    (hdecl : Declared a S.kkind) (hfit : Fits a S) (hdepth : 0 < S.cfg.outgoing_depth) {ls : List (SLabel V)} {c0 : Ctx}
    {s : Sys V E SC Ctx} (hu : ∀ l ∈ ls, Used a l) (hl : ∀ l ∈ ls, Listens a l) (hrun : sys_run S ls (Sys.new c0) = some s)
    (hlen : s.client.calls.length < 2 ^ 32) (hopen : Open s) {own : List (SLabel V)} {t : Sys V E SC Ctx}
    (ho : SysOwnRun S s own t) (hst : SysStuck S t) : AtRest t := by
  have inv := sys_run_inv hrun hu (sysInv_new a S c0)
  have lv := sys_run_live hD hdecl hfit hrun hu hl (sysInv_new a S c0) (liveInv_new a S c0) hlen
  exact (own_answered hD hdecl hfit hdepth inv lv hlen hopen ho).1 hst

theorem run_of_own {S : SysCfg V E SC Ctx} {s t : Sys V E SC Ctx} {own : List (SLabel V)} (h : SysOwnRun S s own t) :
    sys_run S own s = some t := by
  induction h with
  | nil s => rfl
  | cons _ hs _ ih => simp only [sys_run, hs, ih]

/-- C67: in a composed system of an application that fits together and whose client is open, whatever happened so far, the
steps of the system's own end after finitely many of them in a state in which every call was given up by its caller or has
returned a reply or an error frame; and every way of taking such steps ends so. -/
theorem c67_every_call_answered (a : App V E SC Ctx) (S : SysCfg V E SC Ctx) (hD : define_dispatch a = .ok S.disp)
    (hdecl : Declared a S.kkind) (hfit : Fits a S) (hdepth : 0 < S.cfg.outgoing_depth) {ls : List (SLabel V)} {c0 : Ctx}
    {s : Sys V E SC Ctx} (hu : ∀ l ∈ ls, Used a l) (hl : ∀ l ∈ ls, Listens a l) (hrun : sys_run S ls (Sys.new c0) = some s)
    (hlen : s.client.calls.length < 2 ^ 32) (hopen : Open s) {own : List (SLabel V)} {t : Sys V E SC Ctx}
    (ho : SysOwnRun S s own t) :
    ∃ more u, SysOwnRun S t more u ∧ SysStuck S u ∧ u.client.calls.length = s.client.calls.length ∧
      ∀ cl ∈ u.client.calls, cl.phase = .dropped ∨ ∃ err f i, result cl = some (err, f, i) := by
  have inv := sys_run_inv hrun hu (sysInv_new a S c0)
  have lv := sys_run_live hD hdecl hfit hrun hu hl (sysInv_new a S c0) (liveInv_new a S c0) hlen
  exact (own_answered hD hdecl hfit hdepth inv lv hlen hopen ho).2

/-! ### A concrete system -/

instance decListens (l : SLabel Nat) : Decidable (Listens exSysApp l) := by
  cases l with
  | client l => cases l <;> simp only [Listens] <;> infer_instance
  | _ => simp only [Listens] <;> infer_instance

theorem exSys_fits : Fits exSysApp exSys where
  sends := fun _ _ => rfl
  err_key := rfl
  apart := exSysApp_apart
  resp_err := by decide
  topic_err := by decide
  handled := by decide
  counters := .inr (by decide +kernel)

/-- The run of the three calls ends at rest, with all three answered. -/
example : (∀ l ∈ exSysRun, Used exSysApp l) ∧ (∀ l ∈ exSysRun, Listens exSysApp l) ∧
    ∃ s, sys_run exSys exSysRun (Sys.new 0) = some s ∧ s.client.calls.length = 3 ∧ AtRest s := by
  have h : (sys_run exSys exSysRun (Sys.new 0)).map (fun s => (s.client.calls.length, rests s)) = some (3, true) := by
    decide +kernel
  obtain ⟨s, e1, e2⟩ := Option.map_eq_some_iff.mp h
  simp only [Prod.mk.injEq] at e2
  exact ⟨by decide, by decide, s, e1, e2.1, rests_atRest e2.2⟩

/-- Three calls with their requests in the queue, a subscription to a declared topic and the server having taken nothing. -/
def exLiveRun : List (SLabel Nat) :=
  [.client (.sub_excl (exKey 0x95#8) 1)] ++ sysCall 0 5#8 0x85#8 [1] ++ sysCall 1 5#8 0x85#8 [2] ++ sysCall 2 3#8 0x83#8 [7]

/-- The main theorem applies to it: none of the three calls is answered yet. -/
example : define_dispatch exSysApp = .ok exSys.disp ∧ Declared exSysApp exSys.kkind ∧ Fits exSysApp exSys ∧
    0 < exSys.cfg.outgoing_depth ∧ (∀ l ∈ exLiveRun, Used exSysApp l) ∧ (∀ l ∈ exLiveRun, Listens exSysApp l) ∧
    ∃ s, sys_run exSys exLiveRun (Sys.new 0) = some s ∧ s.client.calls.map result = [none, none, none] ∧ Open s ∧
      ∃ t, SysOwnRun exSys s [.client .out_poll, .client .out_recv, .client (.out_done true), .serve] t := by
  refine ⟨exSysApp_ok, exSysApp_declared, exSys_fits, by decide, by decide, by decide, ?_⟩
  have h : (sys_run exSys exLiveRun (Sys.new 0)).map (fun s => (s.client.calls.map result, s.client.stopped, s.client.handles,
      (sys_run exSys [.client .out_poll, .client .out_recv, .client (.out_done true), .serve] s).isSome)) =
      some ([none, none, none], false, true, true) := by decide +kernel
  obtain ⟨s, e1, e2⟩ := Option.map_eq_some_iff.mp h
  simp only [Prod.mk.injEq] at e2
  obtain ⟨e2, e3, e4, e5⟩ := e2
  refine ⟨s, e1, e2, ⟨e3, e4⟩, ?_⟩
  obtain ⟨t, ht⟩ := Option.isSome_iff_exists.mp e5
  simp only [sys_run] at ht
  split at ht
  · rename_i s1 h1
    split at ht
    · rename_i s2 h2
      split at ht
      · rename_i s3 h3
        split at ht
        · rename_i s4 h4
          cases ht
          exact ⟨_, .cons trivial h1 (.cons trivial h2 (.cons rfl h3 (.cons trivial h4 (.nil _))))⟩
        · cases ht
      · cases ht
    · cases ht
  · cases ht

/-! ### What the conditions are needed for -/

/-- The system is at rest and its first call waits. -/
def waitsForEver (s : Sys Nat WireTxErrorKind Nat Nat) : Bool :=
  rests s && (match s.client.calls with | cl :: _ => (match cl.phase with | .waiting _ => true | _ => false) | [] => false)

theorem waitsForEver_iff {s : Sys Nat WireTxErrorKind Nat Nat} (h : waitsForEver s = true) :
    AtRest s ∧ ∃ cl k, s.client.calls[0]? = some cl ∧ cl.phase = .waiting k := by
  simp only [waitsForEver, Bool.and_eq_true] at h
  refine ⟨rests_atRest h.1, ?_⟩
  cases e : s.client.calls with
  | nil => rw [e] at h; cases h.2
  | cons cl cs =>
    rw [e] at h
    cases e2 : cl.phase <;> simp only [e2] at h <;> first | (exact ⟨cl, _, rfl, e2⟩) | (cases h.2)

/-- A request that does not fit into the server's receive buffer is never answered: the server drops it, and the call waits
with the whole system at rest. -/
def exTooLarge : List (SLabel Nat) := sysCall 0 5#8 0x85#8 [1] ++ sysSend ++ [.reject]

theorem c67_oversized_request_hangs : (∀ l ∈ exTooLarge, Used exSysApp l) ∧
    ∃ s, sys_run exSys exTooLarge (Sys.new 0) = some s ∧ AtRest s ∧ ∃ cl k, s.client.calls[0]? = some cl ∧ cl.phase = .waiting k := by
  have h : (sys_run exSys exTooLarge (Sys.new 0)).map waitsForEver = some true := by decide +kernel
  obtain ⟨s, e1, e2⟩ := Option.map_eq_some_iff.mp h
  exact ⟨by decide, s, e1, waitsForEver_iff e2⟩

/-- A subscription to a key that agrees with a response key at the length in use takes the answer: nothing but the application's
own choice of keys prevents it. -/
def exTakesAnswer : List (SLabel Nat) :=
  [.client (.sub_excl ⟨0#8, 0x85#8, 0#8, 0#8, 0#8, 0#8, 0#8, 0#8⟩ 4)] ++ sysCall 0 5#8 0x85#8 [1] ++ sysSend ++
  [.serve, .task_reply 0 11, .client .in_poll, .client (.in_recv (some [0x20, 0x85, 0, 0, 0, 0, 11])), .client .in_lookup]

theorem c67_subscription_takes_answer : (∀ l ∈ exTakesAnswer, Used exSysApp l) ∧
    ∃ s, sys_run exSys exTakesAnswer (Sys.new 0) = some s ∧ AtRest s ∧ ∃ cl k, s.client.calls[0]? = some cl ∧ cl.phase = .waiting k := by
  have h : (sys_run exSys exTakesAnswer (Sys.new 0)).map waitsForEver = some true := by decide +kernel
  obtain ⟨s, e1, e2⟩ := Option.map_eq_some_iff.mp h
  exact ⟨by decide, s, e1, waitsForEver_iff e2⟩

/-- All sends of the server fail with an error it does not stop for. -/
def exSysLossy : SysCfg Nat WireTxErrorKind Nat Nat :=
  { exSys with env := ⟨fun _ _ => some .Other, fun _ _ => true, true⟩ }

/-- A reply whose send fails is never made up for: the call waits. -/
def exLost : List (SLabel Nat) := sysCall 0 3#8 0x83#8 [7] ++ sysSend ++ [.serve, .flush, .flush]

theorem c67_failed_send_hangs : (∀ l ∈ exLost, Used exSysApp l ∧ Listens exSysApp l) ∧
    ∃ s, sys_run exSysLossy exLost (Sys.new 0) = some s ∧ AtRest s ∧ ∃ cl k, s.client.calls[0]? = some cl ∧ cl.phase = .waiting k := by
  have h : (sys_run exSysLossy exLost (Sys.new 0)).map waitsForEver = some true := by decide +kernel
  obtain ⟨s, e1, e2⟩ := Option.map_eq_some_iff.mp h
  exact ⟨by decide, s, e1, waitsForEver_iff e2⟩

end PRpc.Props
