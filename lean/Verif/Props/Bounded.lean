import Verif.Lemmas.Bounded
import Verif.Props.Live
/-! A client and a server over channels of bounded capacity: C76. -/

namespace PRpc.Props

open Spec

variable {V E SC Ctx : Type}

/-- C76: bounded channels add nothing to what client and server do: each of their runs is one over unbounded links, in which no
channel ever holds more than its capacity. -/
theorem c76_bounded_runs (S : SysCfg V E SC Ctx) {up down : Nat} {ls : List (SLabel V)} {c0 : Ctx} {s : Sys V E SC Ctx}
    (hrun : bnd_run S up down ls (Sys.new c0) = some s) :
    sys_run S ls (Sys.new c0) = some s ∧ s.air.length ≤ down ∧ ∃ n, Queued s n ∧ (s.client.stopped = false → n ≤ up) := by
  have inv := bnd_run_inv (bndInv_new up down c0) hrun
  refine ⟨bnd_run_sys hrun, inv.down, _, queued_of inv, fun h => ?_⟩
  have := inv.up h
  unfold Sys.in_up
  omega

/-- C76: a reply that a call returned over bounded channels is the one its own request's handler gave. -/
theorem c76_replies (a : App V E SC Ctx) (S : SysCfg V E SC Ctx) (hD : define_dispatch a = .ok S.disp)
    (hdecl : Declared a S.kkind) (hapart : KeysApart a S) (hclean : Clean S)
    (hdist : ∀ r ∈ a.endpoint_list.endpoints, short (keyLen S.kkind) r.resp ≠ short (keyLen S.kkind) a.std.error) {up down : Nat}
    {ls : List (SLabel V)} {c0 : Ctx} {s : Sys V E SC Ctx} (hu : ∀ l ∈ ls, Used a l) (hrun : bnd_run S up down ls (Sys.new c0) = some s)
    (hlen : s.client.calls.length < 2 ^ 32) {c : Nat} {cl : Call} {f : RpcFrame} {i : Nat}
    (hc : s.client.calls[c]? = some cl) (hres : result cl = some (false, f, i)) :
    ∃ o ∈ s.outs, ∃ j hdr req, Carries S.enc o f ∧ RequestOf s c cl j hdr ∧ cl.rqst.header.key = .Key8 req ∧
      ReplyTo S.disp s j hdr cl.rqst.body req cl.resp_key o :=
  c45_end_to_end_partial a S hD hdecl hapart hclean hdist hu (bnd_run_sys hrun) hlen hc hres

/-- C76: however full the channels are, client and server do not get into each other's way: with room for one message in each
direction, an open system that can do nothing more by itself is at rest. -/
theorem c76_no_deadlock (a : App V E SC Ctx) (S : SysCfg V E SC Ctx) (hD : define_dispatch a = .ok S.disp)
    (hdecl : Declared a S.kkind) (hfit : Fits a S) (hdepth : 0 < S.cfg.outgoing_depth) {up down : Nat} (hup : 0 < up) (hdown : 0 < down)
    {ls : List (SLabel V)} {c0 : Ctx} {s : Sys V E SC Ctx} (hu : ∀ l ∈ ls, Used a l) (hl : ∀ l ∈ ls, Listens a l)
    (hrun : bnd_run S up down ls (Sys.new c0) = some s) (hlen : s.client.calls.length < 2 ^ 32) (hopen : Open s)
    {own : List (SLabel V)} {t : Sys V E SC Ctx} (ho : BndOwnRun S up down s own t) (hst : BndStuck S up down t) : AtRest t := by
  have hrun := bnd_run_sys hrun
  have inv := sys_run_inv hrun hu (sysInv_new a S c0)
  have lv := sys_run_live hD hdecl hfit hrun hu hl (sysInv_new a S c0) (liveInv_new a S c0) hlen
  obtain ⟨i1, i2, i3, _⟩ := own_run_inv hD hdecl hfit (bnd_own_sys ho) inv lv hlen
  exact stuck_atRest hdepth hfit i1 i2 (i3 hopen) (bnd_stuck hup hdown hfit i1 i2 (i3 hopen) hst)

/-- C76: over bounded channels, too, the system left to itself comes to an end after finitely many steps, whichever it takes, and
then every call was given up by its caller or has returned a reply or an error frame. -/
theorem c76_every_call_answered (a : App V E SC Ctx) (S : SysCfg V E SC Ctx) (hD : define_dispatch a = .ok S.disp)
    (hdecl : Declared a S.kkind) (hfit : Fits a S) (hdepth : 0 < S.cfg.outgoing_depth) {up down : Nat} (hup : 0 < up) (hdown : 0 < down)
    {ls : List (SLabel V)} {c0 : Ctx} {s : Sys V E SC Ctx} (hu : ∀ l ∈ ls, Used a l) (hl : ∀ l ∈ ls, Listens a l)
    (hrun : bnd_run S up down ls (Sys.new c0) = some s) (hlen : s.client.calls.length < 2 ^ 32) (hopen : Open s) :
    (¬ ∃ (f : Nat → Sys V E SC Ctx) (g : Nat → SLabel V), f 0 = s ∧
      ∀ n, SysOwn (f n) (g n) ∧ bnd_step S up down (f n) (g n) = some (f (n + 1))) ∧
    ∀ {own : List (SLabel V)} {t : Sys V E SC Ctx}, BndOwnRun S up down s own t → BndStuck S up down t →
      t.client.calls.length = s.client.calls.length ∧
      ∀ cl ∈ t.client.calls, cl.phase = .dropped ∨ ∃ err f i, result cl = some (err, f, i) := by
  have hrun' := bnd_run_sys hrun
  refine ⟨?_, ?_⟩
  · rintro ⟨f, g, h0, hf⟩
    exact c67_finite a S hD hdecl hfit hu hl hrun' hlen ⟨f, g, h0, fun n => ⟨(hf n).1, (bnd_sys (hf n).2).1⟩⟩
  · intro own t ho hst
    have hrest := c76_no_deadlock a S hD hdecl hfit hdepth hup hdown hu hl hrun hlen hopen ho hst
    have inv := sys_run_inv hrun' hu (sysInv_new a S c0)
    have lv := sys_run_live hD hdecl hfit hrun' hu hl (sysInv_new a S c0) (liveInv_new a S c0) hlen
    obtain ⟨i1, i2, i3, i4⟩ := own_run_inv hD hdecl hfit (bnd_own_sys ho) inv lv hlen
    have hstuck := bnd_stuck hup hdown hfit i1 i2 (i3 hopen) hst
    obtain ⟨more, u, hr, _, hlen', hall⟩ := c67_every_call_answered a S hD hdecl hfit hdepth hu hl hrun' hlen hopen (bnd_own_sys ho)
    cases hr with
    | nil => exact ⟨hlen', hall⟩
    | cons hol h _ =>
      rw [hstuck _ hol (fun i v _ => by rw [own_run_old (bnd_own_sys ho), sys_run_new_old hrun']; exact Nat.zero_le i)] at h
      cases h

/-! ### A concrete system -/

/-- Four calls, served over channels that hold one message each.  In the end the server waits to send its second answer, the
transmit worker to send the fourth request, and both channels are full. -/
def exFullRun : List (SLabel Nat) :=
  sysCall 0 3#8 0x83#8 [1] ++ sysCall 1 3#8 0x83#8 [2] ++ sysCall 2 3#8 0x83#8 [3] ++ sysCall 3 3#8 0x83#8 [4] ++
  [.client .out_poll, .client .out_recv, .client (.out_done true), .client .out_recv, .serve, .client (.out_done true), .flush,
    .client .out_recv, .serve, .client (.out_done true), .client .out_recv]

/-- The way on. -/
def exFullMore : List (SLabel Nat) :=
  [.client .in_poll, .client (.in_recv (some [0x20, 0x83, 0, 0, 0, 0, 1])), .flush, .serve, .client (.out_done true)]

set_option synthInstance.maxSize 1000 in
theorem exFullRun_result : (bnd_run exSys 1 1 exFullRun (Sys.new 0)).map (fun s =>
      (s.in_up, s.air.length, s.pending.length, s.client.stopped, s.client.handles, s.client.calls.length)) =
      some (1, 1, 1, false, true, 4) ∧
    ((bnd_run exSys 1 1 exFullRun (Sys.new 0)).bind fun s => bnd_step exSys 1 1 s .flush).isNone = true ∧
    ((bnd_run exSys 1 1 exFullRun (Sys.new 0)).bind fun s => bnd_step exSys 1 1 s (.client (.out_done true))).isNone = true ∧
    ((bnd_run exSys 1 1 exFullRun (Sys.new 0)).bind fun s => bnd_step exSys 1 1 s .serve).isNone = true ∧
    ((bnd_run exSys 1 1 exFullRun (Sys.new 0)).bind fun s => bnd_run exSys 1 1 exFullMore s).isSome = true := by
  refine ⟨?_, ?_, ?_, ?_, ?_⟩ <;> decide +kernel

/-- The theorems apply to it. -/
example : define_dispatch exSysApp = .ok exSys.disp ∧ Declared exSysApp exSys.kkind ∧ Fits exSysApp exSys ∧
    0 < exSys.cfg.outgoing_depth ∧ (∀ l ∈ exFullRun, Used exSysApp l) ∧ (∀ l ∈ exFullRun, Listens exSysApp l) ∧
    ∃ s, bnd_run exSys 1 1 exFullRun (Sys.new 0) = some s ∧ s.client.calls.length = 4 ∧ Open s := by
  refine ⟨exSysApp_ok, exSysApp_declared, exSys_fits, by decide, by decide, by decide, ?_⟩
  obtain ⟨s, e1, e2⟩ := Option.map_eq_some_iff.mp exFullRun_result.1
  simp only [Prod.mk.injEq] at e2
  exact ⟨s, e1, e2.2.2.2.2.2, e2.2.2.2.1, e2.2.2.2.2.1⟩

end PRpc.Props
