import Verif.Lemmas.WebCount
import Verif.Props.WebNext
/-! Requests of a page that fill their last packet: C104. -/

namespace PRpc.Props

open Spec

variable {V E SC Ctx : Type}

/-- C104, what becomes of requests that fill their last packet: from a state in which the device is idle and nothing is on the bus, as
long as a page sends only such requests the server takes none of them, however many they are, whatever their length and however long one
waits: it calls no handler, spawns no task and answers nothing (all it sends are publications and replies of tasks it had before). -/
theorem c104_whole_unheard (W : WebCfg V E SC Ctx) (hU : UsbSound W.U) {x0 : WebSys V E SC Ctx} (hi : DevIdle x0.u) (hbus : x0.u.bus_out = [])
    {ls : List (ULabel V)} {x : WebSys V E SC Ctx} (hrun : w_run W ls x0 = some x)
    (hw : ∀ b ∈ x.u.sys.client.tx.drop x0.u.sys.client.tx.length, b.length % 64 = 0) :
    x.u.sys.taken = x0.u.sys.taken ∧ x.u.sys.before = x0.u.sys.before ∧ x.u.sys.tasks = x0.u.sys.tasks ∧ x.u.sys.pending = [] ∧
      ∃ more, x.u.sys.outs = x0.u.sys.outs ++ more ∧ ∀ o ∈ more, ∀ j, o.src ≠ .req j := by
  have i : Unheard x0.u x0.u := ⟨(by rw [hbus]; intro p hp; cases hp), (by rw [hi.endpoint]; intro p hp; cases hp),
    .inr ⟨[], hi.receiver, rfl⟩, rfl, rfl, rfl, hi.pending, [], by simp, by intro o ho; cases ho⟩
  have h := unheard_run hU i hw hrun
  exact ⟨h.taken, h.before, h.tasks, h.pending, h.outs⟩

set_option synthInstance.maxSize 1000 in
/-- The theorem applies: a page that has opened the device sends a request of 64 bytes and one of 128. -/
example : UsbSound exWeb.U ∧ DevIdle (WebSys.new (V := Nat) (E := WireTxErrorKind) (SC := Nat) (0 : Nat)).u ∧
    ∃ x, w_run exWeb (usbCall 0 3#8 0x83#8 (List.replicate 51 1) ++ usbCall 1 3#8 0x83#8 (List.replicate 115 1) ++
        [.client .out_poll, .client .out_recv, .host_packet, .dev_read, .client (.out_done true), .client .out_recv, .host_packet, .dev_read,
          .host_packet, .dev_read, .client (.out_done true)]) (WebSys.new 0) = some x ∧
      x.u.sys.client.tx.map List.length = [64, 128] ∧ x.u.sys.before = [] := by
  refine ⟨exUsbCalm_sound, ⟨rfl, rfl, rfl, rfl⟩, ?_⟩
  have h : (w_run exWeb (usbCall 0 3#8 0x83#8 (List.replicate 51 1) ++ usbCall 1 3#8 0x83#8 (List.replicate 115 1) ++
        [.client .out_poll, .client .out_recv, .host_packet, .dev_read, .client (.out_done true), .client .out_recv, .host_packet, .dev_read,
          .host_packet, .dev_read, .client (.out_done true)]) (WebSys.new 0)).map (fun x => (x.u.sys.client.tx.map List.length, x.u.sys.before)) =
      some ([64, 128], []) := by decide +kernel
  obtain ⟨x, e1, e2⟩ := Option.map_eq_some_iff.mp h
  simp only [Prod.mk.injEq] at e2
  exact ⟨x, e1, e2⟩

/-- C104, how many messages the server takes from a page, whatever requests it sends: from an idle device on, no more than the page has sent
requests that leave their last packet unfilled, and exactly as many when all packets have been read. -/
theorem c104_taken_count (W : WebCfg V E SC Ctx) (hU : UsbSound W.U) {x0 : WebSys V E SC Ctx} (hi : DevIdle x0.u) (hbus : x0.u.bus_out = [])
    {ls : List (ULabel V)} {x : WebSys V E SC Ctx} (hrun : w_run W ls x0 = some x) :
    x.u.sys.taken ≤ x0.u.sys.taken +
        ((x.u.sys.client.tx.drop x0.u.sys.client.tx.length).filter fun b => decide (b.length % 64 ≠ 0)).length ∧
      (x.u.bus_out = [] → x.u.ep_out = [] → x.u.sys.taken = x0.u.sys.taken +
        ((x.u.sys.client.tx.drop x0.u.sys.client.tx.length).filter fun b => decide (b.length % 64 ≠ 0)).length) := by
  have i : Counted (x0.u.sys.client.tx.countP short64) x0.u.sys.taken x0.u := ⟨(by rw [hbus]; intro p hp; cases hp),
    (by rw [hi.endpoint]; intro p hp; cases hp), .inr ⟨[], hi.receiver, rfl⟩, by rw [hbus, hi.endpoint]; rfl⟩
  have h := (counted_run hU i hrun).count
  obtain ⟨y, hy⟩ := (w_run_grows hrun).2
  rw [hy, List.countP_append] at h
  rw [hy, List.drop_left, ← List.countP_eq_length_filter]
  change _ ≤ _ + y.countP short64 ∧ (_ → _ → _ = _ + y.countP short64)
  refine ⟨by omega, fun h1 h2 => ?_⟩
  rw [h1, h2, List.countP_nil] at h
  omega

set_option synthInstance.maxSize 1000 in
/-- The theorem applies: of a request of 64 bytes and one of 14 the server takes one message. -/
example : UsbSound exWeb.U ∧ DevIdle (WebSys.new (V := Nat) (E := WireTxErrorKind) (SC := Nat) (0 : Nat)).u ∧
    ∃ x, w_run exWeb (usbCall 0 3#8 0x83#8 (List.replicate 51 1) ++ usbCall 1 3#8 0x83#8 [1] ++
        [.client .out_poll, .client .out_recv, .host_packet, .dev_read, .client (.out_done true), .client .out_recv, .host_packet, .dev_read,
          .client (.out_done true)]) (WebSys.new 0) = some x ∧
      x.u.sys.client.tx.map List.length = [64, 14] ∧ x.u.sys.taken = 1 ∧ x.u.bus_out = [] ∧ x.u.ep_out = [] := by
  refine ⟨exUsbCalm_sound, ⟨rfl, rfl, rfl, rfl⟩, ?_⟩
  have h : (w_run exWeb (usbCall 0 3#8 0x83#8 (List.replicate 51 1) ++ usbCall 1 3#8 0x83#8 [1] ++
        [.client .out_poll, .client .out_recv, .host_packet, .dev_read, .client (.out_done true), .client .out_recv, .host_packet, .dev_read,
          .client (.out_done true)]) (WebSys.new 0)).map (fun x => (x.u.sys.client.tx.map List.length, x.u.sys.taken, x.u.bus_out, x.u.ep_out)) =
      some ([64, 14], 1, [], []) := by decide +kernel
  obtain ⟨x, e1, e2⟩ := Option.map_eq_some_iff.mp h
  simp only [Prod.mk.injEq] at e2
  exact ⟨x, e1, e2⟩

end PRpc.Props
