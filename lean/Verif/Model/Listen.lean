import Verif.Model.Repl
/-!
Model of `accel listen` of the workbook example from end to end: the terminal program of `Verif.Model.Repl`
(`/repo/example/workbook-host/src/bin/comms-02.rs`), here with the subscription it makes at line 71 and receives from at line 77, and
the firmware of `Verif.Model.Workbook`, here with the task that sends the accelerations (`/repo/example/firmware/src/bin/comms-02.rs`
239-292), which is that of `Verif.Model.Example`.

Both sides are joined to the client, the cable and the server of `Verif.Model.UsbSys`: subscribing, receiving and dropping the
subscription are steps of the client, the task's reply and its messages are sends of the server, a start handled by the dispatcher
spawns the task, and a stop handled by it looks at the mutex and sets the flag.

Simplifications: those of `Verif.Model.Repl` and `Verif.Model.Example`, except that the subscription of `accel listen` and the mutex
are no longer arbitrary.  Whether a spawn succeeds is up to the `Env`, and what `try_lock` finds is up to the `WbCtx`: the runs here
are those in which both agree with the task.  When the firmware has panicked, its side does nothing more.
-/

namespace PRpc

/-- Reading an `i16` (external): `de_zig_zag_i16` of a `u16`, of whose third byte two bits count. -/
def take_i16 : Dec (BitVec 16) := do
  let n ← take_varint (varint_max 2) 3
  let z := BitVec.ofNat 16 n
  pure ((z >>> 1) ^^^ (-(z &&& 1#16)))

/-- `Acceleration` as read, workbook-icd lib.rs 56-61. -/
def take_accel : Dec Acceleration := do
  let x ← take_i16
  let y ← take_i16
  let z ← take_i16
  pure ⟨x, y, z⟩

/-- A send of the task under way, comms-02.rs of the firmware, 249-252 and 271-274: which of all frames it is, and what it will return. -/
structure AccSend where
  pos : Nat
  ok : Bool
  deriving DecidableEq

/-- Everything: the program and what it talks to; the subscription of `accel listen` (comms-02.rs of the host, 71) while it is held; the
task's part of the firmware, which of the server's tasks it is, and its send under way. -/
structure LsSys (E : Type) where
  repl : ReplSys E
  sub : Option Nat
  acc : Fw
  ix : Nat
  send : Option AccSend

/-- The start, as `ReplSys.start`. -/
def LsSys.start {E : Type} (unique_id : BitVec 64) (held : Nat → Bool) : LsSys E :=
  ⟨ReplSys.start (wb_ctx unique_id held), none, Fw.new unique_id, 0, none⟩

/-- The steps: one of the rest of the system; those of `RLabel`, where `subscribed` is line 71 and `report_sub` the subscription within
`get_schema_report`; what the task waits for other than its sends; the task begins to send its reply, or a message; its send has completed. -/
inductive LsLabel where
  | sys (l : ULabel WbVal)
  | line (l : List Char)
  | returned
  | subscribed
  | report_sub (ok : Bool)
  | clock (elapsed : Nat)
  | received
  | reported (r : Option SchemaReport)
  | acc (l : FwLabel)
  | reply
  | publish
  | sent

/-- Which steps of the rest of the system are left to it: `get_schema_report` uses subscriptions of its own, the task's sends are steps
of the task, and firmware that has panicked does nothing. -/
def ls_allows (I : WbIcd) (sub : Option Nat) (halted : Bool) : ULabel WbVal → Bool
  | .client (.sub_multi key _) => decide (key = I.std.schema_topic)
  | .client (.recv_multi id) => decide (sub ≠ some id)
  | .client (.drop_multi id) => decide (sub ≠ some id)
  | .client _ => true
  | .host_packet => true
  | .task_reply .. => false
  | .app_publish .. => false
  | _ => !halted

/-- The spawns among events of the dispatcher, with their outcomes. -/
def spawns {E : Type} : List (Event WbVal E Unit) → List (Task WbVal Unit × Bool)
  | [] => []
  | .spawned t ok :: es => (t, ok) :: spawns es
  | _ :: es => spawns es

/-- What a step of the rest of the system, from `u` to `u'`, does to the task: the dispatcher may have spawned it (dispatch_macro.rs
83-93), or have run `accelerometer_stop_handler` (comms-02.rs of the firmware, 285-292).  `none` if the outcome is not that which
the task's state gives. -/
def ls_served {E : Type} (acc : Fw) (ix : Nat) (u u' : UsbSys WbVal E Unit WbCtx) : Option (Fw × Nat) :=
  match spawns (u'.sys.srv.log.drop u.sys.srv.log.length) with
  | (t, ok) :: _ =>
    if ok = acc.task.isNone then
      match ok, t.arg with
      | true, .start rqst => some (start_handler acc t.hdr rqst, u'.sys.tasks.length - 1)
      | _, _ => some (acc, ix)
    else none
  | [] =>
    if u'.sys.srv.ctx.tries = u.sys.srv.ctx.tries then some (acc, ix)
    else if u.sys.srv.ctx.held u.sys.srv.ctx.tries = acc.locked then some ((accelerometer_stop_handler acc).2, ix)
    else none

/-- What the task waits for other than its sends, comms-02.rs of the firmware, 248, 258, 263, 264. -/
def acc_waits : FwLabel → Bool
  | .acc_run => true
  | .acc_ranged _ => true
  | .acc_tick => true
  | .acc_sampled _ => true
  | _ => false

/-- A step. -/
def ls_step {E : Type} (I : WbIcd) (U : UsbCfg WbVal E Unit WbCtx) (y : LsSys E) : LsLabel → Option (LsSys E)
  | .sys l =>
    if ls_allows I y.sub y.acc.halted l then
      match repl_step I U y.repl (.sys l) with
      | none => none
      | some r =>
        match ls_served y.acc y.ix y.repl.usb r.usb with
        | none => none
        | some (acc, ix) => some { y with repl := r, acc := acc, ix := ix }
    else none
  | .line l => (repl_step I U y.repl (.line l)).map fun r => { y with repl := r }
  | .returned =>
    match repl_step I U y.repl .returned with
    | none => none
    | some r =>
      match y.repl.pc, r.pc, y.sub with
      | .waiting _ _ .listened, .reading, some id =>
        match repl_step I U r (.sys (.client (.drop_multi id))) with
        | none => none
        | some r => some { y with repl := r, sub := none }
      | _, _, _ => some { y with repl := r }
  | .subscribed =>
    match y.repl.pc with
    | .subscribing _ _ _ =>
      match repl_step I U y.repl (.sys (.client (.sub_multi I.accel.key 8))) with
      | none => none
      | some r =>
        match (subscribe_multi_inner y.repl.usb.sys.client.subs I.accel.key 8).1 with
        | .Ok id => (repl_step I U r (.subscribed true)).map fun r => { y with repl := r, sub := some id }
        | _ => (repl_step I U r (.subscribed false)).map fun r => { y with repl := r }
    | _ => none
  | .report_sub ok =>
    match y.repl.pc with
    | .calling .schemas .schema => (repl_step I U y.repl (.subscribed ok)).map fun r => { y with repl := r }
    | _ => none
  | .clock elapsed => (repl_step I U y.repl (.clock elapsed)).map fun r => { y with repl := r }
  | .received =>
    match y.repl.pc, y.sub with
    | .receiving _, some id =>
      match repl_step I U y.repl (.sys (.client (.recv_multi id))) with
      | none => none
      | some r =>
        match (multi_recv y.repl.usb.sys.client.subs id).1 with
        | none => none
        | some (.Ok f) =>
          match from_bytes take_accel f.body with
          | some a => (repl_step I U r (.received (some a))).map fun r => { y with repl := r }
          | none => some { y with repl := r }
        | some _ => (repl_step I U r (.received none)).map fun r => { y with repl := r }
    | _, _ => none
  | .reported r => (repl_step I U y.repl (.reported r)).map fun r => { y with repl := r }
  | .acc l => if acc_waits l then (fw_step y.acc l).map fun acc => { y with acc := acc } else none
  | .reply =>
    match y.acc.halted, y.acc.task, y.send with
    | false, some t, none =>
      match t.pc with
      | .replying =>
        match repl_step I U y.repl (.sys (.task_reply y.ix .unit)) with
        | none => none
        | some r =>
          let ok := (sender_reply U.S.env U.S.kkind (I.resp .start) t.hdr.seq_no (.val .unit) y.repl.usb.sys.srv).1.isNone
          some { y with repl := r, send := some ⟨y.repl.usb.sys.outs.length, ok⟩ }
      | _ => none
    | _, _, _ => none
  | .publish =>
    match y.acc.halted, y.acc.task, y.send with
    | false, some t, none =>
      match t.pc with
      | .publishing a =>
        match repl_step I U y.repl (.sys (.app_publish I.accel.key (.Seq1 t.seq) (.accel a))) with
        | none => none
        | some r =>
          let ok := (sender_publish U.S.env U.S.kkind I.accel.key (.Seq1 t.seq) (.val (.accel a)) y.repl.usb.sys.srv).1.isNone
          some { y with repl := r, send := some ⟨y.repl.usb.sys.outs.length, ok⟩ }
      | _ => none
    | _, _, _ => none
  | .sent =>
    match y.acc.task, y.send with
    | some t, some s =>
      if y.repl.usb.sending.isNone || decide (s.pos + 1 < y.repl.usb.sys.outs.length) then
        match t.pc with
        | .replying => (fw_step y.acc (.acc_replied s.ok)).map fun acc => { y with acc := acc, send := none }
        | .publishing _ => (fw_step y.acc (.acc_published s.ok)).map fun acc => { y with acc := acc, send := none }
        | _ => none
      else none
    | _, _ => none

/-- A run. -/
def ls_run {E : Type} (I : WbIcd) (U : UsbCfg WbVal E Unit WbCtx) : List LsLabel → LsSys E → Option (LsSys E)
  | [], y => some y
  | l :: ls, y =>
    match ls_step I U y l with
    | some y' => ls_run I U ls y'
    | none => none

end PRpc
