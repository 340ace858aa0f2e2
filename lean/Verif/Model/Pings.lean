import Verif.Model.Workbook
/-!
Model of the first pair of programs of the workbook example: the firmware `/repo/example/firmware/src/bin/comms-01.rs` and the host program
`/repo/example/workbook-host/src/bin/comms-01.rs`, joined by the client, the server and the USB cable of `Verif.Model.UsbSys`.

A program counter says where the host's `run` stands.  A label is a step of `main` or of the rest of the system.  The host program asks for the
standard ping only, so it is modelled for any firmware; `p1_app` is the one it comes with.

Simplifications: what the host prints is kept as data, without what is common to all lines of a kind.  When the interval fires is
arbitrary.  `tokio::select!` (external) polls its branches in any order: either may be found ready first.
-/

namespace PRpc

/-- `MyApp`, comms-01.rs of the firmware, 52-75, with `ping_handler` (118-121): the lists of workbook-icd, and one handler. -/
def p1_app (E : Type) (I : WbIcd) : App (BitVec 32) E Unit Unit where
  std := I.std
  endpoint_list := I.endpoint_list
  topic_in_list := I.topics_in_list
  topic_out_list := I.topics_out_list
  eps := [⟨0, I.req .ping, I.resp .ping, from_bytes take_u32, .blocking fun c _ v => (v, c)⟩]
  tps := []
  ping_decode := from_bytes take_u32
  spawn_ctxt := fun c => ((), c)

/-- What the host prints, comms-01.rs of the host, 25, 27, 15, 12. -/
inductive PgLine where
  | pinging (i : BitVec 32)
  | got (n : BitVec 32)
  | done
  | closed
  deriving DecidableEq

/-- Where the host stands, comms-01.rs of the host, 6-30: in the `i`th round of `run` before the interval has fired (24), in `ping` before its request
is made and after (26); at the end because `run` is done (15) or the client closed (12); panicked in `unwrap` (26) or `assert_eq!` (28). -/
inductive PgPc where
  | ticking (i : Nat)
  | calling (i : Nat)
  | waiting (i c : Nat)
  | done
  | closed
  | unwrapped
  | asserted
  deriving DecidableEq

/-- Does the process still run? -/
def PgPc.live : PgPc → Bool
  | .ticking _ => true
  | .calling _ => true
  | .waiting _ _ => true
  | _ => false

/-- The program, with all that is between it and the board. -/
structure PgSys (V E SC Ctx : Type) where
  usb : UsbSys V E SC Ctx
  pc : PgPc
  term : List PgLine

/-- The start: the client has been made (comms-01.rs of the host, 8). -/
def PgSys.start {V E SC Ctx : Type} (c : Ctx) : PgSys V E SC Ctx := ⟨UsbSys.new c, .ticking 0, []⟩

/-- The steps: one of the rest of the system; the interval fires; `ping` returns; `wait_closed` returns. -/
inductive PgLabel (V : Type) where
  | sys (l : ULabel V)
  | tick
  | returned
  | closed

/-- Which steps the program lets the rest of the system take, and where it then stands.  It makes no calls but `ping`s, one after the other,
publishes nothing, subscribes to nothing and does not close the client.  After its end the process is gone. -/
def pg_allows {V : Type} (std : StdKeys) (pc : PgPc) (n : Nat) : ULabel V → Option PgPc
  | .client (.call_begin req resp body) =>
    match pc with
    | .calling i => if req = std.ping_req ∧ resp = std.ping_resp ∧ body = enc_u32 (BitVec.ofNat 32 i) then some (.waiting i n) else none
    | _ => none
  | .client (.call_begin_raw ..) => none
  | .client (.call_drop ..) => none
  | .client (.pub_begin ..) => none
  | .client .close => none
  | .client .drop_handles => none
  | .client (.sub_excl ..) => none
  | .client (.sub_repl ..) => none
  | .client (.sub_multi ..) => none
  | .client (.recv_excl ..) => none
  | .client (.recv_multi ..) => none
  | .client (.drop_excl ..) => none
  | .client (.drop_multi ..) => none
  | .client _ => if pc.live then some pc else none
  | _ => some pc

/-- `ping` has returned in round `i`: `unwrap`, what is printed, `assert_eq!`, and the next round or the end, comms-01.rs of the host, 23-29 and
14-16, with client.rs 60-63. -/
def pg_returned (i : Nat) (r : CallRes) : List PgLine × PgPc :=
  match wb_result (.ping (BitVec.ofNat 32 i)) r with
  | .num n =>
    if n ≠ BitVec.ofNat 32 i then ([.got n], .asserted)
    else if i + 1 < 10 then ([.got n], .ticking (i + 1))
    else ([.got n, .done], .done)
  | _ => ([], .unwrapped)

/-- A step.  `wait_closed` returns when the client has been stopped (host_client/mod.rs 777-779). -/
def pg_step {V E SC Ctx : Type} (std : StdKeys) (U : UsbCfg V E SC Ctx) (y : PgSys V E SC Ctx) : PgLabel V → Option (PgSys V E SC Ctx)
  | .sys l =>
    match pg_allows std y.pc y.usb.sys.client.calls.length l with
    | none => none
    | some pc =>
      match u_step U y.usb l with
      | none => none
      | some u => some { y with usb := u, pc := pc }
  | .tick =>
    match y.pc with
    | .ticking i => some { y with pc := .calling i, term := y.term ++ [.pinging (BitVec.ofNat 32 i)] }
    | _ => none
  | .returned =>
    match y.pc with
    | .waiting i c =>
      match y.usb.sys.client.calls[c]? with
      | none => none
      | some cl =>
        match cl.phase with
        | .done r => some { y with pc := (pg_returned i r).2, term := y.term ++ (pg_returned i r).1 }
        | _ => none
    | _ => none
  | .closed =>
    if y.pc.live ∧ y.usb.sys.client.stopped then some { y with pc := .closed, term := y.term ++ [.closed] } else none

/-- A run. -/
def pg_run {V E SC Ctx : Type} (std : StdKeys) (U : UsbCfg V E SC Ctx) : List (PgLabel V) → PgSys V E SC Ctx → Option (PgSys V E SC Ctx)
  | [], y => some y
  | l :: ls, y =>
    match pg_step std U y l with
    | some y' => pg_run std U ls y'
    | none => none

end PRpc
