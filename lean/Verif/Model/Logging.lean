import Verif.Model.Workbook
import Verif.Model.EUsbTx
/-!
Model of the logging programs of the workbook example: the firmware `/repo/example/firmware/src/bin/logging.rs`, with
`Sender::log_str` and `Sender::log_fmt` (`/repo/source/postcard-rpc/src/server/mod.rs` 236-245), and the host program
`/repo/example/workbook-host/src/bin/logging.rs`, joined by the client, the server and the USB cable of `Verif.Model.UsbSys`.

A program counter says where the host's `main` stands; `logging_task` is the counter it keeps.  A label is a step of one of these or
of the rest of the system.

Simplifications: a text is the list of its bytes.  What the host prints is kept as data.  When the ticker fires is arbitrary.  The
transmitter numbers a message when it gets the mutex (embassy_usb_v0_4.rs 353-354 and 393-394), which is when its send begins; the
task's own counter is counted up here too, since the task is the only one to look at it.  Sends of other code do not take numbers
from that counter.
-/

namespace PRpc

/-- What this firmware sends: the number of a ping, `log_str("Hello world!")` (logging.rs of the firmware, 114) and
`sender_fmt!("formatted: {ctr}")` (116). -/
inductive LgVal where
  | num (n : BitVec 32)
  | hello
  | formatted (ctr : BitVec 16)
  deriving DecidableEq

/-- The bytes of a text of ASCII characters (external). -/
def ascii (s : List Char) : Bytes := s.map fun c => BitVec.ofNat 8 c.toNat

/-- `Display for u16` (external). -/
def fmt_u16 (n : BitVec 16) : List Char := Nat.toDigits 10 n.toNat

/-- The text of `log_str("Hello world!")`, logging.rs of the firmware, 114. -/
def hello_text : Bytes := ascii "Hello world!".toList

/-- The text of `sender_fmt!("formatted: {ctr}")`, logging.rs of the firmware, 116. -/
def formatted_text (ctr : BitVec 16) : Bytes := ascii ("formatted: ".toList ++ fmt_u16 ctr)

/-- The body of a formatted log message that fits, embassy_usb_v0_4.rs 404-452, for a `usize` of `w` bytes and `room` bytes of the
buffer after the header (see `log_fmt_buf`, of which this is the part that is sent). -/
def log_fmt_body (w room : Nat) (t : Bytes) : Bytes :=
  let m := actual_varint_max_len w room
  let len_used := varint_usize w t.length
  let len_used := if len_used.length ≠ m then mark_last len_used else len_used
  len_used ++ (blank_len_field m).drop len_used.length ++ t

/-- How long the header of a log message is, embassy_usb_v0_4.rs 347-358 and 387-398: one byte, the key, a two-byte number
(header.rs 451 `write_to_slice`, see `Verif.Model.Header`). -/
def log_header_len : VarKeyKind → Nat
  | .Key1 => 4
  | .Key2 => 5
  | .Key4 => 7
  | .Key8 => 11

/-- The messages as written: `postcard` (external) and the above.  The transmit buffer has 1024 bytes (logging.rs of the firmware, 29). -/
def enc_lg (w : Nat) (n : VarKeyKind) : LgVal → Bytes
  | .num x => enc_u32 x
  | .hello => enc_str w hello_text
  | .formatted ctr => log_fmt_body w (1024 - log_header_len n) (formatted_text ctr)

/-- `MyApp`, logging.rs of the firmware, 53-75: the lists of workbook-icd, and no handlers. -/
def lg_app (E : Type) (I : WbIcd) : App LgVal E Unit Unit where
  std := I.std
  endpoint_list := I.endpoint_list
  topic_in_list := I.topics_in_list
  topic_out_list := I.topics_out_list
  eps := []
  tps := []
  ping_decode := fun b => (from_bytes take_u32 b).map .num
  spawn_ctxt := fun c => ((), c)

/-- What `logging_task` logs when its counter is `ctr`, logging.rs of the firmware, 113-117. -/
def log_msg (ctr : BitVec 16) : LgVal := if ctr &&& 0b1#16 ≠ 0#16 then .hello else .formatted ctr

/-- What the host prints, logging.rs of the host, 6, 8, 10, 11, 16, 18. -/
inductive LgLine where
  | connecting
  | connected
  | got (n : BitVec 32)
  | blank
  | log (t : Bytes)
  | disconnected
  deriving DecidableEq

/-- Where the host's `main` stands, logging.rs of the host, 5-19: in `ping` before its request is made and after (9), in
`subscribe_multi` (13), in the loop with subscription `id` (15), at the end, panicked. -/
inductive LgPc where
  | calling
  | waiting (c : Nat)
  | subscribing
  | receiving (id : Nat)
  | ended
  | panicked
  deriving DecidableEq

/-- Both programs, with all that is between them.  `ctr` is `logging_task`'s (logging.rs of the firmware, 109), `log_seq` the
transmitter's (embassy_usb_v0_4.rs 243). -/
structure LgSys (E : Type) where
  usb : UsbSys LgVal E Unit Unit
  pc : LgPc
  term : List LgLine
  ctr : BitVec 16
  log_seq : BitVec 16

/-- The start: the board has been switched on, the client made (logging.rs of the host, 6-8; of the firmware, 109). -/
def LgSys.start {E : Type} : LgSys E := ⟨UsbSys.new (), .calling, [.connecting, .connected], 0#16, 0#16⟩

/-- The steps: one of the rest of the system; the ticker fires and the task logs; `ping` returns; `subscribe_multi` returns; there is
something to receive. -/
inductive LgLabel where
  | sys (l : ULabel LgVal)
  | tick
  | returned
  | subscribed
  | received

/-- Does the process of the host still run? -/
def LgPc.live : LgPc → Bool
  | .ended => false
  | .panicked => false
  | _ => true

/-- Which steps the two programs let the rest of the system take, and where the host's `main` then stands.  It makes one call, of
`ping`, publishes nothing, does not close the client; subscribing and receiving are steps of its own.  After its end the process
is gone.  The firmware publishes log messages only, and spawns no tasks. -/
def lg_allows (I : WbIcd) (pc : LgPc) (n : Nat) : ULabel LgVal → Option LgPc
  | .client (.call_begin req resp body) =>
    match pc with
    | .calling => if req = I.std.ping_req ∧ resp = I.std.ping_resp ∧ body = enc_u32 42#32 then some (.waiting n) else none
    | _ => none
  | .client (.call_begin_raw ..) => none
  | .client (.call_drop ..) => none
  | .client (.pub_begin ..) => none
  | .client .close => none
  | .client .drop_handles => none
  | .client (.sub_excl ..) => none
  | .client (.sub_repl ..) => none
  | .client (.sub_multi ..) => none
  | .client (.recv_excl ..) => none
  | .client (.recv_multi ..) => none
  | .client (.drop_excl ..) => none
  | .client (.drop_multi ..) => none
  | .client _ => if pc.live then some pc else none
  | .app_publish .. => none
  | _ => some pc

/-- `MultiSubscription::recv` for `LoggingTopic`, whose message is a `String` (standard_icd.rs 145), host_client/mod.rs 861-874, on
what `RawMultiSubscription::recv` returned, and the `while let` around it, logging.rs of the host, 15-18: a frame that cannot be decoded is
skipped. -/
def lg_received (decode : Bytes → Option Bytes) (id : Nat) : MultiRes → List LgLine × LgPc
  | .Ok f =>
    match decode f.body with
    | some t => ([.log t], .receiving id)
    | none => ([], .receiving id)
  | .IoClosed => ([.disconnected], .ended)
  | .Lagged _ => ([.disconnected], .ended)

/-- `ping` has returned: `unwrap` and what is printed, logging.rs of the host, 9-11, with client.rs 60-63. -/
def lg_returned (r : CallRes) : List LgLine × LgPc :=
  match wb_result (.ping 42#32) r with
  | .num n => ([.got n, .blank], .subscribing)
  | _ => ([], .panicked)

/-- A step. -/
def lg_step {E : Type} (I : WbIcd) (U : UsbCfg LgVal E Unit Unit) (decode : Bytes → Option Bytes) (y : LgSys E) : LgLabel → Option (LgSys E)
  | .sys l =>
    match lg_allows I y.pc y.usb.sys.client.calls.length l with
    | none => none
    | some pc =>
      match u_step U y.usb l with
      | none => none
      | some u => some { y with usb := u, pc := pc }
  | .tick =>
    match u_step U y.usb (.app_publish I.std.logging_topic (.Seq2 y.log_seq) (log_msg y.ctr)) with
    | none => none
    | some u => some { y with usb := u, log_seq := y.log_seq + 1#16, ctr := y.ctr + 1#16 }
  | .returned =>
    match y.pc with
    | .waiting c =>
      match y.usb.sys.client.calls[c]? with
      | none => none
      | some cl =>
        match cl.phase with
        | .done r => some { y with pc := (lg_returned r).2, term := y.term ++ (lg_returned r).1 }
        | _ => none
    | _ => none
  | .subscribed =>
    match y.pc with
    | .subscribing =>
      match u_step U y.usb (.client (.sub_multi I.std.logging_topic 64)) with
      | none => none
      | some u =>
        match (subscribe_multi_inner y.usb.sys.client.subs I.std.logging_topic 64).1 with
        | .Ok id => some { y with usb := u, pc := .receiving id }
        | _ => some { y with usb := u, pc := .panicked }
    | _ => none
  | .received =>
    match y.pc with
    | .receiving id =>
      match u_step U y.usb (.client (.recv_multi id)) with
      | none => none
      | some u =>
        match (multi_recv y.usb.sys.client.subs id).1 with
        | none => none
        | some r => some { y with usb := u, pc := (lg_received decode id r).2, term := y.term ++ (lg_received decode id r).1 }
    | _ => none

/-- A run. -/
def lg_run {E : Type} (I : WbIcd) (U : UsbCfg LgVal E Unit Unit) (decode : Bytes → Option Bytes) : List LgLabel → LgSys E → Option (LgSys E)
  | [], y => some y
  | l :: ls, y =>
    match lg_step I U decode y l with
    | some y' => lg_run I U decode ls y'
    | none => none

end PRpc
