import Verif.Model.Workbook
import Verif.Model.SchemaReport
/-!
Model of the terminal program of the workbook example, `/repo/example/workbook-host/src/bin/comms-02.rs`, with `read_line`
(`/repo/example/workbook-host/src/lib.rs` 4-12), joined with the client, the cable and the board (`Verif.Model.Workbook`).

A program counter says where `main` stands; a label is what it was waiting for (a line of input, the outcome of a call, …) or a step
of the rest of the system.  The terminal is a list of what was typed and what was printed.

Simplifications: a string is a list of characters.  What is printed is kept as data, not as text.  The subscription of `accel
listen` and the part of `get_schema_report` after its request give arbitrary results (C82, C91 and C46 are about these); the steps
the client takes for them are not tied to the program counter.  `read_line` is taken to succeed.
-/

namespace PRpc

/-- `char::is_whitespace` (external: Unicode's `White_Space`). -/
def is_whitespace (c : Char) : Bool :=
  (9 ≤ c.toNat && c.toNat ≤ 13) || c.toNat == 32 || c.toNat == 0x85 || c.toNat == 0xA0 || c.toNat == 0x1680 ||
    (0x2000 ≤ c.toNat && c.toNat ≤ 0x200A) || c.toNat == 0x2028 || c.toNat == 0x2029 || c.toNat == 0x202F || c.toNat == 0x205F ||
    c.toNat == 0x3000

/-- `str::split` at characters with the property `p` (external). -/
def split_on (p : Char → Bool) : List Char → List (List Char)
  | [] => [[]]
  | c :: cs =>
    if p c then [] :: split_on p cs
    else match split_on p cs with
      | [] => [[c]]
      | w :: ws => (c :: w) :: ws

/-- `str::split_whitespace` (external; used at comms-02.rs 24): what is between white space, without empty strings. -/
def split_whitespace (s : List Char) : List (List Char) := (split_on is_whitespace s).filter fun w => !w.isEmpty

/-- `char::to_digit(10)` (external). -/
def to_digit (c : Char) : Option Nat := if 48 ≤ c.toNat ∧ c.toNat ≤ 57 then some (c.toNat - 48) else none

/-- The loop of `from_str_radix` for an unsigned integer of `w` bits (external): `checked_mul` and `checked_add`. -/
def parse_digits (w : Nat) : BitVec w → List Char → Option (BitVec w)
  | r, [] => some r
  | r, c :: cs =>
    match to_digit c with
    | none => none
    | some d =>
      if r.toNat * 10 < 2 ^ w then
        if r.toNat * 10 + d < 2 ^ w then parse_digits w (BitVec.ofNat w (r.toNat * 10 + d)) cs else none
      else none

/-- `str::parse::<u8>` and `::<u32>` (external, `from_str_radix` with radix 10; used at comms-02.rs 31, 39, 46, 52, 56, 84): a `+` may
be in front; `none` is an error. -/
def parse_uint (w : Nat) : List Char → Option (BitVec w)
  | [] => none
  | c :: cs =>
    if c = '+' then (if cs.isEmpty then none else parse_digits w 0 cs)
    else parse_digits w 0 (c :: cs)

/-- What the program prints, comms-02.rs 10-16, 21, 28-36, 53-81, 85-104, 109-136; `blank` is the empty line of 17, `prompt` the `> `. -/
inductive Printed where
  | connecting
  | connected
  | got (n : BitVec 32)
  | id (n : BitVec 64)
  | blank
  | prompt
  | bad_u32 (w : List Char)
  | bad_ms (w : List Char)
  | bad_dur (w : List Char)
  | bad_range (w : List Char)
  | started
  | acc (a : Acceleration)
  | stopped
  | stopped_was (b : Bool)
  | report (r : SchemaReport)
  | not_understood (ws : List (List Char))

/-- The terminal: lines typed (an empty string: the input has ended) and what is printed. -/
inductive Term where
  | typed (line : List Char)
  | printed (p : Printed)

/-- What `main` does with what a method returns: lines 13-14; 15-17; 27-28 and 35-36; 43 and 49; 72-75; 80-81; 99-100; 103-104; 107. -/
inductive ReplCont where
  | hello
  | uid
  | pinged
  | colour
  | listen (dur : BitVec 32)
  | listened
  | started
  | stopped
  | schema
  deriving DecidableEq

/-- Where `main` stands, comms-02.rs 8-140: calling a method; waiting for call `c` to return; in `read_line` (23); in `subscribe_multi`
(71); at the head of the loop of line 76; in `recv` (77); in `get_schema_report` after its request has been answered (107);
panicked. -/
inductive ReplPc where
  | calling (m : WbMethod) (k : ReplCont)
  | waiting (m : WbMethod) (c : Nat) (k : ReplCont)
  | reading
  | subscribing (ms : BitVec 32) (range : AccelRange) (dur : BitVec 32)
  | listening (dur : BitVec 32)
  | receiving (dur : BitVec 32)
  | reporting
  | panicked

/-- `match *range`, comms-02.rs 60-69 and 88-97. -/
def parse_range (w : List Char) : Option AccelRange :=
  if w = ['2'] then some .G2 else if w = ['4'] then some .G4 else if w = ['8'] then some .G8 else if w = ['1', '6'] then some .G16 else none

/-- `continue`, and the head of the loop: the prompt, comms-02.rs 20-22. -/
def again (ps : List Printed) : List Printed × ReplPc := (ps ++ [.prompt], .reading)

/-- The arm `["accel", "listen", ms, range, dur]` up to its first `await`, comms-02.rs 51-71. -/
def arm_listen (ms range dur : List Char) : List Printed × ReplPc :=
  match parse_uint 32 ms with
  | none => again [.bad_ms ms]
  | some ms =>
    match parse_uint 32 dur with
    | none => again [.bad_dur dur]
    | some dur =>
      match parse_range range with
      | none => again [.bad_range range]
      | some range => ([], .subscribing ms range dur)

/-- The arm `["accel", "start", ms, range]` up to its first `await`, comms-02.rs 83-99. -/
def arm_start (ms range : List Char) : List Printed × ReplPc :=
  match parse_uint 32 ms with
  | none => again [.bad_ms ms]
  | some ms =>
    match parse_range range with
    | none => again [.bad_range range]
    | some range => ([], .calling (.start_accelerometer ms range) .started)

/-- The arm `["rgb", pos, r, g, b]`, comms-02.rs 38-44: `pos` is a `u32`, the colours are `u8` (client.rs 71-74). -/
def arm_rgb (pos r g b : List Char) : List Printed × ReplPc :=
  match parse_uint 32 pos, parse_uint 8 r, parse_uint 8 g, parse_uint 8 b with
  | some pos, some r, some g, some b => ([], .calling (.set_rgb_single pos r g b) .colour)
  | _, _, _, _ => ([], .panicked)

/-- The arm `["rgball", r, g, b]`, comms-02.rs 45-50. -/
def arm_rgball (r g b : List Char) : List Printed × ReplPc :=
  match parse_uint 8 r, parse_uint 8 g, parse_uint 8 b with
  | some r, some g, some b => ([], .calling (.set_all_rgb_single r g b) .colour)
  | _, _, _ => ([], .panicked)

/-- The arm `["ping", n]`, comms-02.rs 30-37. -/
def arm_ping (n : List Char) : List Printed × ReplPc :=
  match parse_uint 32 n with
  | none => again [.bad_u32 n]
  | some idx => ([], .calling (.ping idx) .pinged)

/-- `match parts.as_slice()`, comms-02.rs 24-138, up to the first `await` of each arm.  The arms are grouped by the number of words;
no two of them match the same words. -/
def repl_line (line : List Char) : List Printed × ReplPc :=
  match split_whitespace line with
  | [w] =>
    if w = ['p', 'i', 'n', 'g'] then ([], .calling (.ping 42) .pinged)
    else if w = ['s', 'c', 'h', 'e', 'm', 'a'] then ([], .calling .schemas .schema)
    else again [.not_understood [w]]
  | [w, x] =>
    if w = ['p', 'i', 'n', 'g'] then arm_ping x
    else if w = ['a', 'c', 'c', 'e', 'l'] ∧ x = ['s', 't', 'o', 'p'] then ([], .calling .stop_accelerometer .stopped)
    else again [.not_understood [w, x]]
  | [w, x, y, z] =>
    if w = ['r', 'g', 'b', 'a', 'l', 'l'] then arm_rgball x y z
    else if w = ['a', 'c', 'c', 'e', 'l'] ∧ x = ['s', 't', 'a', 'r', 't'] then arm_start y z
    else again [.not_understood [w, x, y, z]]
  | [w, x, y, z, v] =>
    if w = ['r', 'g', 'b'] then arm_rgb x y z v
    else if w = ['a', 'c', 'c', 'e', 'l'] ∧ x = ['l', 'i', 's', 't', 'e', 'n'] then arm_listen y z v
    else again [.not_understood [w, x, y, z, v]]
  | ws => again [.not_understood ws]

/-- The method has returned: its `unwrap` and what comes after it up to the next `await`; the lines are those of `ReplCont`. -/
def repl_returned (k : ReplCont) (o : WbOut) : List Printed × ReplPc :=
  match k, o with
  | .hello, .num n => ([.got n], .calling .get_id .uid)
  | .uid, .id n => again [.id n, .blank]
  | .pinged, .num n => again [.got n]
  | .colour, .unit => again []
  | .listen dur, .unit => ([.started], .listening dur)
  | .listened, .busy _ => again [.stopped]
  | .started, .unit => again [.started]
  | .stopped, .busy b => again [.stopped_was b]
  | .schema, .report _ => ([], .reporting)
  | _, _ => ([], .panicked)

/-- The program, with the client, the cable and the board it talks to.  `term` is bookkeeping: what has appeared on the terminal. -/
structure ReplSys (E : Type) where
  usb : UsbSys WbVal E Unit WbCtx
  pc : ReplPc
  term : List Term

/-- `main` after the client has been made, comms-02.rs 9-13; the board has just been switched on. -/
def ReplSys.start {E : Type} (c0 : WbCtx) : ReplSys E :=
  ⟨UsbSys.new c0, .calling (.ping 42) .hello, [.printed .connecting, .printed .connected]⟩

/-- The steps: one of the rest of the system; a line has been read; the method has returned; the subscription of line 71, or that of
`get_schema_report` (host_client/mod.rs 252), has been made or not; the clock is looked at, `elapsed` nanoseconds after the start (76); a message has been received or not; there is a report or not. -/
inductive RLabel where
  | sys (l : ULabel WbVal)
  | line (l : List Char)
  | returned
  | subscribed (ok : Bool)
  | clock (elapsed : Nat)
  | received (r : Option Acceleration)
  | reported (r : Option SchemaReport)

/-- Which steps the program and the firmware let the rest of the system take, and where the program then stands.  The program calls
methods only where its text does, one at a time, publishes nothing, subscribes to two topics (71 and, within `get_schema_report`,
host_client/mod.rs 252), and never closes the client.  After a panic the process is gone.  The firmware publishes accelerations
(comms-02.rs of the firmware, 271-275). -/
def repl_allows (I : WbIcd) (pc : ReplPc) (n : Nat) : ULabel WbVal → Option ReplPc
  | .client (.call_begin req resp body) =>
    match pc with
    | .calling m k => if req = m.req I ∧ resp = m.resp I ∧ body = m.body then some (.waiting m n k) else none
    | _ => none
  | .client (.sub_multi key _) =>
    match pc with
    | .panicked => none
    | _ => if key = I.accel.key ∨ key = I.std.schema_topic then some pc else none
  | .client (.call_begin_raw ..) => none
  | .client (.call_drop ..) => none
  | .client (.pub_begin ..) => none
  | .client .close => none
  | .client .drop_handles => none
  | .client (.sub_excl ..) => none
  | .client (.sub_repl ..) => none
  | .client _ =>
    match pc with
    | .panicked => none
    | _ => some pc
  | .app_publish key _ (.accel _) => if key = I.accel.key then some pc else none
  | .app_publish .. => none
  | _ => some pc

/-- A step, comms-02.rs 8-140. -/
def repl_step {E : Type} (I : WbIcd) (U : UsbCfg WbVal E Unit WbCtx) (y : ReplSys E) : RLabel → Option (ReplSys E)
  | .sys l =>
    match repl_allows I y.pc y.usb.sys.client.calls.length l with
    | none => none
    | some pc =>
      match u_step U y.usb l with
      | none => none
      | some u => some { y with usb := u, pc := pc }
  | .line l =>
    match y.pc with
    | .reading => some { y with pc := (repl_line l).2, term := y.term ++ .typed l :: (repl_line l).1.map .printed }
    | _ => none
  | .returned =>
    match y.pc with
    | .waiting m c k =>
      match y.usb.sys.client.calls[c]? with
      | none => none
      | some cl =>
        match cl.phase with
        | .done r =>
          some { y with pc := (repl_returned k (wb_result m r)).2, term := y.term ++ (repl_returned k (wb_result m r)).1.map .printed }
        | _ => none
    | _ => none
  | .subscribed ok =>
    match y.pc with
    | .subscribing ms range dur =>
      some { y with pc := if ok then .calling (.start_accelerometer ms range) (.listen dur) else .panicked }
    | .calling .schemas .schema => some { y with pc := if ok then y.pc else .panicked }
    | _ => none
  | .clock elapsed =>
    match y.pc with
    | .listening dur => some { y with pc := if elapsed < dur.toNat * 1000000 then .receiving dur else .calling .stop_accelerometer .listened }
    | _ => none
  | .received r =>
    match y.pc, r with
    | .receiving dur, some a => some { y with pc := .listening dur, term := y.term ++ [.printed (.acc a)] }
    | .receiving _, none => some { y with pc := .panicked }
    | _, _ => none
  | .reported r =>
    match y.pc, r with
    | .reporting, some r => some { y with pc := .reading, term := y.term ++ [.printed (.report r), .printed .prompt] }
    | .reporting, none => some { y with pc := .panicked }
    | _, _ => none

/-- A run. -/
def repl_run {E : Type} (I : WbIcd) (U : UsbCfg WbVal E Unit WbCtx) : List RLabel → ReplSys E → Option (ReplSys E)
  | [], y => some y
  | l :: ls, y =>
    match repl_step I U y l with
    | some y' => repl_run I U ls y'
    | none => none

end PRpc
