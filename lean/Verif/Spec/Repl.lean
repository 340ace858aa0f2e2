import Verif.Spec.Workbook
import Verif.Model.Repl
/-! Vocabulary for C93: what the terminal program of the workbook example is told and what it does. -/

namespace PRpc.Spec

/-- White space: tabs, line ends, blanks, and Unicode's others. -/
def White (c : Char) : Prop :=
  c.toNat ∈ [0x09, 0x0A, 0x0B, 0x0C, 0x0D, 0x20, 0x85, 0xA0, 0x1680, 0x2000, 0x2001, 0x2002, 0x2003, 0x2004, 0x2005, 0x2006, 0x2007,
    0x2008, 0x2009, 0x200A, 0x2028, 0x2029, 0x202F, 0x205F, 0x3000]

/-- The words of a line: what is between its white space. -/
inductive Words : List Char → List (List Char) → Prop where
  | nil (s : List Char) (h : ∀ c ∈ s, White c) : Words s []
  | cons (pre w rest : List Char) (ws : List (List Char)) (hpre : ∀ c ∈ pre, White c) (hne : w ≠ []) (hw : ∀ c ∈ w, ¬ White c)
      (hend : ∀ c, rest.head? = some c → White c) (h : Words rest ws) : Words (pre ++ w ++ rest) (w :: ws)

/-- The number some digits are. -/
def decimal (ds : List Char) : Nat := ds.foldl (fun n c => 10 * n + (c.toNat - '0'.toNat)) 0

/-- The word is a number of `w` bits, in decimal, perhaps with a plus sign. -/
def Numeral (w : Nat) (t : List Char) (n : BitVec w) : Prop :=
  ∃ ds, (t = ds ∨ t = '+' :: ds) ∧ ds ≠ [] ∧ (∀ c ∈ ds, '0'.toNat ≤ c.toNat ∧ c.toNat ≤ '9'.toNat) ∧ decimal ds = n.toNat

/-- The word is no such number. -/
def NotNumeral (w : Nat) (t : List Char) : Prop := ∀ n : BitVec w, ¬ Numeral w t n

/-- The word names a range of the accelerometer. -/
inductive RangeWord : List Char → AccelRange → Prop where
  | g2 : RangeWord ['2'] .G2
  | g4 : RangeWord ['4'] .G4
  | g8 : RangeWord ['8'] .G8
  | g16 : RangeWord ['1', '6'] .G16

/-- The words are those of a command, whatever its arguments are. -/
inductive Shape : List (List Char) → Prop where
  | ping : Shape [['p', 'i', 'n', 'g']]
  | ping_n (n) : Shape [['p', 'i', 'n', 'g'], n]
  | rgb (pos r g b) : Shape [['r', 'g', 'b'], pos, r, g, b]
  | rgball (r g b) : Shape [['r', 'g', 'b', 'a', 'l', 'l'], r, g, b]
  | listen (ms range dur) : Shape [['a', 'c', 'c', 'e', 'l'], ['l', 'i', 's', 't', 'e', 'n'], ms, range, dur]
  | start (ms range) : Shape [['a', 'c', 'c', 'e', 'l'], ['s', 't', 'a', 'r', 't'], ms, range]
  | stop : Shape [['a', 'c', 'c', 'e', 'l'], ['s', 't', 'o', 'p']]
  | schema : Shape [['s', 'c', 'h', 'e', 'm', 'a']]

/-- The line is no command, and this is the complaint about it. -/
inductive Complaint (line : List Char) : Printed → Prop where
  | ping (n) (h : Words line [['p', 'i', 'n', 'g'], n]) (hn : NotNumeral 32 n) : Complaint line (.bad_u32 n)
  | listen_ms (ms range dur) (h : Words line [['a', 'c', 'c', 'e', 'l'], ['l', 'i', 's', 't', 'e', 'n'], ms, range, dur])
      (hms : NotNumeral 32 ms) : Complaint line (.bad_ms ms)
  | listen_dur (ms range dur) (h : Words line [['a', 'c', 'c', 'e', 'l'], ['l', 'i', 's', 't', 'e', 'n'], ms, range, dur])
      (hms : ∃ n, Numeral 32 ms n) (hdur : NotNumeral 32 dur) : Complaint line (.bad_dur dur)
  | listen_range (ms range dur) (h : Words line [['a', 'c', 'c', 'e', 'l'], ['l', 'i', 's', 't', 'e', 'n'], ms, range, dur])
      (hms : ∃ n, Numeral 32 ms n) (hdur : ∃ n, Numeral 32 dur n) (hr : ∀ r, ¬ RangeWord range r) : Complaint line (.bad_range range)
  | start_ms (ms range) (h : Words line [['a', 'c', 'c', 'e', 'l'], ['s', 't', 'a', 'r', 't'], ms, range])
      (hms : NotNumeral 32 ms) : Complaint line (.bad_ms ms)
  | start_range (ms range) (h : Words line [['a', 'c', 'c', 'e', 'l'], ['s', 't', 'a', 'r', 't'], ms, range])
      (hms : ∃ n, Numeral 32 ms n) (hr : ∀ r, ¬ RangeWord range r) : Complaint line (.bad_range range)
  | unknown (ws) (h : Words line ws) (hs : ¬ Shape ws) : Complaint line (.not_understood ws)

/-- The line is a command to set colours, with something that is no number in the place of one. -/
inductive BadColour (line : List Char) : Prop where
  | rgb (pos r g b) (h : Words line [['r', 'g', 'b'], pos, r, g, b])
      (hn : NotNumeral 32 pos ∨ NotNumeral 8 r ∨ NotNumeral 8 g ∨ NotNumeral 8 b) : BadColour line
  | rgball (r g b) (h : Words line [['r', 'g', 'b', 'a', 'l', 'l'], r, g, b])
      (hn : NotNumeral 8 r ∨ NotNumeral 8 g ∨ NotNumeral 8 b) : BadColour line

/-- What a line typed at the prompt leads to until there is a prompt again: what is printed, and what becomes of the board. -/
inductive Turn (b : Board) (line : List Char) : List Printed → Board → Prop where
  | ping (h : Words line [['p', 'i', 'n', 'g']]) : Turn b line [.got 42] b
  | ping_n (t) (n : BitVec 32) (h : Words line [['p', 'i', 'n', 'g'], t]) (hn : Numeral 32 t n) : Turn b line [.got n] b
  | rgb (tp tr tg tb) (pos : BitVec 32) (red green blue : Byte) (h : Words line [['r', 'g', 'b'], tp, tr, tg, tb])
      (hp : Numeral 32 tp pos) (hr : Numeral 8 tr red) (hg : Numeral 8 tg green) (hb : Numeral 8 tb blue) (hlt : pos.toNat < 24) :
      Turn b line [] (b.after (.set_rgb_single pos red green blue))
  | rgball (tr tg tb) (red green blue : Byte) (h : Words line [['r', 'g', 'b', 'a', 'l', 'l'], tr, tg, tb])
      (hr : Numeral 8 tr red) (hg : Numeral 8 tg green) (hb : Numeral 8 tb blue) :
      Turn b line [] (b.after (.set_all_rgb_single red green blue))
  | listen (tms trange tdur) (ms dur : BitVec 32) (range : AccelRange) (accs : List Acceleration)
      (h : Words line [['a', 'c', 'c', 'e', 'l'], ['l', 'i', 's', 't', 'e', 'n'], tms, trange, tdur])
      (hms : Numeral 32 tms ms) (hr : RangeWord trange range) (hdur : Numeral 32 tdur dur) :
      Turn b line (.started :: accs.map .acc ++ [.stopped]) ((b.after (.start_accelerometer ms range)).after .stop_accelerometer)
  | start (tms trange) (ms : BitVec 32) (range : AccelRange)
      (h : Words line [['a', 'c', 'c', 'e', 'l'], ['s', 't', 'a', 'r', 't'], tms, trange])
      (hms : Numeral 32 tms ms) (hr : RangeWord trange range) : Turn b line [.started] (b.after (.start_accelerometer ms range))
  | stop (h : Words line [['a', 'c', 'c', 'e', 'l'], ['s', 't', 'o', 'p']]) :
      Turn b line [.stopped_was (b.busy b.stops)] (b.after .stop_accelerometer)
  | schema (r : SchemaReport) (h : Words line [['s', 'c', 'h', 'e', 'm', 'a']]) : Turn b line [.report r] b
  | complaint (p : Printed) (h : Complaint line p) : Turn b line [p] b

/-- The line asks to listen to the accelerometer for `dur` milliseconds. -/
def ListensFor (line : List Char) (dur : BitVec 32) : Prop :=
  ∃ tms trange tdur, Words line [['a', 'c', 'c', 'e', 'l'], ['l', 'i', 's', 't', 'e', 'n'], tms, trange, tdur] ∧ Numeral 32 tdur dur

/-- What is on the terminal when there is a prompt, and what the board has come to. -/
inductive Dialogue (b0 : Board) : List Term → Board → Prop where
  | hello : Dialogue b0 (List.map Term.printed [.connecting, .connected, .got 42, .id b0.id, .blank, .prompt]) b0
  | turn {term : List Term} {b b' : Board} {line : List Char} {ps : List Printed} (h : Dialogue b0 term b) (ht : Turn b line ps b') :
      Dialogue b0 (term ++ .typed line :: List.map Term.printed (ps ++ [.prompt])) b'

/-- What makes the program panic: a command to set colours without a number where one should be; a method that failed, or was asked for an
LED that there is not; a subscription, a message or a schema report that did not come. -/
inductive PanicCause {E : Type} (y : ReplSys E) : RLabel → Prop where
  | line (line : List Char) (h : BadColour line) : PanicCause y (.line line)
  | failed (m : WbMethod) (c : Nat) (k : ReplCont) (cl : Call) (r : CallRes) (hpc : y.pc = .waiting m c k)
      (hc : y.usb.sys.client.calls[c]? = some cl) (hp : cl.phase = .done r) (hr : wb_result m r = .comms) : PanicCause y .returned
  | position (pos : BitVec 32) (red green blue : Byte) (c : Nat) (k : ReplCont) (cl : Call) (r : CallRes)
      (hpc : y.pc = .waiting (.set_rgb_single pos red green blue) c k) (hc : y.usb.sys.client.calls[c]? = some cl) (hp : cl.phase = .done r)
      (hr : wb_result (.set_rgb_single pos red green blue) r = .bad_position) (hge : 24 ≤ pos.toNat) : PanicCause y .returned
  | not_subscribed : PanicCause y (.subscribed false)
  | not_received : PanicCause y (.received none)
  | not_reported : PanicCause y (.reported none)

end PRpc.Spec
