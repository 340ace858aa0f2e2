import Verif.Model.EUsbTx
import Verif.Model.Logging
import Verif.Spec.Topics
import Verif.Spec.Workbook
/-! Vocabulary for C95: what the board logs and what the host shows. -/

namespace PRpc.Spec

/-- The text of the `k`th log message of the board, counted from 0. -/
def loggedText (k : Nat) : String := if k % 2 = 1 then "Hello world!" else "formatted: " ++ toString (k % 65536)

/-- Its bytes. -/
def logged (k : Nat) : Bytes := (loggedText k).toList.map fun c => BitVec.ofNat 8 c.toNat

/-- How often the board has logged in a run. -/
def ticks : List LgLabel → Nat
  | [] => 0
  | .tick :: ls => ticks ls + 1
  | _ :: ls => ticks ls

/-- Which of the log messages of a run were sent without an error: what `log_str` and `log_fmt` returned. -/
def outcomes {E : Type} (I : WbIcd) (U : UsbCfg LgVal E Unit Unit) (decode : Bytes → Option Bytes) : List LgLabel → LgSys E → List Bool
  | [], _ => []
  | l :: ls, y =>
    let rest := match lg_step I U decode y l with
      | some y' => outcomes I U decode ls y'
      | none => []
    match l with
    | .tick => (sender_publish U.S.env U.S.kkind I.std.logging_topic (.Seq2 y.log_seq) (.val (log_msg y.ctr)) y.usb.sys.srv).1.isNone :: rest
    | _ => rest

/-- The numbers of the messages that were, when the first has number `k`. -/
def sentFrom (k : Nat) : List Bool → List Nat
  | [] => []
  | b :: bs => if b then k :: sentFrom (k + 1) bs else sentFrom (k + 1) bs

/-- The host has shown the log messages `texts`, and said so if it has stopped. -/
def ShowsLogs (term : List LgLine) (texts : List Bytes) (stopped : Bool) : Prop :=
  term = [.connecting, .connected, .got 42, .blank] ++ texts.map .log ++ if stopped then [.disconnected] else []

/-- The host reads nothing from a text but ASCII if it is ASCII. -/
def TakesAscii (utf8 : Bytes → Bool) : Prop := ∀ t : Bytes, (∀ b ∈ t, b.toNat < 128) → utf8 t = true

/-- What the task asks of the transmitter when its counter is `ctr`: the text of this message, as a string or as pieces of a formatted one. -/
def LogOp (kkind : VarKeyKind) (ctr : BitVec 16) (op : TxOp) : Prop :=
  if ctr.toNat % 2 = 1 then ∃ kept, op = .send_log_str kkind (logged ctr.toNat) kept
  else ∃ pieces, pieces.flatten = logged ctr.toNat ∧ op = .send_log_fmt kkind pieces false

end PRpc.Spec
