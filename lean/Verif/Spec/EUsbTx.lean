import Verif.Model.EUsbTx
import Verif.Spec.Usb
import Verif.Spec.MinKey
/-! What the operations of the USB transmitter are meant to put on the wire. -/

namespace PRpc.Spec

/-- The header of the log message number `n`: log topic key at the requested length, two-byte sequence number. -/
def IsLogHeader (logging : Key) (kkind : VarKeyKind) (n : Nat) (hb : Bytes) : Prop :=
  ∃ k : VarKey, keyBytes k = short (keyLen kkind) logging ∧
    hb.map BitVec.toNat = layout ⟨k, .Seq2 (BitVec.ofNat 16 n)⟩

/-- The frame an operation stands for, if `n` log messages were attempted before it; the buffer has `cap` bytes,
and only raw frames may be longer. -/
def FrameOf (w cap : Nat) (logging : Key) (n : Nat) : TxOp → Bytes → Prop
  | .send hdr m, f => ∃ hb : Bytes, hb.map BitVec.toNat = layout hdr ∧ f = hb ++ m.bytes ∧ f.length ≤ cap
  | .send_raw buf, f => f = buf
  | .send_log_str kkind s _, f => ∃ hb b, IsLogHeader logging kkind n hb ∧ f = hb ++ b ∧ IsText w b s ∧
      f.length ≤ cap
  | .send_log_fmt kkind pieces fails, f => ∃ hb b, IsLogHeader logging kkind n hb ∧ f = hb ++ b ∧
      IsText w b (logText fails ((cap - hb.length) - reserved w (cap - hb.length)) pieces.flatten) ∧ f.length ≤ cap

/-- The operations that must be refused: the message cannot be serialized, or there is no room for it. -/
def Refused (w cap : Nat) : TxOp → Prop
  | .send hdr m => m.fails = true ∨ cap < encLen hdr + m.bytes.length
  | .send_raw _ => False
  | .send_log_str kkind s _ => ∀ d, 0 < d → s.length < 128 ^ d → cap < 3 + keyLen kkind + d + s.length
  | .send_log_fmt kkind _ _ => cap < 3 + keyLen kkind ∨ cap - (3 + keyLen kkind) < reserved w (cap - (3 + keyLen kkind))

/-- The formatted log messages that make the device panic (see C34). -/
def LogPanics (w cap : Nat) : TxOp → Prop
  | .send_log_fmt kkind pieces _ =>
    ¬ Refused w cap (.send_log_fmt kkind pieces false) ∧
      (cap - (3 + keyLen kkind) - reserved w (cap - (3 + keyLen kkind)) < pieces.flatten.length ∨
        128 ^ reserved w (cap - (3 + keyLen kkind)) ≤ pieces.flatten.length)
  | _ => False

/-- Is this a log message? -/
def isLog : TxOp → Bool
  | .send_log_str .. => true
  | .send_log_fmt .. => true
  | _ => false

end PRpc.Spec
