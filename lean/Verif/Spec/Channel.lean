import Verif.Model.Channel
import Verif.Spec.EUsbTx
/-! What happened on a channel, read off the events: calls in the order they started, those that succeeded, those that
did not, and the frames taken out. -/

namespace PRpc.Spec

/-- The calls started, in order; call number `i` is the `i`-th. -/
def started (evs : List ChEv) : List TxOp := evs.filterMap fun | .start op => some op | _ => none

/-- The numbers of the calls that returned `Ok`, in that order. -/
def accepted (evs : List ChEv) : List Nat := evs.filterMap fun | .sent i => some i | _ => none

/-- The numbers of the calls that returned an error or were given up. -/
def unsent (evs : List ChEv) : List Nat := evs.filterMap fun | .failed i => some i | .dropped i => some i | _ => none

/-- The frames `receive` took, whether it returned them or found them too large. -/
def taken (evs : List ChEv) : List Bytes := evs.filterMap fun | .got b => some b | .too_large b => some b | _ => none

/-- The number of log calls started before call `i`. -/
def logNo (evs : List ChEv) (i : Nat) : Nat := ((started evs).take i).countP isLog

/-- The frame a call stands for when `n` log calls were started before it. -/
def ChFrame (w : Nat) (logging : Key) (n : Nat) : TxOp → Bytes → Prop
  | .send hdr m, f => ∃ hb : Bytes, hb.map BitVec.toNat = layout hdr ∧ f = hb ++ m.bytes
  | .send_raw buf, f => f = buf
  | .send_log_str kkind s _, f => ∃ (hb b : Bytes) (k : VarKey), keyBytes k = short (keyLen kkind) logging ∧
      hb.map BitVec.toNat = layout ⟨k, .Seq4 (BitVec.ofNat 32 n)⟩ ∧ f = hb ++ b ∧ IsText w b s
  | .send_log_fmt kkind pieces _, f => ∃ (hb b : Bytes) (k : VarKey), keyBytes k = short (keyLen kkind) logging ∧
      hb.map BitVec.toNat = layout ⟨k, .Seq4 (BitVec.ofNat 32 n)⟩ ∧ f = hb ++ b ∧ IsText w b pieces.flatten

/-- The calls that panic: the message or the formatter reports an error. -/
def Crashes : TxOp → Prop
  | .send _ m => m.fails = true
  | .send_log_fmt _ _ fails => fails = true
  | _ => False

/-- The texts are shorter than the address space. -/
def TextFits (w : Nat) : TxOp → Prop
  | .send_log_str _ s _ => s.length < 2 ^ (8 * w)
  | .send_log_fmt _ pieces _ => pieces.flatten.length < 2 ^ (8 * w)
  | _ => True

/-- No call starts while another one has neither returned nor been given up nor panicked. -/
def OneAtATime (evs : List ChEv) : Prop :=
  ∀ pre op post, evs = pre ++ ChEv.start op :: post → ∀ i o, (started pre)[i]? = some o →
    i ∈ accepted pre ∨ i ∈ unsent pre ∨ Crashes o

end PRpc.Spec
