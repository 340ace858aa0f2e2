import Verif.Spec.MinKey
import Verif.Model.Client
/-!
Vocabulary for the client properties.  Nothing here uses the client's own comparison or shrinking functions: keys are
compared through `Spec.fold`, sequence numbers through `Spec.seqVal`.
-/

namespace PRpc.Spec

/-- The key on a frame is the full key `key`, as far as can be told when no more than `len` bytes are looked at: both
agree when folded to the shorter of `len` and the length of the key on the frame. -/
def KeyAgrees (len : Nat) (key : Key) (v : VarKey) : Prop :=
  fold (min len (keyBytes v).length) (keyBytes v) = short (min len (keyBytes v).length) key

instance (len : Nat) (key : Key) (v : VarKey) : Decidable (KeyAgrees len key v) := by unfold KeyAgrees; infer_instance

/-- The frame header carries the sequence number of `req` and the key `key`, looked at through `len` bytes. -/
structure Answers (len : Nat) (key : Key) (req h : VarHeader) : Prop where
  key : KeyAgrees len key h.key
  seq : seqVal h.seq_no = seqVal req.seq_no

/-- The frame is one of topic `key`: the key on it is `key` folded to the length used on the frame. -/
def OfTopic (key : Key) (f : RpcFrame) : Prop := keyBytes f.header.key = short (keyBytes f.header.key).length key

instance (key : Key) (f : RpcFrame) : Decidable (OfTopic key f) := by unfold OfTopic; infer_instance

/-- The frames of topic `key` among those that arrived from position `since` on. -/
def topicPart (key : Key) (since : Nat) (arrived : List RpcFrame) : List RpcFrame :=
  (arrived.drop since).filter fun f => decide (OfTopic key f)

/-- The frame the client asked to send has the given header key, shortened to `len` bytes if it is longer; the rest is
as asked. -/
structure Shortened (len : Nat) (orig sent : RpcFrame) : Prop where
  key : keyBytes sent.header.key = fold (min (keyBytes orig.header.key).length len) (keyBytes orig.header.key)
  seq : sent.header.seq_no = orig.header.seq_no
  body : sent.body = orig.body

/-- The call has not returned and has not been dropped. -/
def Unfinished (cl : Call) : Prop := (∀ r, cl.phase ≠ .done r) ∧ cl.phase ≠ .dropped

/-- The call ended with a reply (`err = false`) or with an error frame (`err = true`): the frame and its position among
the frames the receive worker offered to waiting calls. -/
def result (cl : Call) : Option (Bool × RpcFrame × Nat) :=
  match cl.phase with
  | .done (.Resp f i) => some (false, f, i)
  | .done (.ErrResp f i) => some (true, f, i)
  | _ => none

/-- The key a call looks for: its own response key, or the error key. -/
def wantKey (cfg : Cfg) (cl : Call) (err : Bool) : Key := if err then cfg.err_key else cl.resp_key

/-- The frames with a well-formed header that the transport delivered in a run, in order. -/
def heard : List Label → List RpcFrame
  | [] => []
  | .in_recv (some b) :: ls =>
    match VarHeader.take_from_slice b with
    | .ok (some (hdr, body)) => ⟨hdr, body⟩ :: heard ls
    | _ => heard ls
  | _ :: ls => heard ls

/-- The messages the receives on exclusive subscription `id` returned during a run that starts in `s`. -/
def received (cfg : Cfg) (id : Nat) : List Label → Client → List RpcFrame
  | [], _ => []
  | l :: ls, s =>
    let rest := match step cfg s l with
      | some s' => received cfg id ls s'
      | none => []
    match l with
    | .recv_excl i =>
      if i = id then
        match (sub_recv s.subs id).1 with
        | some (some f) => f :: rest
        | _ => rest
      else rest
    | _ => rest

/-- The messages the receives on multi-subscription `id` returned during a run that starts in `s`. -/
def receivedMulti (cfg : Cfg) (id : Nat) : List Label → Client → List RpcFrame
  | [], _ => []
  | l :: ls, s =>
    let rest := match step cfg s l with
      | some s' => receivedMulti cfg id ls s'
      | none => []
    match l with
    | .recv_multi i =>
      if i = id then
        match (multi_recv s.subs id).1 with
        | some (.Ok f) => f :: rest
        | _ => rest
      else rest
    | _ => rest

/-- `n` receives in a row on exclusive subscription `id`. -/
def drain (id : Nat) : Nat → Subs → List (Option (Option RpcFrame))
  | 0, _ => []
  | n + 1, s => (sub_recv s id).1 :: drain id n (sub_recv s id).2

/-- `n` receives in a row on multi-subscription `id`. -/
def drainMulti (id : Nat) : Nat → Subs → List (Option MultiRes)
  | 0, _ => []
  | n + 1, s => (multi_recv s id).1 :: drainMulti id n (multi_recv s id).2

end PRpc.Spec
