import Verif.Spec.Session
import Verif.Spec.UsbSys
/-! Vocabulary for C106: what a client publishes and what the topic handlers of the server are given. -/

namespace PRpc.Spec

variable {V E SC Ctx : Type}

/-- The messages given to topic handlers, oldest first, as a piece of log shows them: the handler's name, the sequence number and the
message.  A task that could not be spawned is given nothing. -/
def toHandlers : List (Event V E SC) → List (Nat × VarSeq × V)
  | [] => []
  | .ran .topic name hdr v :: es => (name, hdr.seq_no, v) :: toHandlers es
  | .spawned ⟨.topic, name, _, hdr, v⟩ true :: es => (name, hdr.seq_no, v) :: toHandlers es
  | _ :: es => toHandlers es

/-- The message that `publish` or `publish_raw` was called with, if this step makes that call return `Ok`. -/
def okBy (cfg : Cfg) (s : Client) : Label → List RpcFrame
  | .pub_send p =>
    match step cfg s (.pub_send p) with
    | some s' =>
      match s'.pubs[p]? with
      | some pb => if pb.res = some true then [pb.orig] else []
      | none => []
    | none => []
  | _ => []

/-- The messages published in a run that starts in `s`, in the order in which the calls of `publish` and `publish_raw` returned `Ok`. -/
def publishedOk (S : SysCfg V E SC Ctx) : List (SLabel V) → Sys V E SC Ctx → List RpcFrame
  | [], _ => []
  | l :: ls, s =>
    (match l with
      | .client l => okBy S.cfg s.client l
      | _ => []) ++
    match sys_step S s l with
    | some s' => publishedOk S ls s'
    | none => []

/-- What a published message says to the application: the handler of its topic, if there is one, gets its sequence number and what it
decodes to; a message that cannot be decoded says nothing. -/
def says (a : App V E SC Ctx) (f : RpcFrame) : Option (Nat × VarSeq × V) :=
  match a.tps.find? fun t => f.header.key = .Key8 t.key with
  | some t => (t.decode f.body).map fun v => (t.name, f.header.seq_no, v)
  | none => none

/-- The server spawns every task, and its keys are at least as long as the dispatcher's. -/
structure Hears (S : SysCfg V E SC Ctx) : Prop where
  spawns : ∀ log t, S.env.spawn log t = true
  long : keyLen S.disp.n ≤ keyLen S.kkind

/-- The messages published in a run over a USB cable. -/
def usbPublishedOk (U : UsbCfg V E SC Ctx) : List (ULabel V) → UsbSys V E SC Ctx → List RpcFrame
  | [], _ => []
  | l :: ls, u =>
    (match l with
      | .client l => okBy U.S.cfg u.sys.client l
      | _ => []) ++
    match u_step U u l with
    | some u' => usbPublishedOk U ls u'
    | none => []

end PRpc.Spec
