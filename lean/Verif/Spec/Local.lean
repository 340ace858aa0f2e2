import Verif.Model.Local
import Verif.Spec.Progress
import Verif.Spec.Client
/-! Vocabulary for C80: a client and the fake server of `local_setup`. -/

namespace PRpc.Spec

/-- What one step of the pair is for the client alone. -/
def clientStep : LLabel → List Label
  | .client l => [l]
  | .rx_msg b => [.in_recv (some b)]
  | .rx_err => [.in_recv none]
  | .tx_ok => [.out_done true]
  | .tx_err => [.out_done false]
  | _ => []

/-- The run of the client in a run of the pair. -/
def clientRun (ls : List LLabel) : List Label := ls.flatMap clientStep

/-- The frame the fake server sends; bytes a test sends by itself need not be one. -/
def opFrame : SrvOp → Option RpcFrame
  | .reply seq key data => some ⟨⟨.Key8 key, .Seq4 seq⟩, data⟩
  | .publish seq key data => some ⟨⟨.Key8 key, .Seq4 seq⟩, data⟩
  | .raw b =>
    match VarHeader.take_from_slice b with
    | .ok (some (hdr, body)) => some ⟨hdr, body⟩
    | _ => none

/-- The server sends frame `f` with key `key` through `reply` or `publish`. -/
def Sends (op : SrvOp) (key : Key) (f : RpcFrame) : Prop :=
  ∃ seq data, (op = .reply seq key data ∨ op = .publish seq key data) ∧ f = ⟨⟨.Key8 key, .Seq4 seq⟩, data⟩

/-- What the test's calls of `recv_from_client` returned during a run. -/
def srvGot (cfg : Cfg) (bound : Nat) : List LLabel → Local → List (Except LocalErr RpcFrame)
  | [], _ => []
  | l :: ls, s =>
    match l_step cfg bound s l with
    | none => []
    | some t => (if l = .srv_recv then ((srv_recv s).map Prod.fst).toList else []) ++ srvGot cfg bound ls t

/-- What the test's calls of `reply`, `publish` and `to_client.send` that returned `Ok` during a run were given. -/
def srvSaid (cfg : Cfg) (bound : Nat) : List LLabel → Local → List SrvOp
  | [], _ => []
  | l :: ls, s =>
    match l_step cfg bound s l with
    | none => []
    | some t =>
      (match l with
        | .srv_send op => if (srv_send bound s op).map Prod.fst = some none then [op] else []
        | _ => []) ++ srvSaid cfg bound ls t

/-- The steps the client and its transport take by themselves. -/
def LOwn (s : Local) : LLabel → Prop
  | .client l => Own s.client l
  | .rx_check | .rx_msg _ | .rx_err | .tx_check | .tx_ok | .tx_err => True
  | _ => False

/-- A run of such steps. -/
inductive LOwnRun (cfg : Cfg) (bound : Nat) : Local → List LLabel → Local → Prop where
  | nil (s : Local) : LOwnRun cfg bound s [] s
  | cons {s t u : Local} {l : LLabel} {ls : List LLabel} (ho : LOwn s l) (h : l_step cfg bound s l = some t)
      (hr : LOwnRun cfg bound t ls u) : LOwnRun cfg bound s (l :: ls) u

/-- No such step is possible. -/
def LStuck (cfg : Cfg) (bound : Nat) (s : Local) : Prop := ∀ l, LOwn s l → l_step cfg bound s l = none

/-- A message from the server is received by the client. -/
def Comes : LLabel → Bool
  | .rx_msg _ => true
  | _ => false

/-- A message of the client is put on the channel to the server. -/
def Goes : LLabel → Bool
  | .tx_ok => true
  | _ => false

end PRpc.Spec
