import Verif.Spec.UsbSys
import Verif.Spec.Session
import Verif.Spec.Postcard
/-! Vocabulary for C94: what a server publishes and what the subscribers of the topic receive. -/

namespace PRpc.Spec

variable {V E SC Ctx : Type}

/-- The client's steps of a run of the system. -/
def clientSteps : List (SLabel V) → List Label
  | [] => []
  | .client l :: ls => l :: clientSteps ls
  | _ :: ls => clientSteps ls

/-- A call of `Sender::publish` by code of the application: sequence number, message, and whether it returned `Ok`. -/
structure Publication (V : Type) where
  seq : VarSeq
  msg : V
  ok : Bool

/-- The calls of `Sender::publish` for topic `key` in a run that starts in `s`. -/
def publications (S : SysCfg V E SC Ctx) (key : Key) : List (SLabel V) → Sys V E SC Ctx → List (Publication V)
  | [], _ => []
  | l :: ls, s =>
    let rest := match sys_step S s l with
      | some s' => publications S key ls s'
      | none => []
    match l with
    | .app_publish k seq v =>
      if k = key then ⟨seq, v, (sender_publish S.env S.kkind k seq (.val v) s.srv).1.isNone⟩ :: rest else rest
    | _ => rest

/-- Those that returned `Ok`. -/
def succeeded (ps : List (Publication V)) : List (Publication V) := ps.filter (·.ok)

/-- A declared outgoing topic that is published by code of the application outside dispatch only: it is not the topic of the
schemas, and no topic handler publishes it. -/
structure AppTopic (a : App V E SC Ctx) (n : VarKeyKind) (key : Key) : Prop where
  listed : ∃ t ∈ a.topic_out_list.topics, t.key = key
  schemas : key ≠ a.std.schema_topic
  handlers : ∀ t ∈ a.tps, ∀ g, t.flavor = .async g → ∀ c hdr v fr, MaySend (g c hdr v) fr →
    keyBytes fr.hdr.key ≠ short (keyLen n) key

/-- The step makes exclusive subscription `id` of topic `key`. -/
def Subscribes (s : Subs) (key : Key) (id : Nat) : Label → Prop
  | .sub_repl k d => k = key ∧ (subscribe_inner s k d).1 = .Ok id
  | .sub_excl k d => k = key ∧ (subscribe_inner_exclusive s k d).1 = .Ok id
  | _ => False

/-- The step makes multi-subscription `id` of topic `key`. -/
def SubscribesMulti (s : Subs) (key : Key) (id : Nat) : Label → Prop
  | .sub_multi k d => k = key ∧ (subscribe_multi_inner s k d).1 = .Ok id
  | _ => False

/-- The receive worker runs, nothing is on the link to the client and the last frame from it has been handed on. -/
structure CaughtUp (s : Sys V E SC Ctx) : Prop where
  air : s.air = []
  looked : ∀ f, s.client.in_pc ≠ .lookup f
  running : s.client.in_pc ≠ .purge ∧ s.client.in_pc ≠ .exited

/-- The frames received are these publications: same sequence numbers, and the messages' bytes as bodies. -/
def AreThese (enc : Body V → Bytes) (fs : List RpcFrame) (ps : List (Publication V)) : Prop :=
  fs.map (fun f => (f.header.seq_no, f.body)) = ps.map fun p => (p.seq, enc (.val p.msg))

/-- The frames `fs` are, in this order, some of the publications `ps` that succeeded, if a send that fails leaves nothing on the link.
In any case what the receiver's decoder makes of them are, in this order, some of the published values, if it understands these. -/
def SomeOf (S : SysCfg V E SC Ctx) (fs : List RpcFrame) (ps : List (Publication V)) : Prop :=
  (Clean S → ∃ qs, qs.Sublist (succeeded ps) ∧ AreThese S.enc fs qs) ∧
  ∀ (M : Type) (decode : Bytes → Option M) (val : V → M), (∀ p ∈ ps, Understood decode (S.enc (.val p.msg)) (val p.msg)) →
    (fs.filterMap fun f => decode f.body).Sublist (ps.map fun p => val p.msg)

/-- None of the publications that succeeded is missing. -/
def AllOf (S : SysCfg V E SC Ctx) (fs : List RpcFrame) (ps : List (Publication V)) : Prop :=
  (Clean S → AreThese S.enc fs (succeeded ps)) ∧
  ∀ (M : Type) (decode : Bytes → Option M) (val : V → M), (∀ p ∈ ps, Understood decode (S.enc (.val p.msg)) (val p.msg)) →
    ((succeeded ps).map fun p => val p.msg).Sublist (fs.filterMap fun f => decode f.body)

/-- `late` are the last of the publications `ps` made until state `s`; none of them succeeded if all that was sent has been handed on. -/
structure StillComing (s : Sys V E SC Ctx) (ps late : List (Publication V)) : Prop where
  last : late <:+ ps
  none : CaughtUp s → succeeded late = []

/-- Subscriptions are made to declared outgoing topics. -/
def ToDeclared (a : App V E SC Ctx) : Label → Prop
  | .sub_excl key _ => ∃ t ∈ a.topic_out_list.topics, t.key = key
  | .sub_repl key _ => ∃ t ∈ a.topic_out_list.topics, t.key = key
  | .sub_multi key _ => ∃ t ∈ a.topic_out_list.topics, t.key = key
  | _ => True

/-! ### Over a USB cable -/

/-- The client's steps of a run over a USB cable. -/
def usbClientSteps : List (ULabel V) → List Label
  | [] => []
  | .client l :: ls => l :: usbClientSteps ls
  | _ :: ls => usbClientSteps ls

/-- The calls of `Sender::publish` for topic `key` in a run over a USB cable that starts in `u`. -/
def usbPublications (U : UsbCfg V E SC Ctx) (key : Key) : List (ULabel V) → UsbSys V E SC Ctx → List (Publication V)
  | [], _ => []
  | l :: ls, u =>
    let rest := match u_step U u l with
      | some u' => usbPublications U key ls u'
      | none => []
    match l with
    | .app_publish k seq v =>
      if k = key then ⟨seq, v, (sender_publish U.S.env U.S.kkind k seq (.val v) u.sys.srv).1.isNone⟩ :: rest else rest
    | _ => rest

/-- The receive worker runs, nothing is on the cable to the client, and the last frame from it has been handed on. -/
structure UsbCaughtUp (u : UsbSys V E SC Ctx) : Prop where
  air : ∀ b ∈ u.sys.air, b = []
  cable : u.sending = none ∧ u.cur = []
  looked : ∀ f, u.sys.client.in_pc ≠ .lookup f
  running : u.sys.client.in_pc ≠ .purge ∧ u.sys.client.in_pc ≠ .exited

/-- As `StillComing`. -/
structure UsbStillComing (u : UsbSys V E SC Ctx) (ps late : List (Publication V)) : Prop where
  last : late <:+ ps
  none : UsbCaughtUp u → succeeded late = []

end PRpc.Spec
