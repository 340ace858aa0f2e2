import Verif.Model.Header
/-!
Model of the host client's subscriptions: the shared table (`/repo/source/postcard-rpc/src/host_client/util.rs` 23-27),
the subscribe functions (`/repo/source/postcard-rpc/src/host_client/mod.rs` 471-758), the receive methods (788-875) and
the part of the receive worker that looks at the table (util.rs 236-321).

The table is protected by an async mutex; every function below is one critical section.

Contracts of the `tokio` channels, which are external:
* `mpsc`: a bounded queue.  `try_send` fails with `Closed` once the receiver is dropped, else with `Full` when the queue
  holds as many messages as its capacity, else appends.  `recv` takes the oldest message; on an empty queue it waits, or
  returns `None` when every sender was dropped.  Capacity zero panics on creation.
* `broadcast`: every live receiver sees every message sent after it was created; a receiver that falls more than the
  capacity behind loses the oldest ones and is told how many by `Lagged`.  `send` fails exactly when there is no live
  receiver.  The capacity is the requested one rounded up to a power of two; zero panics.
Each sender lives only in the table, so the senders of a channel are dropped exactly when it leaves the table.
-/

namespace PRpc

/-- `RpcFrame`, host_client/mod.rs 904-909. -/
structure RpcFrame where
  header : VarHeader
  body : Bytes
  deriving DecidableEq, Repr

/-- `RpcFrame::to_bytes`, host_client/mod.rs 913-917. -/
def RpcFrame.to_bytes (self : RpcFrame) : Exec Bytes := do
  let out ← self.header.write_to_vec
  .ok (out ++ self.body)

/-- An `mpsc` channel of an exclusive subscription (`RawSubscription`, `Subscription`, host_client/mod.rs 784-786,
798-801).  `key`, `since`, `got` and `dropped` are bookkeeping of the model: the topic, the number of frames that had
arrived when it was created, the messages handed to the subscriber so far, and whether a message was thrown away because
the queue was full. -/
structure Chan where
  key : Key
  cap : Nat
  queue : List RpcFrame
  rx_alive : Bool
  since : Nat
  got : List RpcFrame
  dropped : Bool
  deriving DecidableEq, Repr

/-- A receiver of a `broadcast` channel (`RawMultiSubscription`, `MultiSubscription`, host_client/mod.rs 822-824,
840-843): the channel, the messages not yet received that are still held, and how many were lost since the last receive.
`key`, `since`, `got` and `lost` (all messages ever lost) are bookkeeping of the model. -/
structure BRx where
  chan : Nat
  pending : List RpcFrame
  missed : Nat
  alive : Bool
  key : Key
  since : Nat
  got : List RpcFrame
  lost : Nat
  deriving DecidableEq, Repr

/-- `Subscriptions`, util.rs 23-27, with the channels behind its senders.  A sender in a list is the index of its
channel in `chans` or `bchans`; of a broadcast channel only the capacity is kept (its receivers are in `brxs`).
`arrived` is bookkeeping of the model: the frames the receive worker has looked up in the table, in order. -/
structure Subs where
  exclusive_list : List (Key × Nat)
  broadcast_list : List (Key × Nat)
  stopped : Bool
  chans : List Chan
  bchans : List Nat
  brxs : List BRx
  arrived : List RpcFrame
  deriving DecidableEq, Repr

/-- `Subscriptions::default`, util.rs 22. -/
def Subs.new : Subs := ⟨[], [], false, [], [], [], []⟩

/-- Result of a subscribe call; `panic` is the panic of channel creation with capacity zero. -/
inductive SubRes where
  | Ok (id : Nat)
  | AlreadySubscribed
  | IoClosed
  | panic
  deriving DecidableEq, Repr

/-- `list.iter_mut().find(|(k, _)| *k == key)` (host_client/mod.rs 499-502, 542, 596-599, 644, 697-700, 748): the found sender. -/
def find_entry (l : List (Key × Nat)) (key : Key) : Option Nat :=
  (l.find? fun e => e.1 = key).map Prod.snd

/-- `entry.1 = tx` for the entry found (host_client/mod.rs 604, 648, 705, 752). -/
def set_entry (key : Key) (id : Nat) : List (Key × Nat) → List (Key × Nat)
  | [] => []
  | e :: l => if e.1 = key then (e.1, id) :: l else e :: set_entry key id l

/-- A fresh `mpsc` channel. -/
def Chan.new (key : Key) (depth : Nat) (since : Nat) : Chan := ⟨key, depth, [], true, since, [], false⟩

/-- `Sender::is_closed` (tokio), host_client/mod.rs 601, 645, 702, 749. -/
def Subs.is_closed (s : Subs) (id : Nat) : Bool :=
  match s.chans[id]? with
  | some c => !c.rx_alive
  | none => true

/-- `subscribe_inner` and `subscribe_inner_raw`, host_client/mod.rs 583-613, 633-654 (only the log messages differ). -/
def subscribe_inner (s : Subs) (key : Key) (depth : Nat) : SubRes × Subs :=
  if depth = 0 then (.panic, s)
  else if s.stopped then (.IoClosed, s)
  else
    let id := s.chans.length
    let s := { s with chans := s.chans ++ [Chan.new key depth s.arrived.length] }
    match find_entry s.exclusive_list key with
    | some _ => (.Ok id, { s with exclusive_list := set_entry key id s.exclusive_list })
    | none => (.Ok id, { s with exclusive_list := s.exclusive_list ++ [(key, id)] })

/-- `subscribe_inner_exclusive` and `subscribe_inner_exclusive_raw`, host_client/mod.rs 684-714, 737-758. -/
def subscribe_inner_exclusive (s : Subs) (key : Key) (depth : Nat) : SubRes × Subs :=
  if depth = 0 then (.panic, s)
  else if s.stopped then (.IoClosed, s)
  else
    let id := s.chans.length
    let new := Chan.new key depth s.arrived.length
    match find_entry s.exclusive_list key with
    | some old =>
      if !s.is_closed old then (.AlreadySubscribed, s)
      else (.Ok id, { s with chans := s.chans ++ [new], exclusive_list := set_entry key id s.exclusive_list })
    | none => (.Ok id, { s with chans := s.chans ++ [new], exclusive_list := s.exclusive_list ++ [(key, id)] })

/-- `broadcast::channel(depth)` rounds the capacity up to a power of two (tokio). -/
def next_pow2 (n : Nat) : Nat → Nat
  | 0 => 1
  | f + 1 => if n ≤ 2 ^ f then next_pow2 n f else 2 ^ (f + 1)

/-- `subscribe_multi_inner` and `subscribe_multi_inner_raw`, host_client/mod.rs 487-515, 532-551.  The channel of a new
entry gets capacity `cap` of the requested depth; a later subscriber joins the existing channel whatever depth it asks
for (and so does not panic on depth zero). -/
def subscribe_multi_inner (s : Subs) (key : Key) (depth : Nat) : SubRes × Subs :=
  if s.stopped then (.IoClosed, s)
  else
    let id := s.brxs.length
    match find_entry s.broadcast_list key with
    | some b => (.Ok id, { s with brxs := s.brxs ++ [⟨b, [], 0, true, key, s.arrived.length, [], 0⟩] })
    | none =>
      if depth = 0 then (.panic, s)
      else
        let b := s.bchans.length
        (.Ok id, { s with broadcast_list := s.broadcast_list ++ [(key, b)]
                          bchans := s.bchans ++ [next_pow2 depth depth]
                          brxs := s.brxs ++ [⟨b, [], 0, true, key, s.arrived.length, [], 0⟩] })

/-- `VarKey::Key8(*k) == key`, util.rs 248, 272, 313, 319. -/
def key_match (k : Key) (key : VarKey) : Bool := (VarKey.Key8 k).eq key

/-- One receiver's view of a `broadcast` send. -/
def BRx.push (cap : Nat) (f : RpcFrame) (r : BRx) : BRx :=
  let p := r.pending ++ [f]
  if p.length ≤ cap then { r with pending := p }
  else { r with pending := p.tail, missed := r.missed + 1, lost := r.lost + 1 }

/-- `broadcast::Sender::send` (tokio), util.rs 255: whether it succeeded, and the new state. -/
def bcast_send (s : Subs) (b : Nat) (f : RpcFrame) : Bool × Subs :=
  if s.brxs.any (fun r => r.alive && r.chan == b) then
    (true, { s with brxs := s.brxs.map fun r => if r.alive && r.chan == b then r.push (s.bchans.getD b 1) f else r })
  else (false, s)

/-- `mpsc` send outcomes, util.rs 282-304. -/
inductive TrySend where
  | Ok
  | Full
  | Closed
  deriving DecidableEq, Repr

/-- `mpsc::Sender::try_send` (tokio), util.rs 280. -/
def try_send (s : Subs) (id : Nat) (f : RpcFrame) : TrySend × Subs :=
  match s.chans[id]? with
  | none => (.Closed, s)
  | some c =>
    if !c.rx_alive then (.Closed, s)
    else if c.cap ≤ c.queue.length then (.Full, s)
    else (.Ok, { s with chans := s.chans.set id { c with queue := c.queue ++ [f] } })

/-- The two `retain`s at the end of the table lookup, util.rs 309-320. -/
def retain_subs (s : Subs) (key : VarKey) (remove_exl_sub remove_mul_sub : Bool) : Subs :=
  let s := if remove_exl_sub then
    { s with exclusive_list := s.exclusive_list.filter fun e => !key_match e.1 key } else s
  if remove_mul_sub then
    { s with broadcast_list := s.broadcast_list.filter fun e => !key_match e.1 key } else s

/-- Mark a message of channel `id` as thrown away (model bookkeeping; util.rs 290, 298). -/
def note_dropped (s : Subs) (id : Nat) : Subs :=
  match s.chans[id]? with
  | none => s
  | some c => { s with chans := s.chans.set id { c with dropped := true } }

/-- How the table lookup of one frame ends: done (was the frame handled?), or waiting, with the mutex held, for room in
the channel of an exclusive subscription. -/
inductive Lookup where
  | done (handled : Bool)
  | full (id : Nat) (remove_mul_sub : Bool)
  deriving DecidableEq, Repr

/-- The critical section of `in_worker_inner`, util.rs 236-321: broadcast first, then exclusive, then the removals.
`zero` is `subscription_timeout.is_zero()`. -/
def subs_lookup (zero : Bool) (s : Subs) (f : RpcFrame) : Lookup × Subs :=
  let key := f.header.key
  let s := { s with arrived := s.arrived ++ [f] }
  let (handled, remove_mul_sub, s) :=
    match s.broadcast_list.find? fun e => key_match e.1 key with
    | some (_, b) =>
      let (ok, s) := bcast_send s b f
      (true, !ok, s)
    | none => (false, false, s)
  match s.exclusive_list.find? fun e => key_match e.1 key with
  | some (_, id) =>
    match try_send s id f with
    | (.Ok, s) => (.done true, retain_subs s key false remove_mul_sub)
    | (.Full, s) =>
      if zero then (.done true, retain_subs (note_dropped s id) key false remove_mul_sub)
      else (.full id remove_mul_sub, s)
    | (.Closed, s) => (.done true, retain_subs s key true remove_mul_sub)
  | none => (.done handled, retain_subs s key false remove_mul_sub)

/-- `RawSubscription::recv`, host_client/mod.rs 792-794: `none` is "still waiting", `some none` the end. -/
def sub_recv (s : Subs) (id : Nat) : Option (Option RpcFrame) × Subs :=
  match s.chans[id]? with
  | none => (none, s)
  | some c =>
    match c.queue with
    | f :: q => (some (some f), { s with chans := s.chans.set id { c with queue := q, got := c.got ++ [f] } })
    | [] => if s.exclusive_list.any (fun e => e.2 == id) then (none, s) else (some none, s)

/-- `Subscription::recv`, host_client/mod.rs 810-817, when messages are decoded with `decode`: skips the frames whose
body does not decode.  `none` means that it waits.  Fuel: one more than the number of queued messages is enough to get to
the point where it returns or waits. -/
def sub_recv_typed {M : Type} (decode : Bytes → Option M) (id : Nat) : Nat → Subs → Option (Option M) × Subs
  | 0, s => (none, s)
  | n + 1, s =>
    match sub_recv s id with
    | (none, s) => (none, s)
    | (some none, s) => (some none, s)
    | (some (some f), s) =>
      match decode f.body with
      | some m => (some (some m), s)
      | none => sub_recv_typed decode id n s

/-- Outcome of a multi-subscription receive, `MultiSubRxError` host_client/mod.rs 847-852. -/
inductive MultiRes where
  | Ok (f : RpcFrame)
  | IoClosed
  | Lagged (n : Nat)
  deriving DecidableEq, Repr

/-- `RawMultiSubscription::recv`, host_client/mod.rs 830-836; `none` is "still waiting". -/
def multi_recv (s : Subs) (id : Nat) : Option MultiRes × Subs :=
  match s.brxs[id]? with
  | none => (none, s)
  | some r =>
    if 0 < r.missed then (some (.Lagged r.missed), { s with brxs := s.brxs.set id { r with missed := 0 } })
    else
      match r.pending with
      | f :: q => (some (.Ok f), { s with brxs := s.brxs.set id { r with pending := q, got := r.got ++ [f] } })
      | [] => if s.broadcast_list.any (fun e => e.2 == r.chan) then (none, s) else (some .IoClosed, s)

/-- Outcome of a typed multi-subscription receive: the message, or `MultiSubRxError` host_client/mod.rs 847-852. -/
inductive TypedMultiRes (M : Type) where
  | Ok (m : M)
  | IoClosed
  | Lagged (n : Nat)
  deriving DecidableEq, Repr

/-- `MultiSubscription::recv`, host_client/mod.rs 861-874, when messages are decoded with `decode`: skips the frames whose
body does not decode, returns errors.  Fuel as for `sub_recv_typed`. -/
def multi_recv_typed {M : Type} (decode : Bytes → Option M) (id : Nat) : Nat → Subs → Option (TypedMultiRes M) × Subs
  | 0, s => (none, s)
  | n + 1, s =>
    match multi_recv s id with
    | (none, s) => (none, s)
    | (some .IoClosed, s) => (some .IoClosed, s)
    | (some (.Lagged k), s) => (some (.Lagged k), s)
    | (some (.Ok f), s) =>
      match decode f.body with
      | some m => (some (.Ok m), s)
      | none => multi_recv_typed decode id n s

/-- Dropping a `Subscription` (the `mpsc` receiver with its queue). -/
def sub_drop (s : Subs) (id : Nat) : Subs :=
  match s.chans[id]? with
  | none => s
  | some c => { s with chans := s.chans.set id { c with rx_alive := false, queue := [] } }

/-- Dropping a `MultiSubscription`. -/
def multi_drop (s : Subs) (id : Nat) : Subs :=
  match s.brxs[id]? with
  | none => s
  | some r => { s with brxs := s.brxs.set id { r with alive := false, pending := [] } }

/-- The clean-up at the end of `in_worker`, util.rs 209-212. -/
def subs_purge (s : Subs) : Subs := { s with stopped := true, exclusive_list := [], broadcast_list := [] }

end PRpc
