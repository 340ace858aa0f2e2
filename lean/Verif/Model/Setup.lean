import Verif.Model.Connect
import Verif.Model.EUsbTx
/-!
Model of how a board sets up its USB server: `WireStorage::init_poststation`, `init` and `init_without_build` with the statics they share,
and the string handler, `/repo/source/postcard-rpc/src/server/impls/embassy_usb_v0_4.rs` 19-45, 75-104 and 106-232 (and the same text
in `embassy_usb_v0_3.rs`).

External: `static_cell`, whose cells panic when taken or initialised a second time; and the `Builder` and `UsbDevice` of `embassy-usb`, as far as
used here: interfaces are numbered from 0 as they are added, strings from `STRING_INDEX_CUSTOM_START`, which is 4; a request for one
of these strings is put to the handlers in the order they were added, and the first answer is sent.

Simplifications: a panic ends the program.  The sizes of the descriptor buffers and the limits on interfaces and handlers are left out, as are the Microsoft
descriptors, the configuration and the driver; the driver's choice of endpoint addresses is part of the request to set up.  A string
is a `String`.
-/

namespace PRpc

/-- A handler of a device: the one of this file, or one of the application, a function from the index and the language. -/
inductive UHandler where
  | poststation
  | app (get_string : Byte → BitVec 16 → Option String)

/-- An interface as added to the builder: class, subclass, protocol and string of its alternate settings' descriptors, and their endpoints. -/
structure UIface where
  cls : Byte
  sub : Byte
  proto : Byte
  str : Option Byte
  alts : List (List EpDesc)
  deriving DecidableEq

/-- The builder of `embassy-usb` (external). -/
structure UBuilder where
  ifaces : List UIface
  next_string : Byte
  handlers : List UHandler

/-- `Builder::new` (external), embassy_usb_v0_4.rs 117-124 and 192-199. -/
def UBuilder.new : UBuilder := ⟨[], 4#8, []⟩

/-- What the program holds in statics: which storages have had their buffers taken and their cell initialised (fields `bufs_usb` and `cell`,
embassy_usb_v0_4.rs 84-86), whether `HDLR` has been taken (22), `STINDX` (21). -/
structure Statics where
  bufs : List Nat
  cells : List Nat
  hdlr : Bool
  stindx : Byte
  deriving DecidableEq

/-- At the start: `WireStorage::new`, embassy_usb_v0_4.rs 98-104; `STINDX` and `HDLR`, 21-22. -/
def Statics.new : Statics := ⟨[], [], false, 0xFF#8⟩

/-- `self.bufs_usb.take()`, embassy_usb_v0_4.rs 115 and 190. -/
def take_bufs (s : Statics) (k : Nat) : Exec Statics := if k ∈ s.bufs then .panic else .ok { s with bufs := k :: s.bufs }

/-- `HDLR.take()`, embassy_usb_v0_4.rs 127. -/
def take_hdlr (s : Statics) : Exec Statics := if s.hdlr then .panic else .ok { s with hdlr := true }

/-- `self.cell.init(Mutex::new(EUsbWireTxInner { .. }))`, embassy_usb_v0_4.rs 154-160 and 223-229. -/
def init_cell (s : Statics) (k : Nat) : Exec Statics := if k ∈ s.cells then .panic else .ok { s with cells := k :: s.cells }

/-- `Handler::get_string` of `PoststationHandler`, embassy_usb_v0_4.rs 28-44; `lang_id::ENGLISH_US` is 0x0409. -/
def poststation_get_string (stindx : Byte) (index : Byte) (lang_id : BitVec 16) : Option String :=
  if stindx = 0xFF#8 then none
  else if lang_id = 0x0409#16 ∧ index = stindx then some "Poststation"
  else none

/-- `init_poststation`, embassy_usb_v0_4.rs 109-166, of storage `k`: the builder that is built, the transmitter with its
endpoint, the receiver's endpoint. -/
def init_poststation (s : Statics) (k : Nat) (out_addr in_addr : Byte) (tx_buf : Bytes) : Exec (UBuilder × (EUsbTx × Byte) × Byte × Statics) := do
  let s ← take_bufs s k
  let builder := UBuilder.new
  let s ← take_hdlr s
  let builder := { builder with handlers := builder.handlers ++ [UHandler.poststation] }
  let stindx := builder.next_string
  let builder := { builder with next_string := builder.next_string + 1#8 }
  let s := { s with stindx := stindx }
  let alt : UIface := ⟨0xFF#8, 0xCA#8, 0x7D#8, some stindx, [[⟨true, true, out_addr, 64⟩, ⟨true, false, in_addr, 64⟩]]⟩
  let builder := { builder with ifaces := builder.ifaces ++ [alt] }
  let s ← init_cell s k
  pure (builder, (EUsbTx.new tx_buf, in_addr), out_addr, s)

/-- `init_without_build`, embassy_usb_v0_4.rs 184-232, of storage `k`. -/
def init_without_build (s : Statics) (k : Nat) (out_addr in_addr : Byte) (tx_buf : Bytes) : Exec (UBuilder × (EUsbTx × Byte) × Byte × Statics) := do
  let s ← take_bufs s k
  let builder := UBuilder.new
  let alt : UIface := ⟨0xFF#8, 0#8, 0#8, none, [[⟨true, true, out_addr, 64⟩, ⟨true, false, in_addr, 64⟩]]⟩
  let builder := { builder with ifaces := builder.ifaces ++ [alt] }
  let s ← init_cell s k
  pure (builder, (EUsbTx.new tx_buf, in_addr), out_addr, s)

/-- A device that was built: its storage, the builder it was built from, the transmitter, its endpoint and the receiver's. -/
structure UBuilt where
  storage : Nat
  builder : UBuilder
  tx : EUsbTx
  ep_in : Byte
  ep_out : Byte

/-- What a program may do.  The application may add interfaces and handlers to the builder of `init_without_build`; with nothing
added this is `init` (embassy_usb_v0_4.rs 171-180). -/
inductive SetupAct where
  | poststation (k : Nat) (out_addr in_addr : Byte) (tx_buf : Bytes)
  | plain (k : Nat) (out_addr in_addr : Byte) (tx_buf : Bytes) (ifaces : List UIface)
    (handlers : List (Byte → BitVec 16 → Option String))

/-- The program: its statics and the devices built, in order. -/
structure SetupSt where
  statics : Statics
  built : List UBuilt

/-- One call. -/
def setup_step (y : SetupSt) : SetupAct → Exec SetupSt
  | .poststation k o i buf => do
    let (b, (tx, ep_in), ep_out, s) ← init_poststation y.statics k o i buf
    pure ⟨s, y.built ++ [⟨k, b, tx, ep_in, ep_out⟩]⟩
  | .plain k o i buf ifs hs => do
    let (b, (tx, ep_in), ep_out, s) ← init_without_build y.statics k o i buf
    pure ⟨s, y.built ++ [⟨k, { b with ifaces := b.ifaces ++ ifs, handlers := b.handlers ++ hs.map .app }, tx, ep_in, ep_out⟩]⟩

/-- A program's calls. -/
def setup_run : List SetupAct → SetupSt → Exec SetupSt
  | [], y => .ok y
  | a :: as, y => do
    let y ← setup_step y a
    setup_run as y

/-- A request for a string with an index from 4 (external `UsbDevice`), put to the handlers in order, embassy_usb_v0_4.rs 28-44 being the one of this file. -/
def ask_string (s : Statics) (b : UBuilder) (index : Byte) (lang : BitVec 16) : Option String :=
  b.handlers.findSome? fun
    | .poststation => poststation_get_string s.stindx index lang
    | .app f => f index lang

/-- What the operating system lists of the interfaces, numbered from `n` (external, see `numbered`). -/
def listed (n : Nat) : List UIface → List IfDesc
  | [] => []
  | i :: is => ⟨n, i.cls, i.alts⟩ :: listed (n + 1) is

end PRpc
