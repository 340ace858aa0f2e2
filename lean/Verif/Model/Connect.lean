import Verif.Model.Nusb
/-!
Model of how a host finds its device, `/repo/source/postcard-rpc/src/host_client/raw_nusb.rs` 81-110, 157-184, 225-289 and
`/repo/source/postcard-rpc/src/host_client/webusb.rs` 102-151, and of the interface the device declares,
`/repo/source/postcard-rpc/src/server/impls/embassy_usb_v0_4.rs` 184-232.

External: `nusb` and the operating system.  A device is a list of interfaces; `open` may fail; claiming interface number
`n` succeeds only when the device has an interface of this number, and may fail also then.  Error texts are
constructors; logging is left out.
-/

namespace PRpc

/-- An endpoint descriptor, as far as raw_nusb.rs 242-258 looks at it. -/
structure EpDesc where
  bulk : Bool
  out : Bool
  address : Byte
  max_packet_size : Nat
  deriving DecidableEq, Repr

/-- An interface: its number and class as listed with the device, and the endpoints of its alternate settings. -/
structure IfDesc where
  number : Nat
  cls : Byte
  alts : List (List EpDesc)
  deriving DecidableEq, Repr

/-- A device in the list (external `nusb::DeviceInfo`): something to recognise it by, its interfaces in the order they are
listed in, whether opening it works, and whether claiming the interface of a number works. -/
structure UsbDev where
  serial : Nat
  ifaces : List IfDesc
  opens : Bool
  claims : Nat → Bool

/-- The errors, raw_nusb.rs 88, 90, 98, 234, 237, 266, 269. -/
inductive ConnErr where
  | listing
  | noDevice
  | noInterface
  | opening
  | claiming
  | noOut
  | noIn
  deriving DecidableEq, Repr

/-- What the client is built on, raw_nusb.rs 272-283: the device, the interface claimed, the two endpoints and the packet
size. -/
structure Connected where
  dev : UsbDev
  iface : IfDesc
  ep_out : Byte
  ep_in : Byte
  mps : Option Nat

/-- The local variables of the scan, raw_nusb.rs 239-241. -/
structure Scan where
  mps : Option Nat
  ep_in : Option Byte
  ep_out : Option Byte
  deriving DecidableEq, Repr

/-- One endpoint, raw_nusb.rs 243-256. -/
def scan_ep (s : Scan) (ep : EpDesc) : Scan :=
  if ep.bulk then
    if ep.out then
      { s with
        mps := some (match s.mps with | some old => min old ep.max_packet_size | none => ep.max_packet_size)
        ep_out := some ep.address }
    else { s with ep_in := some ep.address }
  else s

/-- The two loops, raw_nusb.rs 239-258. -/
def scan_eps (alts : List (List EpDesc)) : Scan := alts.foldl (fun s ias => ias.foldl scan_ep s) ⟨none, none, none⟩

/-- `Device::claim_interface` (external), raw_nusb.rs 235-237. -/
def claim_interface (dev : UsbDev) (n : Nat) : Option IfDesc :=
  if dev.claims n then dev.ifaces.find? fun i => i.number == n else none

/-- `try_from_nusb_and_interface`, raw_nusb.rs 225-289; `interface_id as u8` is at 236. -/
def try_from_nusb_and_interface (dev : UsbDev) (interface_id : Nat) : Except ConnErr Connected :=
  if !dev.opens then .error .opening
  else
    match claim_interface dev (interface_id % 256) with
    | none => .error .claiming
    | some interface =>
      let s := scan_eps interface.alts
      match s.ep_out with
      | none => .error .noOut
      | some ep_out =>
        match s.ep_in with
        | none => .error .noIn
        | some ep_in => .ok ⟨dev, interface, ep_out, ep_in, s.mps⟩

/-- `try_new_raw_nusb_with_interface`, raw_nusb.rs 157-184; `devices` is the result of `nusb::list_devices`. -/
def try_new_raw_nusb_with_interface (devices : Option (List UsbDev)) (device_func : UsbDev → Bool)
    (interface_func : IfDesc → Bool) : Except ConnErr Connected :=
  match devices with
  | none => .error .listing
  | some ds =>
    match ds.find? device_func with
    | none => .error .noDevice
    | some x =>
      match x.ifaces.findIdx? interface_func with
      | none => .error .noInterface
      | some interface_id => try_from_nusb_and_interface x interface_id

/-- `try_new_raw_nusb`, raw_nusb.rs 81-110, on Windows or elsewhere. -/
def try_new_raw_nusb (windows : Bool) (devices : Option (List UsbDev)) (func : UsbDev → Bool) : Except ConnErr Connected :=
  match devices with
  | none => .error .listing
  | some ds =>
    match ds.find? func with
    | none => .error .noDevice
    | some x =>
      if windows then try_from_nusb_and_interface x 0
      else
        match x.ifaces.findIdx? fun i => i.cls == 0xFF#8 with
        | none => .error .noInterface
        | some interface_id => try_from_nusb_and_interface x interface_id

/-- The interface `init_without_build` declares, embassy_usb_v0_4.rs 216-220 (and `init_poststation`, 145-151): the first
one, as the builder is new; the driver chooses the endpoint addresses. -/
def wire_interface (out_addr in_addr : Byte) : IfDesc :=
  ⟨0, 0xFF#8, [[⟨true, true, out_addr, 64⟩, ⟨true, false, in_addr, 64⟩]]⟩

/-- Interfaces added to the builder afterwards; `embassy-usb` (external) numbers them on. -/
def numbered (k : Nat) : List (Byte × List (List EpDesc)) → List IfDesc
  | [] => []
  | (c, alts) :: rest => ⟨k, c, alts⟩ :: numbered (k + 1) rest

/-- The interfaces of a device built on `init_without_build`, embassy_usb_v0_4.rs 184-232. -/
def init_interfaces (out_addr in_addr : Byte) (more : List (Byte × List (List EpDesc))) : List IfDesc :=
  wire_interface out_addr in_addr :: numbered 1 more

/-! ### WebUSB -/

/-- A device of the browser (external): something to recognise it by, its vendor, and whether opening it and claiming an
interface work. -/
structure WebDev where
  serial : Nat
  vendor_id : BitVec 16
  opens : Bool
  claims : Byte → Bool

/-- `WebUsbWire::new`, webusb.rs 102-151: `paired` are the devices the browser knows, `ask` the device the user picks when
asked for one of this vendor (`none`: an error).  The result is the device, or the error; the Boolean says whether the
user was asked. -/
def webusb_new (paired : List WebDev) (ask : BitVec 16 → Option WebDev) (vendor_id : BitVec 16) (interface : Byte) :
    Bool × Option WebDev :=
  let device := if paired.length > 0 then (paired.filter fun d => d.vendor_id == vendor_id)[0]? else none
  match device with
  | some d => (false, if d.opens && d.claims interface then some d else none)
  | none =>
    match ask vendor_id with
    | none => (true, none)
    | some d => (true, if d.opens && d.claims interface then some d else none)

end PRpc
