import Verif.Model.Setup
/-! Vocabulary for C97: what a program that sets up USB devices should get. -/

namespace PRpc.Spec

/-- The storage a call is for. -/
def storageOf : SetupAct → Nat
  | .poststation k .. => k
  | .plain k .. => k

/-- Is it a call of `init_poststation`? -/
def isPost : SetupAct → Bool
  | .poststation .. => true
  | .plain .. => false

/-- No storage is used twice. -/
def EachOnce (acts : List SetupAct) : Prop := (acts.map storageOf).Nodup

/-- A host takes the device for one that is compatible with poststation. -/
def LooksPoststation (s : Statics) (b : UBuilder) : Prop :=
  ∃ i ∈ b.ifaces, i.cls = 0xFF#8 ∧ i.sub = 0xCA#8 ∧ i.proto = 0x7D#8 ∧ ∃ x, i.str = some x ∧ ask_string s b x 0x0409#16 = some "Poststation"

/-- The device a call should have built, and what it should answer when asked for a string. -/
def BuiltBy (s : Statics) (b : UBuilt) : SetupAct → Prop
  | .poststation k o i buf =>
    b.storage = k ∧ b.ep_out = o ∧ b.ep_in = i ∧ b.tx = EUsbTx.new buf ∧ LooksPoststation s b.builder ∧
      listed 0 b.builder.ifaces = init_interfaces o i [] ∧
      ∃ x, (∀ y ∈ b.builder.ifaces, y.str = some x) ∧
        ∀ index lang, ask_string s b.builder index lang = if index = x ∧ lang = 0x0409#16 then some "Poststation" else none
  | .plain k o i buf ifs hs =>
    b.storage = k ∧ b.ep_out = o ∧ b.ep_in = i ∧ b.tx = EUsbTx.new buf ∧
      listed 0 b.builder.ifaces = init_interfaces o i (ifs.map fun x => (x.cls, x.alts)) ∧
      ∀ index lang, ask_string s b.builder index lang = hs.findSome? fun f => f index lang

end PRpc.Spec
