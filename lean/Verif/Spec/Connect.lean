import Verif.Model.Connect
/-! What connecting to a USB device should do. -/

namespace PRpc.Spec

/-- `x` is the first member of `l` that `p` accepts. -/
def First {α : Type} (p : α → Bool) (l : List α) (x : α) : Prop :=
  ∃ pre post, l = pre ++ x :: post ∧ p x = true ∧ ∀ y ∈ pre, p y = false

/-- `x` is the last member of `l` that `p` accepts. -/
def Last {α : Type} (p : α → Bool) (l : List α) (x : α) : Prop :=
  ∃ pre post, l = pre ++ x :: post ∧ p x = true ∧ ∀ y ∈ post, p y = false

/-- Bulk endpoints towards the device, and from it. -/
def bulkOut (e : EpDesc) : Bool := e.bulk && e.out
@[inherit_doc bulkOut] def bulkIn (e : EpDesc) : Bool := e.bulk && !e.out

/-- `q` is the least of `l`. -/
def Least (q : Nat) (l : List Nat) : Prop := q ∈ l ∧ ∀ x ∈ l, q ≤ x

/-- The client talks to endpoints of the setting in use (the first, as no other is selected), in the right directions, and
knows the packet size of the one it sends to. -/
def GoodEndpoints (c : Connected) : Prop :=
  ∃ eps rest, c.iface.alts = eps :: rest ∧
    (∃ o ∈ eps, bulkOut o ∧ o.address = c.ep_out ∧ c.mps = some o.max_packet_size) ∧ ∃ i ∈ eps, bulkIn i ∧ i.address = c.ep_in

end PRpc.Spec
