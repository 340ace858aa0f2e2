import Verif.Model.Basic
/-! USB bulk transfers as the host controller forms them, and variable-length integers. -/

namespace PRpc.Spec

/-- The host joins packets into transfers; a packet shorter than 64 bytes ends one.  Result: the completed transfers and
the bytes of the transfer in progress, which starts with `cur`. -/
def transfers (cur : Bytes) : List Bytes → List Bytes × Bytes
  | [] => ([], cur)
  | p :: ps =>
    if p.length < 64 then ((cur ++ p) :: (transfers [] ps).1, (transfers [] ps).2)
    else transfers (cur ++ p) ps

/-- Packets that carry one transfer: full ones, then a short one (empty if need be). -/
inductive Packets : Bytes → List Bytes → Prop where
  | last {p : Bytes} : p.length < 64 → Packets p [p]
  | more {p data ps} : p.length = 64 → Packets data ps → Packets (p ++ data) (p :: ps)

/-- The packets of several transfers. -/
inductive AllPackets : List Bytes → List (List Bytes) → Prop where
  | nil : AllPackets [] []
  | cons {d ps ds pss} : Packets d ps → AllPackets ds pss → AllPackets (d :: ds) (ps :: pss)

/-- Little-endian base-128 number with continuation bits: value and remaining bytes. -/
def leb : Bytes → Option (Nat × Bytes)
  | [] => none
  | b :: bs =>
    if b.toNat < 128 then some (b.toNat, bs)
    else (leb bs).map fun r => (b.toNat - 128 + 128 * r.1, r.2)

/-- A length-prefixed text: `s` is exactly what `b` holds, with nothing after it, and its length takes no more bytes than a `usize` of
`w` bytes needs in groups of seven bits. -/
def IsText (w : Nat) (b s : Bytes) : Prop := leb b = some (s.length, s) ∧ b.length ≤ s.length + (8 * w + 6) / 7

/-- The bytes set aside for the length of a log text when `r` bytes are left after the header, on a device with `w`-byte
`usize`: enough for texts shorter than half of `r`. -/
def reserved (w r : Nat) : Nat :=
  if r < 2 * 128 then 1 else if r < 2 * 128 ^ 2 then 2 else if r < 2 * 128 ^ 3 then 3 else if r < 2 * 128 ^ 4 then 4
  else (8 * w + 6) / 7

/-- The text of a log message with `space` bytes set aside for it.  If formatting reports an error after writing `t`,
the last three of the `space` bytes become full stops, which touches the text only where it reaches that far. -/
def logText (fails : Bool) (space : Nat) (t : Bytes) : Bytes :=
  if fails = true ∧ 3 ≤ space then t.take (space - 3) ++ List.replicate (t.length - (space - 3)) 46#8 else t

end PRpc.Spec
