import Verif.Model.Header
/-!
Specifications for keys, sequence numbers and headers, written with arithmetic on lists of bytes only.
-/

namespace PRpc.Spec

/-- Number of key bytes announced by a kind. -/
def keyLen : VarKeyKind → Nat
  | .Key1 => 1
  | .Key2 => 2
  | .Key4 => 4
  | .Key8 => 8

/-- Number of sequence-number bytes announced by a kind. -/
def seqLen : VarSeqKind → Nat
  | .Seq1 => 1
  | .Seq2 => 2
  | .Seq4 => 4

/-- Exponent written in the top two bits of the first byte. -/
def keyCode : VarKeyKind → Nat
  | .Key1 => 0
  | .Key2 => 1
  | .Key4 => 2
  | .Key8 => 3

/-- Exponent written in bits 5-4 of the first byte. -/
def seqCode : VarSeqKind → Nat
  | .Seq1 => 0
  | .Seq2 => 1
  | .Seq4 => 2

/-- The bytes of a variable-length key, in transmission order. -/
def keyBytes : VarKey → Bytes
  | .Key1 k => [k.v]
  | .Key2 k => [k.a, k.b]
  | .Key4 k => [k.a, k.b, k.c, k.d]
  | .Key8 k => [k.a, k.b, k.c, k.d, k.e, k.f, k.g, k.h]

/-- The kind of a variable-length key, from the number of its bytes. -/
def keyKind (k : VarKey) : VarKeyKind :=
  match (keyBytes k).length with
  | 1 => .Key1
  | 2 => .Key2
  | 4 => .Key4
  | _ => .Key8

/-- The numeric value of a sequence number. -/
def seqVal : VarSeq → Nat
  | .Seq1 v => v.toNat
  | .Seq2 v => v.toNat
  | .Seq4 v => v.toNat

/-- Width of a sequence number in bytes. -/
def seqWidth : VarSeq → Nat
  | .Seq1 _ => 1
  | .Seq2 _ => 2
  | .Seq4 _ => 4

/-- Little-endian digits of `n` in base 256, `w` of them. -/
def leDigits : Nat → Nat → List Nat
  | 0, _ => []
  | w + 1, n => n % 256 :: leDigits w (n / 256)

/-- XOR of a list of bytes. -/
def xorAll (l : Bytes) : Byte := l.foldr (· ^^^ ·) 0#8

/-- Split into consecutive groups of `g` bytes (`g > 0`), at most `fuel` of them. -/
def groups (g : Nat) : Nat → Bytes → List Bytes
  | 0, _ => []
  | n + 1, l => l.take g :: groups g n (l.drop g)

/-- The documented short form of a key (lib.rs docs 142-167): divide the bytes into `n` equal groups and XOR each. -/
def fold (n : Nat) (l : Bytes) : Bytes := (groups (l.length / n) n l).map xorAll

/-- The documented wire layout of a header: discriminant, key bytes, little-endian sequence number. -/
def layout (h : VarHeader) : List Nat :=
  (64 * keyCode (keyKind h.key) + 16 * (match h.seq_no with | .Seq1 _ => 0 | .Seq2 _ => 1 | .Seq4 _ => 2))
    :: ((keyBytes h.key).map BitVec.toNat ++ leDigits (seqWidth h.seq_no) (seqVal h.seq_no))

/-- Length of an encoded header. -/
def encLen (h : VarHeader) : Nat := 1 + (keyBytes h.key).length + seqWidth h.seq_no

/-- The set of byte strings that start with a well-formed header. -/
def WellFormed (b : Bytes) : Prop :=
  ∃ d rest kc sc, b = d :: rest ∧ d.toNat = 64 * kc + 16 * sc ∧ kc ≤ 3 ∧ sc ≤ 2 ∧
    2 ^ kc + 2 ^ sc ≤ rest.length

end PRpc.Spec
