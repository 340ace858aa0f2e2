/-!
Shared vocabulary of the model.
-/

namespace PRpc

/-- A byte (`u8`). -/
abbrev Byte := BitVec 8

/-- A byte string (`&[u8]`, `Vec<u8>`, `[u8; N]`). -/
abbrev Bytes := List Byte

/-- Result of running a Rust function that can panic.  `panic` stands for every panic path (index out of
bounds, slice length mismatch, `unreachable!`, `assert!`, `panic!`, checked arithmetic overflow). -/
inductive Exec (α : Type) where
  | ok (a : α)
  | panic
  deriving Repr, DecidableEq

namespace Exec

def bind {α β : Type} (x : Exec α) (f : α → Exec β) : Exec β :=
  match x with
  | ok a => f a
  | panic => panic

instance : Monad Exec where
  pure := Exec.ok
  bind := Exec.bind

@[simp] theorem pure_eq {α : Type} (a : α) : (pure a : Exec α) = Exec.ok a := rfl
@[simp] theorem ok_bind {α β : Type} (a : α) (f : α → Exec β) : (Exec.ok a >>= f) = f a := rfl
@[simp] theorem panic_bind {α β : Type} (f : α → Exec β) : ((Exec.panic : Exec α) >>= f) = Exec.panic := rfl

end Exec

end PRpc
