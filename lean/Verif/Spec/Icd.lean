import Verif.Spec.Uniques
import Verif.Spec.Dispatch
import Verif.Model.Icd
/-! What the interface macros should produce. -/

namespace PRpc.Spec

/-- `l` is a duplicate-free list of exactly the non-primitive types listed for one of the given message types. -/
def TypesOf (roots : List Nty) (l : List Nty) : Prop :=
  l.Nodup ∧ ∀ x, x ∈ l ↔ (∃ t ∈ roots, Listed x t) ∧ ¬ IsPrim x

/-- The message types of the endpoint rows that are compiled in. -/
def epRoots (rows : List EpDecl) : List Nty := rows.flatMap fun d => if d.cfg then [d.req_ty, d.resp_ty] else []

/-- The message types of the topic rows that are compiled in. -/
def tpRoots (rows : List TpDecl) : List Nty := rows.flatMap fun d => if d.cfg then [d.msg_ty] else []

/-- The table rows of the endpoint rows that are compiled in, in order, with the keys of their types and paths. -/
def epTable (for_path : Nty → Bytes → Key) (rows : List EpDecl) : List EpRow :=
  rows.flatMap fun d => if d.cfg then [⟨d.path, for_path d.req_ty d.path, for_path d.resp_ty d.path⟩] else []

/-- The table rows of the topic rows that are compiled in. -/
def tpTable (for_path : Nty → Bytes → Key) (rows : List TpDecl) : List TpRow :=
  rows.flatMap fun d => if d.cfg then [⟨d.path, for_path d.msg_ty d.path⟩] else []

end PRpc.Spec
