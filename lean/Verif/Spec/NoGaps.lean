import Verif.Spec.Topics
/-! Vocabulary for C94: messages that follow one another without a gap. -/

namespace PRpc.Spec

variable {V E SC Ctx : Type}

/-- The frames are the first of the publications, up to one of them, and none of these that succeeded is missing. -/
def NoGaps (S : SysCfg V E SC Ctx) (fs : List RpcFrame) (ps : List (Publication V)) : Prop :=
  ∃ qs, qs <+: ps ∧ SomeOf S fs qs ∧ AllOf S fs qs

end PRpc.Spec
