import Verif.Model.Relative

/-!
# The transitions between consecutive states
-/

namespace MSF.RelKernel

variable {A W X C F M T E : Type}

/-- The transitions from the state `o` over the states of the list, one for each pair of neighbours. -/
def steps (R : RelKernel A W X C F M T E) :
    Node (St A W X (C × F)) → List (Node (St A W X (C × F))) → List F
  | _, [] => []
  | o, b :: bs => R.fd (b.key - o.key) b.val.u b.val.x :: steps R b bs

/-- The covariance `P` of the state `o` predicted over the states of the list. -/
def predicted (R : RelKernel A W X C F M T E) (P : C) :
    Node (St A W X (C × F)) → List (Node (St A W X (C × F))) → C
  | _, [] => P
  | o, b :: bs => predicted R (R.predP (b.key - o.key) P b.val.u b.val.x) b bs

end MSF.RelKernel
