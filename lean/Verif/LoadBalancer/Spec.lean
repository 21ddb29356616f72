/-! Vocabulary for the load balancer properties. -/

namespace Verif.LoadBalancer

/-- Sum of the weights of the listed tasks. -/
def loadOf (weights : List Nat) (tasks : List Nat) : Nat :=
  (tasks.map fun t => weights.getD t 0).sum

end Verif.LoadBalancer
