import Verif.Parallel.Model

/-!
# Model of `Parallelizer2::parallelFor` with a balancer of the caller
-/

namespace Verif.Parallel

/-- `parallelFor(start, end, lambda, loadBalancer)`, src/Parallelizer2Pthread.h:120-177: `nthreads_` threads are created, and what they
do depends only on the balancer.  (The overload with weights, lines 110-118, calls a function that no balancer has, and does not compile.) -/
def balanced {Act : Type} (lb : LoadBalancer.Balancer) (start stop nthreads : Nat) (body : Nat → Nat → List Act) : Job Act where
  nth := nthreads
  lb := lb
  start := start
  stop := stop
  body := body

end Verif.Parallel
