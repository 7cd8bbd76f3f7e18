import Verif.Spec.Run
import Verif.Spec.Input
/-!
# Specification: the first steps of an analysis
-/

namespace TrussPy

variable {F : Type}

/-- Apart from the number of steps and what is set step by step, the settings are the same. -/
def SameGlobal (s s' : Settings F) : Prop :=
  { s' with incs := s.incs, xlimit := s.xlimit, nsteps := s.nsteps } = s

/-- The same loads in the first `k` steps (three columns each); nothing is said about the loads of later steps. -/
def SameLoads (k : Nat) (fs fs' : List (ExtForce F)) : Prop :=
  fs'.map (fun p => (p.node, p.force.take (3 * k))) = fs.map fun p => (p.node, p.force.take (3 * k))

end TrussPy
