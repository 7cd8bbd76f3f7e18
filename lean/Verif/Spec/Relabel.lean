import Verif.Spec.Input
import Verif.Spec.Entered
/-!
# Specification: renaming nodes and elements
-/

namespace TrussPy

variable {F : Type}

/-- The same calls with every node label `l` replaced by `f l`. -/
def UserInput.relabel (f : Int → Int) (u : UserInput F) : UserInput F where
  nodes := u.nodes.map fun n => ⟨f n.label, n.coord⟩
  bounds := u.bounds.map fun b => ⟨f b.node, b.values⟩
  forces := u.forces.map fun p => ⟨f p.node, p.force⟩

/-- The same element with renamed nodes (`f`) and a renamed own label (`h`). -/
def Elem.relabel (f h : Int → Int) (e : Elem F) : Elem F := { e with label := h e.label, conn := e.conn.map f }

end TrussPy
