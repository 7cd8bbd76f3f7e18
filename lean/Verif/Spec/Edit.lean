import Verif.Spec.Input
import Verif.Spec.Tables
/-!
# Specification of editing a model

What a user means who enters a structure, builds it, changes some nodes, supports or loads and builds
again.  Independent of the tables kept by the handlers.
-/

namespace TrussPy

/-- The input with every default written out: each node has one support row and one load row. -/
def UserInput.complete {F : Type} [Zero F] (u : UserInput F) : UserInput F where
  nodes := u.nodes
  bounds := u.nodes.map fun n => ⟨n.label, supportOf u.bounds n.label⟩
  forces := u.nodes.map fun n => ⟨n.label, loadOf u.forces n.label⟩

/-- Calls of `add_node`/`del_node`, `add_bound_U`/`del_bound_U`, `add_force`/`del_force`. -/
structure Edits (F : Type) where
  nodes : List (TabOp (Node F)) := []
  bounds : List (TabOp BoundU) := []
  forces : List (TabOp (ExtForce F)) := []

/-- The input a user expects after these calls. -/
def UserInput.edited {F : Type} (u : UserInput F) (e : Edits F) : UserInput F where
  nodes := stored (·.label) u.nodes e.nodes
  bounds := stored (·.node) u.bounds e.bounds
  forces := stored (·.node) u.forces e.forces

/-- Two inputs describe the same nodes with the same supports and the same loads. -/
structure SameMeaning {F : Type} [Zero F] (u v : UserInput F) : Prop where
  nodes : u.nodes.Perm v.nodes
  supports : ∀ n ∈ u.nodes, supportOf u.bounds n.label = supportOf v.bounds n.label
  loads : ∀ n ∈ u.nodes, loadOf u.forces n.label = loadOf v.forces n.label

/-- No support and no load is entered twice or for a node that does not exist. -/
structure NoStray {F : Type} (u : UserInput F) : Prop where
  bnd : (u.bounds.map (·.node)).Nodup
  bsub : ∀ b ∈ u.bounds, ∃ n ∈ u.nodes, n.label = b.node
  fnd : (u.forces.map (·.node)).Nodup
  fsub : ∀ f ∈ u.forces, ∃ n ∈ u.nodes, n.label = f.node

end TrussPy
