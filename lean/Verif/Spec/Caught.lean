import Verif.Spec.Edit
import Verif.Caught
/-!
# Specification of sessions whose exceptions are caught

What is in the handlers after a list of calls, each one made whether or not the calls before it raised.
-/

namespace TrussPy

/-- The handlers of `m` were filled (from empty) by exactly these calls; a call may have raised, and the user went
on with the next one. -/
structure EnteredCaught {F : Type} (u : UserInput F) (m : Model F) : Prop where
  nodes : m.nodes = u.nodes.foldl (fun h n => (addNodeC h n).1) none
  bounds : m.bounds = u.bounds.foldl (fun h b => (addBoundUC h b).1) none
  forces : m.forces = u.forces.foldl (fun h f => (addForceC h f).1) none

/-- The input with a default row for every node that has none; what was entered is kept, in whatever number and for
whatever node. -/
def UserInput.filled {F : Type} [Zero F] (u : UserInput F) : UserInput F where
  nodes := u.nodes
  bounds := u.bounds ++ (u.nodes.filter fun n => !(u.bounds.map (·.node)).contains n.label).map
    fun n => ⟨n.label, [1, 1, 1]⟩
  forces := u.forces ++ (u.nodes.filter fun n => !(u.forces.map (·.node)).contains n.label).map
    fun n => ⟨n.label, List.replicate (loadWidth u.forces) 0⟩

/-- The table has a row for every entry of the label `l`. -/
def HasRows (labels : List Int) (l : Int) (rows : Nat) : Prop := ∀ i : Nat, labels[i]? = some l → i < rows

/-- The rows that belong to another label than `l`. -/
def rowsWithout {α : Type} (labels : List Int) (l : Int) (rows : List α) : List α :=
  (rows.zipIdx.filter fun p => decide (labels[p.2]? ≠ some l)).map Prod.fst

end TrussPy
