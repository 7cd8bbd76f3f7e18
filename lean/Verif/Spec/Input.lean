import Verif.Run
/-!
# Specification vocabulary for model input

Independent of the tables kept by the handlers: what the user entered, and which support and load a
node is meant to have.
-/

namespace TrussPy

/-- The calls `add_node`, `add_bound_U`, `add_force` made by the user, each in call order. -/
structure UserInput (F : Type) where
  nodes : List (Node F)
  bounds : List BoundU
  forces : List (ExtForce F)

/-- The model's handlers were filled (from empty) by exactly these calls, and no call raised. -/
def Entered {F : Type} (u : UserInput F) (m : Model F) : Prop :=
  addNodes none u.nodes = .ok m.nodes ∧ addBoundsU none u.bounds = .ok m.bounds ∧
    addForces none u.forces = .ok m.forces

/-- Support row meant for node `l`: the row entered for it, otherwise free in all components. -/
def supportOf (bs : List BoundU) (l : Int) : List Int :=
  match bs.find? (fun b => b.node == l) with
  | some b => b.values
  | none => [1, 1, 1]

/-- Number of load components per node (of the first load; all are equally long). -/
def loadWidth {F : Type} (fs : List (ExtForce F)) : Nat :=
  match fs with
  | [] => 0
  | f :: _ => f.force.length

/-- Load row meant for node `l`: the row entered for it, otherwise zero. -/
def loadOf {F : Type} [Zero F] (fs : List (ExtForce F)) (l : Int) : List F :=
  match fs.find? (fun f => f.node == l) with
  | some f => f.force
  | none => List.replicate (loadWidth fs) 0

end TrussPy
