import Verif.Spec.Mirror
import Verif.Spec.Valid
/-!
# Specification: elements between fully supported nodes
-/

namespace TrussPy

variable {F : Type} [Zero F]

/-- The entries of a list at the positions marked by `true`. -/
def pick {α : Type} : List Bool → List α → List α
  | true :: m, x :: l => x :: pick m l
  | false :: m, _ :: l => pick m l
  | _, _ => []

/-- No direction of a node of the element is free. -/
def Elem.Held (u : UserInput F) (e : Elem F) : Prop := ∀ l ∈ e.conn, 1 ∉ supportOf u.bounds l

/-- `es'` are the elements `es`, in the same order, and further ones at the positions marked by `false`, between fully supported
nodes. -/
structure AddsHeld (u : UserInput F) (mask : List Bool) (es es' : List (Elem F)) : Prop where
  length : mask.length = es'.length
  kept : pick mask es' = es
  held : ∀ (k : Nat) e, mask[k]? = some false → es'[k]? = some e → e.Held u

/-- No added element ends at the node `l`. -/
def Apart (mask : List Bool) (es' : List (Elem F)) (l : Int) : Prop :=
  ∀ (k : Nat) e, mask[k]? = some false → es'[k]? = some e → l ∉ e.conn

/-- The analysis object `b` of the structure with the added elements, compared to `a`: the entries of the elements of the first
structure are the same; internal forces and residuals agree at the nodes without added elements (the rows are those of the node
labels `labels`); everything else, except the stiffness matrix of all directions, is the same: displacements, loads, load factor,
stiffness matrix and residual of the free directions, control component, step width. -/
structure Analysis.SameApart (mask : List Bool) (es' : List (Elem F)) (labels : List Int) (a b : Analysis F) : Prop where
  same : b = { a with
    r := b.r, g := b.g, K := b.K, stretch := b.stretch, elementForce := b.elementForce, elementStress := b.elementStress,
    elementStress0 := b.elementStress0, statev := b.statev }
  stretch : pick mask b.stretch = a.stretch
  force : pick mask b.elementForce = a.elementForce
  stress : pick mask b.elementStress = a.elementStress
  stress0 : pick mask b.elementStress0 = a.elementStress0
  state : b.statev.map (pick mask) = a.statev
  nodes : ∀ (i : Nat) l, labels[i]? = some l → Apart mask es' l →
    b.r[i]? = a.r[i]? ∧ ∀ d : Fin 3, b.g[3 * i + d.val]? = a.g[3 * i + d.val]?
  free : ∀ p ∈ a.DOF1, b.g[p]? = a.g[p]?

/-- The results of both models, one by one; the load factors at the ends of the steps are the same. -/
def Model.SameApart (mask : List Bool) (es' : List (Elem F)) (m m' : Model F) : Prop :=
  ∃ nt R R' ends, m.nodes = some nt ∧ m.results = some ⟨R, ends⟩ ∧ m'.results = some ⟨R', ends⟩ ∧
    List.Forall₂ (Analysis.SameApart mask es' nt.labels) R R'

end TrussPy
