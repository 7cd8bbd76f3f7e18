import Mathlib.Data.List.Forall2
import Verif.Spec.Input
import Verif.Spec.Structure
import Verif.Spec.Evaluation
/-!
# Specification: the structure entered by the user

Which bars the calls `add_node` and `add_element` describe, independent of the tables kept by the handlers.
-/

namespace TrussPy

/-- The elements were added by exactly these calls of `add_element` (in call order), and no call raised. -/
def EnteredElems {F : Type} (es : List (Elem F)) (m : Model F) : Prop := addElems none es = .ok m.elems

/-- The entered data describe a truss: distinct labels, coordinates with three components, every element
joins two different entered nodes and has one of the two material types. -/
structure WellPosed {F : Type} (u : UserInput F) (es : List (Elem F)) : Prop where
  nodes : (u.nodes.map (·.label)).Nodup
  elems : (es.map (·.label)).Nodup
  coords : ∀ n ∈ u.nodes, n.coord.length = 3
  joins : ∀ e ∈ es, ∃ nA ∈ u.nodes, ∃ nE ∈ u.nodes, e.conn = [nA.label, nE.label] ∧ nA.label ≠ nE.label
  law : ∀ e ∈ es, e.mtype = 1 ∨ e.mtype = 2

/-- `b` is the bar meant by element `e` which joins the nodes `nA` and `nE`; `labels` are the node labels in
the order of the tables. -/
structure BarOf {F : Type} (labels : List Int) (e : Elem F) (nA nE : Node F) (b : Bar F) : Prop where
  conn : e.conn = [nA.label, nE.label]
  posA : labels[b.iA]? = some nA.label
  posE : labels[b.iE]? = some nE.label
  coordA : nA.coord = [b.XA 0, b.XA 1, b.XA 2]
  coordE : nE.coord = [b.XE 0, b.XE 1, b.XE 2]
  mat : b.mat = e.mprop.vals
  geo : b.geo = e.gprop.vals
  law : (e.mtype = 1 ∧ b.law = .el) ∨ (e.mtype = 2 ∧ b.law = .elplast)

/-- `bars` are the bars meant by the elements `es`, one by one. -/
def Meant {F : Type} (u : UserInput F) (es : List (Elem F)) (labels : List Int) (bars : List (Bar F)) : Prop :=
  List.Forall₂ (fun e b => ∃ nA ∈ u.nodes, ∃ nE ∈ u.nodes, BarOf labels e nA nE b) es bars

/-- All properties the material laws read were entered: an area, a modulus and for the plastic law also a plastic
modulus and a yield stress. -/
def PropsEntered {F : Type} (es : List (Elem F)) : Prop :=
  ∀ e ∈ es, e.gprop.vals ≠ [] ∧ e.mprop.vals ≠ [] ∧ (e.mtype = 2 → 3 ≤ e.mprop.vals.length)

end TrussPy
