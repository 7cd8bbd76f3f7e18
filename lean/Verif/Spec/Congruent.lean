import Verif.Spec.Mirror
import Verif.Spec.Mechanics
import Verif.Spec.Valid
/-!
# Specification: congruent structures

A structure is mirrored along some of the coordinate axes and shifted, its elements are listed in another order and some of
them have begin and end node exchanged.
-/

namespace TrussPy

/-- A sign for every coordinate axis (`-1`: the axis is mirrored). -/
structure Axes where
  s : Fin 3 → Int
  pm : ∀ d, s d = 1 ∨ s d = -1

/-- Sign of the degree of freedom `p = 3 * node + direction`. -/
def Axes.full (m : Axes) (p : Nat) : Int := m.s (comp p)

/-- Signs of the components of the reduced extended vector: those of the free degrees of freedom `dofs`, `1` for the load
factor. -/
def Axes.free (m : Axes) (dofs : List Nat) (i : Nat) : Int := (dofs[i]?.map m.full).getD 1

/-- A mirrored vector. -/
def Axes.mirror (m : Axes) (v : V3 ℝ) : V3 ℝ := fun d => (m.s d : ℝ) * v d

/-- A mirrored stiffness block. -/
def Axes.mirrorM (m : Axes) (k : M3 ℝ) : M3 ℝ := fun d e => (m.s d : ℝ) * (m.s e : ℝ) * k d e

/-- Entry `k` of the second list is entry `π k` of the first one. -/
def Reordered {α : Type} (π : Nat → Nat) (l l' : List α) : Prop := l'.length = l.length ∧ ∀ k, k < l.length → l'[k]? = l[π k]?

/-- `π` rearranges the first `n` numbers. -/
def Rearranges (π : Nat → Nat) (n : Nat) : Prop := ((List.range n).map π).Perm (List.range n)

/-- The recorded analysis object `b` is the mirror image of `a`, with the elements in another order: displacements, internal
forces, residual, loads and stiffness are mirrored, while stretches, normal forces, stresses, state variables and the load
factor are the same. -/
structure Analysis.Congruent (m : Axes) (π : Nat → Nat) (a b : Analysis ℝ) : Prop where
  step : b.step = a.step
  U : b.U = flipV m.full a.U
  U0 : b.U0 = flipV m.full a.U0
  r : b.r = a.r.map m.mirror
  g : b.g = flipV m.full a.g
  K : b.K = a.K.map fun row => row.map m.mirrorM
  stretch : Reordered π a.stretch b.stretch
  force : Reordered π a.elementForce b.elementForce
  stress : Reordered π a.elementStress b.elementStress
  statev : (a.statev = none ∧ b.statev = none) ∨ ∃ sv sv', a.statev = some sv ∧ b.statev = some sv' ∧ Reordered π sv sv'
  dof0 : b.DOF0 = a.DOF0
  dof1 : b.DOF1 = a.DOF1
  Ured : b.Ured = flipV (m.free a.DOF1) a.Ured
  Vred : b.Vred = flipV (m.free a.DOF1) a.Vred
  lpf : b.lpf = a.lpf
  loads : b.extForces = a.extForces.map fun ef => ⟨flipV m.full ef.forces, flipV m.full ef.forcesConst⟩
  f0red : b.f0red = flipV (m.free a.DOF1) a.f0red
  Kred : b.Kred = flipM (m.free a.DOF1) (m.free a.DOF1) a.Kred
  Kmod : ∃ τ, IsSigns τ ∧ b.Kmod = flipM τ (m.free a.DOF1) a.Kmod
  j : b.j = flipJ (m.free a.DOF1) a.j
  dVmax : b.dVmax = a.dVmax

/-- The row with its entries mirrored; a load row holds three components per step. -/
def Axes.row (m : Axes) (l : List ℝ) : List ℝ := flipV m.full l

/-- The entered nodes, supports and loads after mirroring and a shift by `t`. -/
def UserInput.moved (m : Axes) (t : V3 ℝ) (u : UserInput ℝ) : UserInput ℝ where
  nodes := u.nodes.map fun n => { n with coord := n.coord.mapIdx fun i x => (m.full i : ℝ) * x + t (comp i) }
  bounds := u.bounds
  forces := u.forces.map fun f => { f with force := m.row f.force }

/-- The same element, possibly with another label and with begin and end node exchanged. -/
structure Elem.Same (e e' : Elem ℝ) : Prop where
  conn : e'.conn = e.conn ∨ e'.conn = e.conn.reverse
  mtype : e'.mtype = e.mtype
  mprop : e'.mprop = e.mprop
  gprop : e'.gprop = e.gprop

/-- The elements are listed in another order (element `k` was element `π k`), some with begin and end node exchanged; labels
are arbitrary but distinct. -/
structure SameElems (π : Nat → Nat) (es es' : List (Elem ℝ)) : Prop where
  perm : Rearranges π es.length
  length : es'.length = es.length
  elem : ∀ (k : Nat) e', es'[k]? = some e' → ∃ e, es[π k]? = some e ∧ e.Same e'
  labels : (es'.map (·.label)).Nodup

/-- The results of the second model are those of the first one, mirrored and with the elements in another order; the load
factors at the ends of the steps are the same. -/
def Model.CongruentResults (m : Axes) (π : Nat → Nat) (m2 m2' : Model ℝ) : Prop :=
  ∃ R R' ends, m2.results = some ⟨R, ends⟩ ∧ m2'.results = some ⟨R', ends⟩ ∧ List.Forall₂ (Analysis.Congruent m π) R R'

end TrussPy
