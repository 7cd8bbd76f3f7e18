import Verif.Spec.Rigid
import Verif.Spec.Mechanics
import Verif.Spec.Converge
import Mathlib.Analysis.Calculus.Deriv.Basic
import Mathlib.Topology.Order.Basic
/-!
# Specification: equilibrium paths of the entered structure

Trusses that respond elastically, all in terms of the calls made by the user: displacements are functions of node label and
direction.
-/

namespace TrussPy

/-- Entered coordinates of the node `l`. -/
def placeOf (u : UserInput ℝ) (l : Int) : V3 ℝ := fun d =>
  match u.nodes.find? (fun n => n.label == l) with
  | some n => n.coord.getD d 0
  | none => 0

/-- Vector from node `A` to node `E` at the displacements `U`. -/
def span (u : UserInput ℝ) (U : Int → V3 ℝ) (A E : Int) : V3 ℝ := fun d =>
  (placeOf u E d + U E d) - (placeOf u A d + U A d)

/-- Part of the element `e` in the internal force of node `l`: the normal force is modulus times strain times area, the strain
being change of length over undeformed length, and it acts along the deformed element. -/
noncomputable def elementPull (u : UserInput ℝ) (U : Int → V3 ℝ) (e : Elem ℝ) (l : Int) (d : Fin 3) : ℝ :=
  match e.conn with
  | [A, E] => ((if l = E then 1 else 0) - (if l = A then 1 else 0)) *
      (e.mprop.vals.headD 0 * (len (span u U A E) / len (span u 0 A E) - 1) * e.gprop.vals.headD 0 *
        (span u U A E d / len (span u U A E)))
  | _ => 0

/-- Internal force at node `l`. -/
noncomputable def pull (u : UserInput ℝ) (es : List (Elem ℝ)) (U : Int → V3 ℝ) (l : Int) (d : Fin 3) : ℝ :=
  (es.map fun e => elementPull u U e l d).sum

/-- Elements with the plastic law have the usual constants: modulus, hardening modulus, yield stress. -/
def UsualPlastic (es : List (Elem ℝ)) : Prop :=
  ∀ e ∈ es, e.mtype = 2 → ∃ (m : Spec.Plastic) (rest : List ℝ), m.Valid ∧ e.mprop.vals = m.E :: m.K :: m.Sy :: rest

/-- If the element has the plastic law, its stress (modulus times strain) is below the yield stress. -/
def BelowYield (u : UserInput ℝ) (U : Int → V3 ℝ) (e : Elem ℝ) : Prop :=
  e.mtype = 2 → ∀ A E, e.conn = [A, E] →
    |e.mprop.vals.headD 0 * (len (span u U A E) / len (span u 0 A E) - 1)| < e.mprop.vals.getD 2 0

/-- Load of node `l` in the first step. -/
def firstLoad (u : UserInput ℝ) (l : Int) (d : Fin 3) : ℝ := (loadOf u.forces l).getD d 0

/-- Direction `d` of node `l` is free. -/
def FreeAt (u : UserInput ℝ) (l : Int) (d : Fin 3) : Prop :=
  (∃ n ∈ u.nodes, n.label = l) ∧ (supportOf u.bounds l)[d.val]? = some 1

/-- `P` lists the free directions of all nodes, ordered by label and direction. -/
structure FreeList (u : UserInput ℝ) (P : List (Int × Fin 3)) : Prop where
  order : P.Pairwise fun p q => p.1 < q.1 ∨ p.1 = q.1 ∧ p.2 < q.2
  mem : ∀ p, p ∈ P ↔ FreeAt u p.1 p.2

/-- Component number `k` (from zero) of displacements and load factor: the free directions, then the load factor. -/
def component (P : List (Int × Fin 3)) (U : Int → V3 ℝ) (l : ℝ) (k : Nat) : ℝ :=
  match P[k]? with
  | some p => U p.1 p.2
  | none => l

/-- A path of equilibria of the entered structure under the loads of the first step, from the undeformed state on: displacements
`U s` and load factor `l s`, `0 ≤ s ≤ S`.  The parameter is the component `j` (1-based; it grows if `j` is positive, otherwise it
falls).  No element loses its length or yields, and the only way to stay in equilibrium to first order with the component `j` held fixed
is not to move. -/
structure Trail (u : UserInput ℝ) (es : List (Elem ℝ)) (P : List (Int × Fin 3)) (j : Int) (S : ℝ) (U : ℝ → Int → V3 ℝ)
    (l : ℝ → ℝ) : Prop where
  start : ∀ n ∈ u.nodes, ∀ d, U 0 n.label d = 0
  startLoad : l 0 = 0
  cont : ∀ n ∈ u.nodes, ∀ d, ContinuousOn (fun s => U s n.label d) (Set.Icc 0 S)
  contLoad : ContinuousOn l (Set.Icc 0 S)
  supports : ∀ s ∈ Set.Icc 0 S, AllowedVelocity u (U s)
  control : ∀ s ∈ Set.Icc 0 S, component P (U s) (l s) (j.natAbs - 1) = s * (j.sign : ℝ)
  equilibrium : ∀ s ∈ Set.Icc 0 S, ∀ lab d, FreeAt u lab d → pull u es (U s) lab d = l s * firstLoad u lab d
  length : ∀ s ∈ Set.Icc 0 S, ∀ e ∈ es, ∀ A E, e.conn = [A, E] → len (span u (U s) A E) ≠ 0
  below : ∀ s ∈ Set.Icc 0 S, ∀ e ∈ es, BelowYield u (U s) e
  regular : ∀ s ∈ Set.Icc 0 S, ∀ (v : Int → V3 ℝ) (μ : ℝ), AllowedVelocity u v →
    (∀ lab d, FreeAt u lab d →
      HasDerivAt (fun t : ℝ => pull u es (fun n e => U s n e + t * v n e) lab d - (l s + t * μ) * firstLoad u lab d) 0 0) →
    component P v μ (j.natAbs - 1) = 0 → (∀ n ∈ u.nodes, ∀ d, v n.label d = 0) ∧ μ = 0

/-- The recorded state `r` shows the displacements `U` and the load factor `l` up to `tol`; `labels` are the labels of the
nodes in table order. -/
structure OnPath (labels : List Int) (r : Analysis ℝ) (U : Int → V3 ℝ) (l tol : ℝ) : Prop where
  load : ∃ lpf, r.lpf = some lpf ∧ |lpf - l| ≤ tol
  disp : ∀ (i : Nat) (lab : Int), labels[i]? = some lab → ∀ d, |row3 r.U i d - U lab d| ≤ tol

/-- Settings with the control component `j` fixed, step width `h` for it, and no step control; `n` free directions. -/
structure FixedControl (s : Settings ℝ) (n : Nat) (j : Int) (h : ℝ) : Prop where
  fixed : s.jFixed = true
  control : s.j0 = some j
  plain : s.stepcontrol = false
  overshoot : 1 ≤ s.dxtol
  width : (if j.natAbs ≤ n then s.du else s.dlpf) = h

/-- The iterations allowed bring the residual of a step of width `h` below the tolerances. -/
def EnoughIterations (s : Settings ℝ) (C h : ℝ) : Prop :=
  ∃ N : Nat, Shrinks C (h + (10 : ℝ) ^ (-s.ftol)) ((10 : ℝ) ^ (-s.ftol)) N ∧
    Shrinks C (h + (10 : ℝ) ^ (-s.ftol)) ((10 : ℝ) ^ (-s.xtol)) N ∧ (N : Int) + 1 ≤ s.nfev

/-- The first `q` results after the undeformed state are the points of the path with parameters `h`, `2 h`, …, `q h`, up to `tol`; in
them the component `j` is exact.  There are `K` of them, unless the last one exceeds the limit `xl`. -/
structure FollowsTrail (labels : List Int) (R : List (Analysis ℝ)) (j : Int) (h tol : ℝ) (U : ℝ → Int → V3 ℝ) (l : ℝ → ℝ) (K : Nat)
    (xl : Int × ℝ) (q : Nat) : Prop where
  points : ∀ i < q, ∃ r, R[i + 1]? = some r ∧ OnPath labels r (U ((i + 1) * h)) (l ((i + 1) * h)) tol ∧
    r.Vred[j.natAbs - 1]? = some ((i + 1) * h * (j.sign : ℝ))
  count : q ≤ K
  stop : q = K ∨ 0 < q ∧ ∃ r v, R[q]? = some r ∧ r.Vred[(xl.1 - 1).toNat]? = some v ∧ xl.2 < |v|

end TrussPy
