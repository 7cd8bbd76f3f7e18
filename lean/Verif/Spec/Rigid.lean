import Verif.Spec.Valid
import Verif.Spec.Energy
/-!
# Specification: stiff elements and kinematic stability of the entered structure

All in terms of the calls made by the user.
-/

namespace TrussPy

/-- A velocity of every node (by label) which the supports allow: zero in every component that is not free. -/
def AllowedVelocity (u : UserInput ℝ) (v : Int → V3 ℝ) : Prop :=
  ∀ n ∈ u.nodes, ∀ d : Fin 3, (supportOf u.bounds n.label)[d.val]? ≠ some 1 → v n.label d = 0

/-- The velocities do not change the length of any bar. -/
def Inextensional (u : UserInput ℝ) (es : List (Elem ℝ)) (v : Int → V3 ℝ) : Prop :=
  ∀ e ∈ es, ∀ nA ∈ u.nodes, ∀ nE ∈ u.nodes, e.conn = [nA.label, nE.label] →
    inner3 (fun d => nE.coord.getD d 0 - nA.coord.getD d 0) (fun d => v nE.label d - v nA.label d) = 0

/-- The structure is no mechanism: velocities which the supports allow and which change no bar length vanish. -/
def KinematicallyStable (u : UserInput ℝ) (es : List (Elem ℝ)) : Prop :=
  ∀ v, AllowedVelocity u v → Inextensional u es v → ∀ n ∈ u.nodes, ∀ d, v n.label d = 0

/-- Every element has a length, a positive cross section and a positive modulus (for the plastic law the usual
constants). -/
structure StiffElems (u : UserInput ℝ) (es : List (Elem ℝ)) : Prop where
  length : ∀ e ∈ es, ∀ nA ∈ u.nodes, ∀ nE ∈ u.nodes, e.conn = [nA.label, nE.label] → nA.coord ≠ nE.coord
  area : ∀ e ∈ es, ∃ A rest, e.gprop.vals = A :: rest ∧ 0 < A
  elastic : ∀ e ∈ es, e.mtype = 1 → ∃ E rest, e.mprop.vals = E :: rest ∧ 0 < E
  plastic : ∀ e ∈ es, e.mtype = 2 → ∃ (m : Spec.Plastic) (rest : List ℝ), m.Valid ∧ e.mprop.vals = m.E :: m.K :: m.Sy :: rest

/-- Settings with step widths `t * du`, `t * dl`, free choice of the control component with predictor, tolerances not above the step
widths, and enough iterations: the error `C t`, halved in every iteration, falls below the tolerances two iterations before
the last. -/
structure SmallSteps (s : Settings ℝ) (t du dl dxtol C : ℝ) : Prop where
  width_du : s.du = t * du
  width_dl : s.dlpf = t * dl
  free : s.jFixed = false
  predictor : s.jPre = true
  overshoot : dxtol ≤ s.dxtol
  xtol_du : (Flt.pow10neg s.xtol : ℝ) ≤ t * du
  xtol_dl : (Flt.pow10neg s.xtol : ℝ) ≤ t * dl
  iterations : ∃ N : Nat, C * t < Flt.pow10neg s.ftol * 2 ^ N ∧ C * t < Flt.pow10neg s.xtol * 2 ^ N ∧ (N : Int) + 2 ≤ s.nfev

/-- Some free displacement or the load factor is as big as its step width. -/
def ReachedWidth (a : Analysis ℝ) (wu wl : ℝ) : Prop := (∃ v ∈ a.Ured, |v| = wu) ∨ ∃ l, a.lpf = some l ∧ |l| = wl

end TrussPy
