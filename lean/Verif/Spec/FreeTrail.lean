import Verif.Spec.Trail
/-!
# Specification: equilibrium paths of the entered structure on which any component may turn back
-/

namespace TrussPy

/-- A path of equilibria of the entered structure under the loads of the first step, from the undeformed state on: displacements
`U s` and load factor `l s`, `0 ≤ s ≤ S`, with continuous derivatives `U'`, `l'`.  At the beginning the load factor grows; later
load factor and displacements may grow or fall.  Measured by `du` (displacements) and `dl` (load factor) some component moves at
least at speed 1.  No element loses its length or yields, and to first order the only equilibrium motions are the multiples of
the motion along the path. -/
structure FreeTrail (u : UserInput ℝ) (es : List (Elem ℝ)) (du dl S : ℝ) (U U' : ℝ → Int → V3 ℝ) (l l' : ℝ → ℝ) : Prop where
  start : ∀ n ∈ u.nodes, ∀ d, U 0 n.label d = 0
  startLoad : l 0 = 0
  grows : 0 < l' 0
  deriv : ∀ s ∈ Set.Icc 0 S, ∀ n ∈ u.nodes, ∀ d, HasDerivWithinAt (fun s => U s n.label d) (U' s n.label d) (Set.Icc 0 S) s
  derivLoad : ∀ s ∈ Set.Icc 0 S, HasDerivWithinAt l (l' s) (Set.Icc 0 S) s
  cont : ∀ n ∈ u.nodes, ∀ d, ContinuousOn (fun s => U' s n.label d) (Set.Icc 0 S)
  contLoad : ContinuousOn l' (Set.Icc 0 S)
  speed : ∀ s ∈ Set.Icc 0 S, dl ≤ |l' s| ∨ ∃ n ∈ u.nodes, ∃ d, du ≤ |U' s n.label d|
  supports : ∀ s ∈ Set.Icc 0 S, AllowedVelocity u (U s)
  equilibrium : ∀ s ∈ Set.Icc 0 S, ∀ lab d, FreeAt u lab d → pull u es (U s) lab d = l s * firstLoad u lab d
  length : ∀ s ∈ Set.Icc 0 S, ∀ e ∈ es, ∀ A E, e.conn = [A, E] → len (span u (U s) A E) ≠ 0
  below : ∀ s ∈ Set.Icc 0 S, ∀ e ∈ es, BelowYield u (U s) e
  regular : ∀ s ∈ Set.Icc 0 S, ∀ (v : Int → V3 ℝ) (μ : ℝ), AllowedVelocity u v →
    (∀ lab d, FreeAt u lab d →
      HasDerivAt (fun t : ℝ => pull u es (fun n e => U s n e + t * v n e) lab d - (l s + t * μ) * firstLoad u lab d) 0 0) →
    ∃ r, (∀ n ∈ u.nodes, ∀ d, v n.label d = r * U' s n.label d) ∧ μ = r * l' s

/-- Settings of the default mode: the control component is chosen in each increment, with predictor; step widths `t * du` for
displacements and `t * dl` for the load factor, enlarged by step control to at most `W` times that; tolerance of the increment
above `1 + η`; tolerance of the unknowns at most the step widths. -/
structure FreeControl (s : Settings ℝ) (du dl η W t : ℝ) : Prop where
  free : s.jFixed = false
  predict : s.jPre = true
  widthDisp : s.du = t * du
  widthLoad : s.dlpf = t * dl
  overshoot : 1 + η ≤ s.dxtol
  enlarge : s.stepcontrol = true → 1 ≤ s.maxfac ∧ 0 ≤ s.increase ∧ s.maxfac * (1 + s.increase) ≤ W
  tolDisp : (10 : ℝ) ^ (-s.xtol) ≤ t * du
  tolLoad : (10 : ℝ) ^ (-s.xtol) ≤ t * dl

/-- The iterations allowed, after the one of the predictor, bring the residual of a step of width `t` below the tolerances. -/
def IterationsFor (s : Settings ℝ) (C t : ℝ) : Prop :=
  ∃ N : Nat, Shrinks C t ((10 : ℝ) ^ (-s.ftol)) N ∧ Shrinks C t ((10 : ℝ) ^ (-s.xtol)) N ∧ (N : Int) + 2 ≤ s.nfev

/-- Iterations for the tolerances of the settings, of which `extra` are needed before the squaring: with `N` squarings the
tolerances may have `3/10 * 2^N` digits (19 for `N = 6`, 38 for `N = 7`). -/
def DigitsAllowed (s : Settings ℝ) (extra : Int) : Prop :=
  ∃ N : Nat, 10 * s.ftol ≤ 3 * 2 ^ N ∧ 10 * s.xtol ≤ 3 * 2 ^ N ∧ (N : Int) + extra ≤ s.nfev

/-- The first `q` results after the undeformed state are, up to `tol`, points of the path with growing parameters `p 1 < p 2 < …`,
in their tables and in their vectors of unknowns (the free directions `P`, then the load factor).
From one to the next every displacement changes by at most `big * du`, the load factor by at most `big * dl`, and some free
displacement by at least `small * du` or the load factor by at least `small * dl`; on a path of speed at most `G` the parameter grows by
at least `small / G`.  There are `K` of them, unless the last one exceeds the limit `xl`. -/
structure FollowsFree (u : UserInput ℝ) (P : List (Int × Fin 3)) (labels : List Int) (R : List (Analysis ℝ)) (du dl S : ℝ) (U U' : ℝ → Int → V3 ℝ)
    (l l' : ℝ → ℝ) (small big tol : ℝ) (K : Nat) (xl : Int × ℝ) (q : Nat) (p : Nat → ℝ) : Prop where
  first : p 0 = 0
  points : ∀ i < q, ∃ r, R[i + 1]? = some r ∧ OnPath labels r (U (p (i + 1))) (l (p (i + 1))) tol ∧
    ∀ k ≤ P.length, ∃ v, r.Vred[k]? = some v ∧ |v - component P (U (p (i + 1))) (l (p (i + 1))) k| ≤ tol
  forward : ∀ i < q, p i < p (i + 1) ∧ p (i + 1) ≤ S ∧ p (i + 1) ≤ p i + big
  progress : ∀ G, (∀ s ∈ Set.Icc 0 S, |l' s| ≤ G * dl ∧ ∀ n ∈ u.nodes, ∀ d, |U' s n.label d| ≤ G * du) →
    ∀ i < q, small ≤ G * (p (i + 1) - p i)
  stepDisp : ∀ i < q, ∀ n ∈ u.nodes, ∀ d, |U (p (i + 1)) n.label d - U (p i) n.label d| ≤ big * du
  stepLoad : ∀ i < q, |l (p (i + 1)) - l (p i)| ≤ big * dl
  moves : ∀ i < q, small * dl ≤ |l (p (i + 1)) - l (p i)| ∨
    ∃ n ∈ u.nodes, ∃ d, small * du ≤ |U (p (i + 1)) n.label d - U (p i) n.label d|
  count : q ≤ K
  stop : q = K ∨ 0 < q ∧ ∃ r v, R[q]? = some r ∧ r.Vred[(xl.1 - 1).toNat]? = some v ∧ xl.2 < |v|

end TrussPy
