import Verif.Spec.Trail
import Mathlib.Algebra.BigOperators.Group.Finset.Basic
/-!
# Specification: load histories with several steps

As `Spec/Trail.lean`, with loads that are held while the loads of a step are applied.
-/

namespace TrussPy

/-- Load of node `l` in step number `k` (0-based). -/
def stepLoad (u : UserInput ℝ) (k : Nat) (l : Int) : V3 ℝ := fun d => (loadOf u.forces l).getD (3 * k + d) 0

/-- As `Trail`, but the path starts at any displacement, and the loads `held` act besides `l s` times the loads `load`. -/
structure HeldTrail (u : UserInput ℝ) (es : List (Elem ℝ)) (P : List (Int × Fin 3)) (j : Int) (S : ℝ) (held load : Int → V3 ℝ)
    (U : ℝ → Int → V3 ℝ) (l : ℝ → ℝ) : Prop where
  startLoad : l 0 = 0
  cont : ∀ n ∈ u.nodes, ∀ d, ContinuousOn (fun s => U s n.label d) (Set.Icc 0 S)
  contLoad : ContinuousOn l (Set.Icc 0 S)
  supports : ∀ s ∈ Set.Icc 0 S, AllowedVelocity u (U s)
  control : ∀ s ∈ Set.Icc 0 S, component P (U s) (l s) (j.natAbs - 1) = component P (U 0) (l 0) (j.natAbs - 1) + s * (j.sign : ℝ)
  equilibrium : ∀ s ∈ Set.Icc 0 S, ∀ lab d, FreeAt u lab d → pull u es (U s) lab d = held lab d + l s * load lab d
  length : ∀ s ∈ Set.Icc 0 S, ∀ e ∈ es, ∀ A E, e.conn = [A, E] → len (span u (U s) A E) ≠ 0
  below : ∀ s ∈ Set.Icc 0 S, ∀ e ∈ es, BelowYield u (U s) e
  regular : ∀ s ∈ Set.Icc 0 S, ∀ (v : Int → V3 ℝ) (μ : ℝ), AllowedVelocity u v →
    (∀ lab d, FreeAt u lab d →
      HasDerivAt (fun t : ℝ => pull u es (fun n e => U s n e + t * v n e) lab d - (l s + t * μ) * load lab d) 0 0) →
    component P v μ (j.natAbs - 1) = 0 → (∀ n ∈ u.nodes, ∀ d, v n.label d = 0) ∧ μ = 0

/-- Loads held during step number `k`: those of the steps before, with the load factors at their ends. -/
noncomputable def heldLoads (u : UserInput ℝ) (T : Nat → ℝ) (l : Nat → ℝ → ℝ) (k : Nat) : Int → V3 ℝ := fun lab d =>
  ∑ i ∈ Finset.range k, l i (T i) * stepLoad u i lab d

/-- Equilibrium paths for `ns` steps, each starting where the one before ends.  In step number `k` the component `j` moves by
`T k`, the loads of the steps before are held, and those of the step grow from zero. -/
structure Stages (u : UserInput ℝ) (es : List (Elem ℝ)) (P : List (Int × Fin 3)) (j : Int) (ns : Nat) (T : Nat → ℝ)
    (U : Nat → ℝ → Int → V3 ℝ) (l : Nat → ℝ → ℝ) : Prop where
  width : ∀ k < ns, 0 < T k
  trail : ∀ k < ns, HeldTrail u es P j (T k) (heldLoads u T l k) (stepLoad u k) (U k) (l k)
  start : ∀ n ∈ u.nodes, ∀ d, U 0 0 n.label d = 0
  join : ∀ k, k + 1 < ns → ∀ n ∈ u.nodes, ∀ d, U (k + 1) 0 n.label d = U k (T k) n.label d

/-- The results are the undeformed state and then, step after step, the `K k` points of the path of step number `k` with the
parameters `h`, `2 h`, …, up to `tol`; in them the component `j` is exact. -/
structure FollowsStages (P : List (Int × Fin 3)) (labels : List Int) (R : List (Analysis ℝ)) (j : Int) (h tol : ℝ)
    (U : Nat → ℝ → Int → V3 ℝ) (l : Nat → ℝ → ℝ) (ns : Nat) (K : Nat → Nat) : Prop where
  count : R.length = 1 + ∑ k ∈ Finset.range ns, K k
  points : ∀ k < ns, ∀ i < K k, ∃ r, R[1 + (∑ m ∈ Finset.range k, K m) + i]? = some r ∧ r.step = k + 1 ∧
    OnPath labels r (U k ((i + 1) * h)) (l k ((i + 1) * h)) tol ∧
    r.Vred[j.natAbs - 1]? = some (component P (U k ((i + 1) * h)) (l k ((i + 1) * h)) (j.natAbs - 1))

end TrussPy
