import Verif.Run
import Verif.Instances
/-!
# Specification: vectors with changed signs and computations that go alike
-/

namespace TrussPy

/-- Every value is `1` or `-1`. -/
def IsSigns (σ : Nat → Int) : Prop := ∀ i, σ i = 1 ∨ σ i = -1

/-- The vector with component `i` multiplied by `σ i`. -/
def flipV (σ : Nat → Int) (x : List ℝ) : List ℝ := x.mapIdx fun i v => (σ i : ℝ) * v

/-- The matrix with row `i` multiplied by `τ i` and column `k` by `σ k`. -/
def flipM (τ σ : Nat → Int) (A : List (List ℝ)) : List (List ℝ) :=
  A.mapIdx fun i row => (flipV σ row).map ((τ i : ℝ) * ·)

/-- The signed (1-based) control component that belongs to `j` when the signs of the components change. -/
def flipJ (σ : Nat → Int) (j : Int) : Int := σ (j.natAbs - 1) * j

/-- The linear solver does not care about signs: multiplying equations and unknowns by `-1` multiplies the entries of
the solution by `-1` (or it fails as before). -/
def Env.KeepsSigns (env : Env ℝ) : Prop :=
  ∀ τ σ, IsSigns τ → IsSigns σ → ∀ A b, env.spsolve (flipM τ σ A) (flipV τ b) = (env.spsolve A b).map (flipV σ)

/-- Both computations raise the same exception, or both return and the returned values are related. -/
inductive Alike {α β : Type} (R : α → β → Prop) : Py α → Py β → Prop
  | ok {x : α} {y : β} : R x y → Alike R (.ok x) (.ok y)
  | error (e : Err) : Alike R (.error e) (.error e)

end TrussPy
