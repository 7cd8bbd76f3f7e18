import Verif.Spec.Converge
import Verif.Spec.Follow
import Verif.Spec.Linear
import Mathlib.Analysis.Normed.Group.Constructions
import Mathlib.Analysis.Normed.Module.FiniteDimension
/-!
# Specification: rounded arithmetic

What is assumed of a number format: its numbers stand for real numbers, and every operation on numbers that are not too large
returns the exact result up to a small error.  Nothing is assumed about operations on huge numbers, about division by tiny numbers or
about roots of negative numbers, so formats with overflow, infinities and undefined results are included: those
only have to stand for huge numbers.
-/

namespace TrussPy

/-- The operations of `F` are those of the real numbers up to `δ`: absolutely for small results, relatively for large ones.  `val x` is the
real number that `x` stands for. -/
structure Rounds {F : Type} [Zero F] [One F] [Add F] [Sub F] [Mul F] [Div F] [Neg F] [Flt F] (val : F → ℝ) (δ : ℝ) : Prop where
  pos : 0 < δ
  zero : val 0 = 0
  one : val 1 = 1
  add : ∀ x y : F, |val x| ≤ 1 / δ → |val y| ≤ 1 / δ → |val (x + y) - (val x + val y)| ≤ δ * (1 + |val x + val y|)
  sub : ∀ x y : F, |val x| ≤ 1 / δ → |val y| ≤ 1 / δ → |val (x - y) - (val x - val y)| ≤ δ * (1 + |val x - val y|)
  mul : ∀ x y : F, |val x| ≤ 1 / δ → |val y| ≤ 1 / δ → |val (x * y) - val x * val y| ≤ δ * (1 + |val x * val y|)
  div : ∀ x y : F, |val x| ≤ 1 / δ → |val y| ≤ 1 / δ → δ ≤ |val y| → |val (x / y) - val x / val y| ≤ δ * (1 + |val x / val y|)
  neg : ∀ x : F, |val x| ≤ 1 / δ → val (-x) = -val x
  abs : ∀ x : F, |val x| ≤ 1 / δ → val (Flt.abs x) = |val x|
  lt : ∀ x y : F, |val x| ≤ 1 / δ → |val y| ≤ 1 / δ → (Flt.lt x y = true ↔ val x < val y)
  le : ∀ x y : F, |val x| ≤ 1 / δ → |val y| ≤ 1 / δ → (Flt.le x y = true ↔ val x ≤ val y)
  sqrt : ∀ x : F, 0 ≤ val x → val x ≤ 1 / δ → |val (Flt.sqrt x) - √(val x)| ≤ δ * (1 + √(val x))
  vnorm : ∀ l : List F, (∀ v ∈ l, |val v| ≤ 1 / δ) → δ * (l.length + 1) ≤ 1 →
    |val (Flt.vnorm l) - Flt.vnorm (l.map val)| ≤ δ * (l.length + 1) * (1 + Flt.vnorm (l.map val))
  ofInt : ∀ n : Int, |(n : ℝ)| ≤ 1 / δ → val (Flt.ofInt n) = n
  pow10neg : ∀ n : Int, (10 : ℝ) ^ (-n) ≤ 1 / δ → |val (Flt.pow10neg n) - (10 : ℝ) ^ (-n)| ≤ δ * (1 + (10 : ℝ) ^ (-n))

section
variable {F : Type}

/-- The linear solver in rounded arithmetic: for every system of `n` equations with numbers up to `κ`, whose solutions are at most
`κ` times as large as the right-hand sides, it returns a vector that leaves a residual of at most `θ` times the largest
right-hand side entry, plus `τ`. -/
def SolvesNear (val : F → ℝ) (sp : List (List F) → List F → Py (List F)) (n : Nat) (κ θ τ : ℝ) : Prop :=
  ∀ (K : List (List F)) (b : List F), K.length = n → (∀ row ∈ K, row.length = n) → (∀ row ∈ K, ∀ v ∈ row, |val v| ≤ κ) →
    (∀ v : Fin n → ℝ, ‖v‖ ≤ κ * ‖(matOf n (K.map (List.map val))).mulVec v‖) → b.length = n → (∀ v ∈ b, |val v| ≤ κ) →
    ∃ dx, sp K b = .ok dx ∧ dx.length = n ∧ ∀ r : ℝ, (∀ v ∈ b, |val v| ≤ r) →
      ∀ e ∈ List.zipWith (fun p q => p - q) (matVec (K.map (List.map val)) (dx.map val)) (b.map val), |e| ≤ θ * r + τ

/-- From states with property `I` and for vectors in `D`, the functions `f` and `df` return the values of `φ` and the matrix `J` up to
`η`, and lead to states with property `I` again. -/
structure ComputesNear {S : Type} (val : F → ℝ) (n : Nat) (I : S → Prop) (D : (Fin n → ℝ) → Prop) (f : S → List F → Py (S × List F))
    (df : S → List F → Py (S × List (List F))) (φ : (Fin n → ℝ) → Fin n → ℝ)
    (J : (Fin n → ℝ) → Matrix (Fin n) (Fin n) ℝ) (η : ℝ) : Prop where
  value : ∀ s (x : Fin n → F), I s → D (fun i => val (x i)) → ∃ s' y, f s (List.ofFn x) = .ok (s', List.ofFn y) ∧ I s' ∧
    ∀ i, |val (y i) - φ (fun i => val (x i)) i| ≤ η
  matrix : ∀ s (x : Fin n → F), I s → D (fun i => val (x i)) → ∃ s' K, df s (List.ofFn x) = .ok (s', K) ∧ I s' ∧ K.length = n ∧
    (∀ row ∈ K, row.length = n) ∧ ∀ i j, |matOf n (K.map (List.map val)) i j - J (fun i => val (x i)) i j| ≤ η

end

end TrussPy
