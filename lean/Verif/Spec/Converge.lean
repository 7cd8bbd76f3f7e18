import Verif.Spec.Linear
import Verif.Spec.Mechanics
import Mathlib.LinearAlgebra.Matrix.Determinant.Basic
/-!
# Specification: systems of equations as seen by the Newton solver
-/

namespace TrussPy

/-- The linear solver solves every regular system of `n` equations exactly. -/
def SolvesRegular (sp : List (List ℝ) → List ℝ → Py (List ℝ)) (n : Nat) : Prop :=
  ∀ (K : List (List ℝ)) (b : List ℝ), K.length = n → (∀ row ∈ K, row.length = n) → IsUnit (Matrix.det (matOf n K)) →
    b.length = n → ∃ dx, sp K b = .ok dx ∧ dx.length = n ∧ matVec K dx = b

/-- From states with property `I`, the functions `f` and `df` return the values of `φ` and the matrix `J`
(a table of `n` rows of `n` entries) at every vector, and lead to states with property `I` again. -/
structure Computes {S : Type} (n : Nat) (I : S → Prop) (f : S → List ℝ → Py (S × List ℝ))
    (df : S → List ℝ → Py (S × List (List ℝ))) (φ : (Fin n → ℝ) → Fin n → ℝ)
    (J : (Fin n → ℝ) → Matrix (Fin n) (Fin n) ℝ) : Prop where
  value : ∀ s x, I s → ∃ s', f s (List.ofFn x) = .ok (s', List.ofFn (φ x)) ∧ I s'
  matrix : ∀ s x, I s → ∃ s' K, df s (List.ofFn x) = .ok (s', K) ∧ I s' ∧ K.length = n ∧ (∀ row ∈ K, row.length = n) ∧
    matOf n K = J x

/-- The bars are smooth at a vector of the extended system. -/
def SmoothAt (c : Ctx ℝ) (bars : List (Bar ℝ)) (a : Analysis ℝ) {n : Nat} (x : Fin (n + 1) → ℝ) : Prop :=
  ∀ U, scatter a.U a.DOF1 (List.ofFn fun i : Fin n => x i.castSucc) = .ok U →
    ∀ (k : Nat) (b : Bar ℝ), bars[k]? = some b → b.Smooth U (stateRow c a.statev k)

/-- The bar has a length and responds elastically: its law is elastic, or plastic with the usual constants and the stress
is below the current yield stress (`y = 0` encodes the virgin yield stress `Sy`; `p` is the plastic strain so far). -/
structure Bar.Calm (b : Bar ℝ) (U : List ℝ) (row : Option (List ℝ)) : Prop where
  length : len (b.axis U) ≠ 0
  plastic : b.law = .elplast → ∃ (m : Spec.Plastic) (rest more : List ℝ) (y p : ℝ), m.Valid ∧
    b.mat = m.E :: m.K :: m.Sy :: rest ∧ row = some (y :: p :: more) ∧ 0 ≤ y ∧
    |m.E * (b.stretch U - 1 - p)| < if y = 0 then m.Sy else y

/-- All bars respond elastically at a vector of the extended system. -/
def CalmAt (c : Ctx ℝ) (bars : List (Bar ℝ)) (a : Analysis ℝ) {n : Nat} (x : Fin (n + 1) → ℝ) : Prop :=
  ∀ U, scatter a.U a.DOF1 (List.ofFn fun i : Fin n => x i.castSucc) = .ok U →
    ∀ (k : Nat) (b : Bar ℝ), bars[k]? = some b → b.Calm U (stateRow c a.statev k)

/-- `N` iterations bring a residual of size `r` below `tol`: since every iteration halves it, or since every iteration
squares it (`C` collects the constants of the problem). -/
def Shrinks (C r tol : ℝ) (N : Nat) : Prop := C * r < tol * 2 ^ N ∨ (C * r) ^ 2 ^ N < tol

end TrussPy
