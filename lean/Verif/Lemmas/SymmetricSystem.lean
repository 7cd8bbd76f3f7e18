import Mathlib.LinearAlgebra.Matrix.NonsingularInverse
import Mathlib.LinearAlgebra.FiniteDimensional.Basic
import Mathlib.LinearAlgebra.Matrix.ToLin
import Mathlib.Data.Real.Basic
import Mathlib.Tactic.Linarith
import Mathlib.Tactic.Ring
/-!
# Linear systems with a symmetry

The solution of a bordered linear system is invariant under every transformation under which the matrix and both vectors are
invariant, whatever the last row is.
-/

namespace TrussPy

open Matrix

variable {n : Nat}

theorem polarize {K : Matrix (Fin n) (Fin n) ℝ} (hK : Kᵀ = K) {T : (Fin n → ℝ) →ₗ[ℝ] (Fin n → ℝ)}
    (hq : ∀ v, T v ⬝ᵥ K *ᵥ T v = v ⬝ᵥ K *ᵥ v) (v w : Fin n → ℝ) : T v ⬝ᵥ K *ᵥ T w = v ⬝ᵥ K *ᵥ w := by
  have hs : ∀ a b : Fin n → ℝ, a ⬝ᵥ K *ᵥ b = b ⬝ᵥ K *ᵥ a := by
    intro a b
    rw [dotProduct_mulVec, ← mulVec_transpose, hK, dotProduct_comm]
  have h := hq (v + w)
  rw [map_add] at h
  simp only [mulVec_add, dotProduct_add, add_dotProduct] at h
  have h1 := hq v
  have h2 := hq w
  have h3 := hs (T v) (T w)
  have h4 := hs v w
  linarith

theorem symmetric_solution {J : Matrix (Fin (n + 1)) (Fin (n + 1)) ℝ} (hJ : IsUnit J.det) {K : Matrix (Fin n) (Fin n) ℝ}
    {f g : Fin n → ℝ} (e1 : ∀ i j : Fin n, J i.castSucc j.castSucc = K i j) (e2 : ∀ i : Fin n, J i.castSucc (Fin.last n) = -f i)
    (hK : Kᵀ = K) {T : (Fin n → ℝ) →ₗ[ℝ] (Fin n → ℝ)} (hT : Function.Injective T)
    (hq : ∀ v, T v ⬝ᵥ K *ᵥ T v = v ⬝ᵥ K *ᵥ v) (hf : ∀ v, f ⬝ᵥ T v = f ⬝ᵥ v) (hg : ∀ v, g ⬝ᵥ T v = g ⬝ᵥ v)
    {x : Fin (n + 1) → ℝ} (hx : ∀ i : Fin n, (J *ᵥ x) i.castSucc = -g i) :
    T (fun i => x i.castSucc) = fun i => x i.castSucc := by
  set v : Fin n → ℝ := fun i => x i.castSucc with hv
  have hKv : K *ᵥ v = x (Fin.last n) • f - g := by
    funext i
    have h := hx i
    simp only [mulVec, dotProduct] at h
    rw [Fin.sum_univ_castSucc, e2] at h
    simp only [e1] at h
    simp only [mulVec, dotProduct, hv, Pi.sub_apply, Pi.smul_apply, smul_eq_mul]
    linarith
  have hb := polarize hK hq
  set z := T v - v with hz
  have hz0 : ∀ w, w ⬝ᵥ K *ᵥ z = 0 := by
    intro w
    obtain ⟨w', rfl⟩ := (LinearMap.injective_iff_surjective.1 hT) w
    rw [hz, mulVec_sub, dotProduct_sub, hb, hKv]
    simp only [dotProduct_sub, dotProduct_smul, smul_eq_mul]
    rw [dotProduct_comm w' f, dotProduct_comm w' g, dotProduct_comm _ f, dotProduct_comm _ g, hf, hg]
    ring
  have hKz : K *ᵥ z = 0 := by
    funext i
    simpa using hz0 (Pi.single i 1)
  have hfz : f ⬝ᵥ z = 0 := by rw [hz, dotProduct_sub, hf, sub_self]
  have hleft : (Fin.snoc z 0 : Fin (n + 1) → ℝ) ᵥ* J = 0 := by
    funext j
    simp only [vecMul, dotProduct, Pi.zero_apply]
    rw [Fin.sum_univ_castSucc]
    simp only [Fin.snoc_castSucc, Fin.snoc_last, zero_mul, add_zero]
    refine Fin.lastCases ?_ (fun j => ?_) j
    · simp only [e2]
      have := hfz
      simp only [dotProduct] at this
      rw [← neg_eq_zero, ← Finset.sum_neg_distrib, ← this]
      exact Finset.sum_congr rfl fun i _ => by ring
    · simp only [e1]
      have := congrFun hKz j
      simp only [mulVec, dotProduct, Pi.zero_apply] at this
      rw [← this]
      refine Finset.sum_congr rfl fun i _ => ?_
      have : K i j = K j i := congrFun (congrFun hK j) i
      rw [this]
      ring
  have h0 : (Fin.snoc z 0 : Fin (n + 1) → ℝ) = 0 := by
    have := congrArg (fun y => y ᵥ* J⁻¹) hleft
    simpa [Matrix.vecMul_vecMul, Matrix.mul_nonsing_inv J hJ] using this
  funext i
  have := congrFun h0 i.castSucc
  rw [Fin.snoc_castSucc] at this
  have h2 : T v i - v i = 0 := this
  linarith

end TrussPy
