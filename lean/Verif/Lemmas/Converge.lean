import Verif.Spec.Converge
import Verif.Lemmas.Newton
import Mathlib.Analysis.Normed.Module.FiniteDimension
import Mathlib.LinearAlgebra.Matrix.NonsingularInverse
import Mathlib.LinearAlgebra.Matrix.ToLinearEquiv
/-!
# Convergence of the Newton loop
-/

namespace TrussPy

theorem vnorm_ofFn_le {n : Nat} (v : Fin n → ℝ) : Flt.vnorm (List.ofFn v) ≤ n * ‖v‖ := by
  show √((List.map (fun v => v * v) (List.ofFn v)).sum) ≤ _
  rw [List.map_ofFn, List.sum_ofFn]
  apply Real.sqrt_le_iff.2
  refine ⟨by positivity, ?_⟩
  have h1 : ∀ i, ((fun v => v * v) ∘ v) i ≤ ‖v‖ ^ 2 := by
    intro i
    have := norm_le_pi_norm v i
    rw [Real.norm_eq_abs] at this
    show v i * v i ≤ _
    nlinarith [abs_nonneg (v i), abs_mul_abs_self (v i)]
  calc ∑ i, ((fun v => v * v) ∘ v) i ≤ ∑ _i : Fin n, ‖v‖ ^ 2 := Finset.sum_le_sum fun i _ => h1 i
    _ = n * ‖v‖ ^ 2 := by simp
    _ ≤ (n * ‖v‖) ^ 2 := by
      rw [mul_pow]
      refine mul_le_mul_of_nonneg_right ?_ (by positivity)
      have : (n : ℝ) ≤ (n : ℝ) * n := by exact_mod_cast Nat.le_mul_self n
      rw [pow_two]
      exact this

theorem norm_le_vnorm {n : Nat} (v : Fin n → ℝ) : ‖v‖ ≤ Flt.vnorm (List.ofFn v) := by
  show _ ≤ √((List.map (fun v => v * v) (List.ofFn v)).sum)
  rw [List.map_ofFn, List.sum_ofFn]
  refine (pi_norm_le_iff_of_nonneg (Real.sqrt_nonneg _)).2 fun i => ?_
  rw [Real.norm_eq_abs]
  refine Real.abs_le_sqrt ?_
  have := Finset.single_le_sum (f := fun i => ((fun v => v * v) ∘ v) i) (fun i _ => mul_self_nonneg (v i)) (Finset.mem_univ i)
  rw [pow_two]
  exact this

theorem matVec_ofFn {n : Nat} {K : List (List ℝ)} (hK : K.length = n) (hrow : ∀ row ∈ K, row.length = n) (v : Fin n → ℝ) :
    matVec K (List.ofFn v) = List.ofFn ((matOf n K).mulVec v) := by
  subst hK
  apply List.ext_getElem (by simp [matVec])
  intro i h1 h2
  simp only [matVec, List.getElem_map, List.getElem_ofFn]
  have hi : i < K.length := by simpa [matVec] using h1
  have hr := hrow K[i] (List.getElem_mem hi)
  have hz : List.zipWith (· * ·) K[i] (List.ofFn v) = List.ofFn fun j : Fin K.length => matOf K.length K ⟨i, hi⟩ j * v j := by
    apply List.ext_getElem (by simp [hr])
    intro j g1 g2
    have hj : j < K.length := by simpa using g2
    simp only [List.getElem_zipWith, List.getElem_ofFn, matOf, List.getD_eq_getElem?_getD, List.getElem?_eq_getElem hi,
      Option.getD_some, List.getElem?_eq_getElem (show j < K[i].length by rw [hr]; exact hj)]
  rw [hz, List.sum_ofFn]
  rfl

theorem vadd_ofFn {n : Nat} (x y : Fin n → ℝ) : vadd (List.ofFn x) (List.ofFn y) = List.ofFn (x + y) := by
  apply List.ext_getElem (by simp [vadd])
  intro i h1 h2
  simp [vadd]

theorem exists_ofFn {n : Nat} {l : List ℝ} (h : l.length = n) : ∃ v : Fin n → ℝ, l = List.ofFn v := by
  subst h
  exact ⟨fun i => l[i], by simp⟩

/-- What is needed around a point `c` for the Newton loop to converge: the matrices are close to one
operator `A` with `‖v‖ ≤ M ‖A v‖`, and so are the differences of `φ`. -/
structure Tame {n : Nat} (φ : (Fin n → ℝ) → Fin n → ℝ) (J : (Fin n → ℝ) → Matrix (Fin n) (Fin n) ℝ)
    (A : (Fin n → ℝ) →L[ℝ] Fin n → ℝ) (c : Fin n → ℝ) (ρ ε M : ℝ) : Prop where
  diff : ∀ x y, ‖x - c‖ ≤ ρ → ‖y - c‖ ≤ ρ → ‖φ x - φ y - A (x - y)‖ ≤ ε * ‖x - y‖
  matrix : ∀ x, ‖x - c‖ ≤ ρ → ∀ v, ‖(J x).mulVec v - A v‖ ≤ ε * ‖v‖
  below : ∀ v, ‖v‖ ≤ M * ‖A v‖
  pos : 0 < M
  eps : 0 ≤ ε
  small : M * ε ≤ 1 / 8

namespace Tame

variable {n : Nat} {φ : (Fin n → ℝ) → Fin n → ℝ} {J : (Fin n → ℝ) → Matrix (Fin n) (Fin n) ℝ}
  {A : (Fin n → ℝ) →L[ℝ] Fin n → ℝ} {c : Fin n → ℝ} {ρ ε M : ℝ}

theorem belowJ (h : Tame φ J A c ρ ε M) {x : Fin n → ℝ} (hx : ‖x - c‖ ≤ ρ) (v : Fin n → ℝ) :
    ‖v‖ ≤ 2 * M * ‖(J x).mulVec v‖ := by
  have h1 := h.below v
  have h2 := h.matrix x hx v
  have h3 : ‖A v‖ ≤ ‖(J x).mulVec v‖ + ε * ‖v‖ := by
    calc ‖A v‖ = ‖(J x).mulVec v - ((J x).mulVec v - A v)‖ := by congr 1; abel
      _ ≤ ‖(J x).mulVec v‖ + ‖(J x).mulVec v - A v‖ := norm_sub_le _ _
      _ ≤ _ := by linarith
  have h4 : M * ‖A v‖ ≤ M * (‖(J x).mulVec v‖ + ε * ‖v‖) := mul_le_mul_of_nonneg_left h3 h.pos.le
  have h5 : M * ε * ‖v‖ ≤ 1 / 8 * ‖v‖ := mul_le_mul_of_nonneg_right h.small (norm_nonneg v)
  nlinarith [norm_nonneg v, norm_nonneg ((J x).mulVec v), h.pos]

theorem regular (h : Tame φ J A c ρ ε M) {x : Fin n → ℝ} (hx : ‖x - c‖ ≤ ρ) : IsUnit (J x).det := by
  rw [isUnit_iff_ne_zero]
  intro h0
  obtain ⟨v, hv, hv0⟩ := Matrix.exists_mulVec_eq_zero_iff.2 h0
  have := h.belowJ hx v
  rw [hv0, norm_zero, mul_zero] at this
  exact hv (norm_le_zero_iff.1 this)

/-- One Newton step. -/
theorem step (h : Tame φ J A c ρ ε M) {x dx : Fin n → ℝ} (hx : ‖x - c‖ + 4 * M * ‖φ x‖ ≤ ρ)
    (hdx : (J x).mulVec dx = -φ x) : ‖dx‖ ≤ 2 * M * ‖φ x‖ ∧ ‖φ (x + dx)‖ ≤ 1 / 2 * ‖φ x‖ ∧
      ‖x + dx - c‖ + 4 * M * ‖φ (x + dx)‖ ≤ ρ := by
  have hφ := norm_nonneg (φ x)
  have hM := h.pos
  have hMφ : 0 ≤ M * ‖φ x‖ := by positivity
  have hx0 : ‖x - c‖ ≤ ρ := by nlinarith
  have h1 : ‖dx‖ ≤ 2 * M * ‖φ x‖ := by
    have := h.belowJ hx0 dx
    rwa [hdx, norm_neg] at this
  have hd : ‖x + dx - c‖ ≤ ‖x - c‖ + ‖dx‖ := by
    calc ‖x + dx - c‖ = ‖(x - c) + dx‖ := by congr 1; abel
      _ ≤ _ := norm_add_le _ _
  have h2 := h.diff (x + dx) x (by linarith) hx0
  have h3 := h.matrix x hx0 dx
  rw [add_sub_cancel_left] at h2
  have h4 : ‖φ (x + dx)‖ ≤ 2 * (ε * ‖dx‖) := by
    calc ‖φ (x + dx)‖ = ‖(φ (x + dx) - φ x - A dx) - ((J x).mulVec dx - A dx)‖ := by rw [hdx]; congr 1; abel
      _ ≤ _ := norm_sub_le _ _
      _ ≤ _ := by linarith
  have h5 : ε * ‖dx‖ ≤ ε * (2 * M * ‖φ x‖) := mul_le_mul_of_nonneg_left h1 h.eps
  have h6 : M * ε * ‖φ x‖ ≤ 1 / 8 * ‖φ x‖ := mul_le_mul_of_nonneg_right h.small hφ
  have h7 : ‖φ (x + dx)‖ ≤ 1 / 2 * ‖φ x‖ := by nlinarith
  refine ⟨h1, h7, ?_⟩
  have : M * ‖φ (x + dx)‖ ≤ M * (1 / 2 * ‖φ x‖) := mul_le_mul_of_nonneg_left h7 hM.le
  nlinarith

end Tame

theorem newtonLoop_converges {S : Type} {n : Nat} {I : S → Prop} {f : S → List ℝ → Py (S × List ℝ)}
    {df : S → List ℝ → Py (S × List (List ℝ))} {sp : List (List ℝ) → List ℝ → Py (List ℝ)}
    {φ : (Fin n → ℝ) → Fin n → ℝ} {J : (Fin n → ℝ) → Matrix (Fin n) (Fin n) ℝ} (hC : Computes n I f df φ J)
    (hsp : SolvesRegular sp n) {A : (Fin n → ℝ) →L[ℝ] Fin n → ℝ} {c : Fin n → ℝ} {ρ ε M : ℝ} (h : Tame φ J A c ρ ε M)
    {ftol xtol : ℝ} : ∀ (k : Nat) (m : Int) (s : S) (x : Fin n → ℝ), I s →
      ‖x - c‖ + 4 * M * ‖φ x‖ ≤ ρ → n * ‖φ x‖ < ftol * 2 ^ (k + 1) → n * (2 * M * ‖φ x‖) < xtol * 2 ^ k →
      ∃ s' o y, newtonLoop f df sp ftol xtol (k + 1) m s (List.ofFn x) = .ok (s', o) ∧ I s' ∧ o.success = true ∧
        o.x = List.ofFn y ∧ ‖y - x‖ ≤ 4 * M * ‖φ x‖ ∧ Flt.vnorm (List.ofFn (φ y)) < ftol ∧
        ∃ u v, y = u + v ∧ (J u).mulVec v = -φ u := by
  intro k
  induction k with
  | zero =>
    intro m s x hI hx hf hxt
    have hx0 : ‖x - c‖ ≤ ρ := by nlinarith [norm_nonneg (φ x), h.pos, mul_nonneg h.pos.le (norm_nonneg (φ x))]
    obtain ⟨s1, K, e1, i1, l1, l2, l3⟩ := hC.matrix s x hI
    obtain ⟨s2, e2, i2⟩ := hC.value s1 x i1
    obtain ⟨dx, e3, l4, e4⟩ := hsp K ((List.ofFn (φ x)).map fun v => -v) l1 l2 (by rw [l3]; exact h.regular hx0) (by simp)
    obtain ⟨d, rfl⟩ := exists_ofFn l4
    rw [matVec_ofFn l1 l2, l3, List.map_ofFn] at e4
    have hdx : (J x).mulVec d = -φ x := List.ofFn_injective e4
    obtain ⟨p1, p2, p3⟩ := h.step hx hdx
    obtain ⟨s3, e5, i3⟩ := hC.value s2 (x + d) i2
    have c1 : Flt.vnorm (List.ofFn (φ (x + d))) < ftol := by
      refine (vnorm_ofFn_le _).trans_lt ?_
      have : (n : ℝ) * ‖φ (x + d)‖ ≤ n * (1 / 2 * ‖φ x‖) := mul_le_mul_of_nonneg_left p2 (by positivity)
      norm_num at hf
      linarith
    have c2 : Flt.vnorm (List.ofFn d) < xtol := by
      refine (vnorm_ofFn_le _).trans_lt ?_
      have : (n : ℝ) * ‖d‖ ≤ n * (2 * M * ‖φ x‖) := mul_le_mul_of_nonneg_left p1 (by positivity)
      norm_num at hxt
      linarith
    have hc : (Flt.lt (Flt.vnorm (List.ofFn (φ (x + d)))) ftol && Flt.lt (Flt.vnorm (List.ofFn d)) xtol) = true := by
      rw [Bool.and_eq_true]
      exact ⟨decide_eq_true c1, decide_eq_true c2⟩
    refine ⟨s3, ⟨List.ofFn (x + d), true, m + 1, Flt.vnorm (List.ofFn (φ (x + d))), Flt.vnorm (List.ofFn d)⟩, x + d, ?_, i3, rfl, rfl, ?_, c1,
      x, d, rfl, hdx⟩
    · rw [newtonLoop]
      simp only [e1, py_bind_ok, e2, e3, List.length_ofFn, ne_eq, not_true_eq_false, if_false, vadd_ofFn, e5, hc, if_true]
      rfl
    · rw [add_sub_cancel_left]
      have : 0 ≤ M * ‖φ x‖ := mul_nonneg h.pos.le (norm_nonneg _)
      linarith
  | succ k ih =>
    intro m s x hI hx hf hxt
    have hx0 : ‖x - c‖ ≤ ρ := by nlinarith [norm_nonneg (φ x), h.pos, mul_nonneg h.pos.le (norm_nonneg (φ x))]
    obtain ⟨s1, K, e1, i1, l1, l2, l3⟩ := hC.matrix s x hI
    obtain ⟨s2, e2, i2⟩ := hC.value s1 x i1
    obtain ⟨dx, e3, l4, e4⟩ := hsp K ((List.ofFn (φ x)).map fun v => -v) l1 l2 (by rw [l3]; exact h.regular hx0) (by simp)
    obtain ⟨d, rfl⟩ := exists_ofFn l4
    rw [matVec_ofFn l1 l2, l3, List.map_ofFn] at e4
    have hdx : (J x).mulVec d = -φ x := List.ofFn_injective e4
    obtain ⟨p1, p2, p3⟩ := h.step hx hdx
    obtain ⟨s3, e5, i3⟩ := hC.value s2 (x + d) i2
    have hMx : 0 ≤ M * ‖φ x‖ := mul_nonneg h.pos.le (norm_nonneg _)
    have hrun : newtonLoop f df sp ftol xtol (k + 1 + 1) m s (List.ofFn x) =
        if (Flt.lt (Flt.vnorm (List.ofFn (φ (x + d)))) ftol && Flt.lt (Flt.vnorm (List.ofFn d)) xtol) = true then
          .ok (s3, ⟨List.ofFn (x + d), true, m + 1, Flt.vnorm (List.ofFn (φ (x + d))), Flt.vnorm (List.ofFn d)⟩)
        else newtonLoop f df sp ftol xtol (k + 1) (m + 1) s3 (List.ofFn (x + d)) := by
      rw [newtonLoop]
      simp only [e1, py_bind_ok, e2, e3, List.length_ofFn, ne_eq, not_true_eq_false, if_false, vadd_ofFn, e5]
      rfl
    rw [hrun]
    by_cases hc : (Flt.lt (Flt.vnorm (List.ofFn (φ (x + d)))) ftol && Flt.lt (Flt.vnorm (List.ofFn d)) xtol) = true
    · rw [if_pos hc]
      refine ⟨s3, _, x + d, rfl, i3, rfl, rfl, ?_, of_decide_eq_true (Bool.and_eq_true _ _ ▸ hc).1, x, d, rfl, hdx⟩
      rw [add_sub_cancel_left]
      linarith
    · rw [if_neg hc]
      have q1 : (n : ℝ) * ‖φ (x + d)‖ ≤ n * (1 / 2 * ‖φ x‖) := mul_le_mul_of_nonneg_left p2 (by positivity)
      have q2 : M * ‖φ (x + d)‖ ≤ M * (1 / 2 * ‖φ x‖) := mul_le_mul_of_nonneg_left p2 h.pos.le
      have q3 : (n : ℝ) * (2 * (M * ‖φ (x + d)‖)) ≤ n * (2 * (M * (1 / 2 * ‖φ x‖))) :=
        mul_le_mul_of_nonneg_left (by linarith) (by positivity)
      obtain ⟨s', o, y, r1, r2, r3, r4, r5, r6⟩ := ih (m + 1) s3 (x + d) i3 p3
        (by rw [pow_succ] at hf; linarith)
        (by rw [pow_succ] at hxt; linarith)
      refine ⟨s', o, y, r1, r2, r3, r4, ?_, r6⟩
      calc ‖y - x‖ = ‖(y - (x + d)) + d‖ := by congr 1; abel
        _ ≤ ‖y - (x + d)‖ + ‖d‖ := norm_add_le _ _
        _ ≤ _ := by linarith

/-- The same for `newton`, with a bound on the number of iterations. -/
theorem newton_converges {S : Type} {n : Nat} {I : S → Prop} {f : S → List ℝ → Py (S × List ℝ)}
    {df : S → List ℝ → Py (S × List (List ℝ))} {sp : List (List ℝ) → List ℝ → Py (List ℝ)}
    {φ : (Fin n → ℝ) → Fin n → ℝ} {J : (Fin n → ℝ) → Matrix (Fin n) (Fin n) ℝ} (hC : Computes n I f df φ J)
    (hsp : SolvesRegular sp n) {A : (Fin n → ℝ) →L[ℝ] Fin n → ℝ} {c : Fin n → ℝ} {ρ ε M : ℝ} (h : Tame φ J A c ρ ε M)
    {ftol xtol : ℝ} {N : Nat} {nfev : Int} (hN : (N : Int) + 1 ≤ nfev) {s : S} {x : Fin n → ℝ} (hI : I s)
    (hx : ‖x - c‖ + 4 * M * ‖φ x‖ ≤ ρ) (hf : n * ((1 + 2 * M) * ‖φ x‖) < ftol * 2 ^ N)
    (hxt : n * ((1 + 2 * M) * ‖φ x‖) < xtol * 2 ^ N) :
      ∃ s' o y, newton f df sp s (List.ofFn x) nfev ftol xtol = .ok (s', o) ∧ I s' ∧ o.success = true ∧
        o.x = List.ofFn y ∧ ‖y - x‖ ≤ 4 * M * ‖φ x‖ ∧ Flt.vnorm (List.ofFn (φ y)) < ftol ∧
        ∃ u v, y = u + v ∧ (J u).mulVec v = -φ u := by
  obtain ⟨k, hk⟩ : ∃ k : Nat, nfev.toNat = k + 1 := ⟨nfev.toNat - 1, by omega⟩
  have hNk : N ≤ k := by omega
  have h0 : 0 ≤ (n : ℝ) * ((1 + 2 * M) * ‖φ x‖) := by
    have := h.pos
    positivity
  have hpow : (2 : ℝ) ^ N ≤ 2 ^ k := pow_le_pow_right₀ (by norm_num) hNk
  have hNpos : (0 : ℝ) < 2 ^ N := by positivity
  have hft : 0 < ftol := pos_of_mul_pos_left (h0.trans_lt hf) hNpos.le
  have hxt0 : 0 < xtol := pos_of_mul_pos_left (h0.trans_lt hxt) hNpos.le
  have e1 : ftol * 2 ^ N ≤ ftol * 2 ^ k := mul_le_mul_of_nonneg_left hpow hft.le
  have e2 : xtol * 2 ^ N ≤ xtol * 2 ^ k := mul_le_mul_of_nonneg_left hpow hxt0.le
  have e3 : 0 ≤ (n : ℝ) * ‖φ x‖ := by positivity
  have e4 : 0 ≤ (n : ℝ) * (M * ‖φ x‖) := by
    have := h.pos
    positivity
  have e5 : 0 ≤ ftol * 2 ^ k := by positivity
  unfold newton
  rw [hk]
  exact newtonLoop_converges hC hsp h k 0 s x hI hx (by rw [pow_succ]; linarith) (by linarith)

end TrussPy
