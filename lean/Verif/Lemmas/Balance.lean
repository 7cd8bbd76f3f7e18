import Verif.Spec.Work
import Verif.Props.Energy
import Mathlib.Algebra.BigOperators.Field
/-!
# Lemmas on the energy balance (C119)
-/

set_option linter.unusedSectionVars false

namespace TrussPy

theorem axis_sub (b : Bar ℝ) (a a' : Analysis ℝ) (d : Fin 3) :
    b.axis a'.U d - b.axis a.U d = moved a a' b.iE d - moved a a' b.iA d := by
  unfold Bar.axis moved
  ring

/-- The scalar product of two axes, by their lengths and their distance. -/
theorem inner_axes (x y : V3 ℝ) : 2 * (x 0 * y 0 + x 1 * y 1 + x 2 * y 2) =
    len x ^ 2 + len y ^ 2 - len (fun d => y d - x d) ^ 2 := by
  rw [len_sq, len_sq, len_sq]
  ring

theorem elongation_before {b : Bar ℝ} {a a' : Analysis ℝ} (h : len (b.axis a.U) ≠ 0) :
    b.elongation a.U (moved a a') = b.longer a a' - b.turned a a' / (2 * len (b.axis a.U)) := by
  have e := inner_axes (b.axis a.U) (b.axis a'.U)
  have e0 := len_sq (b.axis a.U)
  unfold Bar.elongation Bar.turned Bar.longer
  simp only [← axis_sub, Fin.sum_univ_three, Bar.dir]
  generalize hq : len (fun d => b.axis a'.U d - b.axis a.U d) = q at *
  generalize b.axis a.U = x at *
  generalize b.axis a'.U = y at *
  generalize len x = l at *
  generalize len y = l' at *
  field_simp
  linear_combination e + 2 * e0

theorem elongation_after {b : Bar ℝ} {a a' : Analysis ℝ} (h : len (b.axis a'.U) ≠ 0) :
    b.elongation a'.U (moved a a') = b.longer a a' + b.turned a a' / (2 * len (b.axis a'.U)) := by
  have e := inner_axes (b.axis a.U) (b.axis a'.U)
  have e0 := len_sq (b.axis a'.U)
  unfold Bar.elongation Bar.turned Bar.longer
  simp only [← axis_sub, Fin.sum_univ_three, Bar.dir]
  generalize hq : len (fun d => b.axis a'.U d - b.axis a.U d) = q at *
  generalize b.axis a.U = x at *
  generalize b.axis a'.U = y at *
  generalize len x = l at *
  generalize len y = l' at *
  field_simp
  linear_combination -2 * e0 - e

theorem turned_nonneg (b : Bar ℝ) (a a' : Analysis ℝ) : 0 ≤ b.turned a a' := by
  unfold Bar.turned Bar.longer
  have e := inner_axes (b.axis a.U) (b.axis a'.U)
  have e0 := len_sq (b.axis a.U)
  have e1 := len_sq (b.axis a'.U)
  have n0 := len_nonneg (b.axis a.U)
  have n1 := len_nonneg (b.axis a'.U)
  generalize len (fun d => b.axis a'.U d - b.axis a.U d) = q at *
  generalize b.axis a.U = x at *
  generalize b.axis a'.U = y at *
  have cs : (x 0 * y 0 + x 1 * y 1 + x 2 * y 2) ^ 2 ≤ (len x * len y) ^ 2 := by
    rw [mul_pow, e0, e1]
    nlinarith [sq_nonneg (x 0 * y 1 - x 1 * y 0), sq_nonneg (x 0 * y 2 - x 2 * y 0), sq_nonneg (x 1 * y 2 - x 2 * y 1)]
  have h := abs_le_of_sq_le_sq cs (mul_nonneg n0 n1)
  have h2 := (abs_le.1 h).2
  nlinarith

theorem sum_zip (U : List ℝ) (v : Nat → V3 ℝ) {bars : List (Bar ℝ)} {xs : List BarRes} (h : xs.length = bars.length)
    {a : Analysis ℝ} (ha : a.elementForce = xs.map (·.force)) :
    ((bars.zip xs).map fun p => p.2.force * p.1.elongation U v).sum =
      ∑ i : Fin bars.length, barForce a i * bars[i].elongation U v := by
  rw [← List.sum_ofFn]
  congr 1
  apply List.ext_getElem
  · simp [h]
  · intro i h1 h2
    simp only [List.getElem_map, List.getElem_zip, List.getElem_ofFn]
    have hi : i < xs.length := by simp at h2; omega
    have : barForce a i = xs[i].force := by
      unfold barForce
      rw [ha]
      simp [List.getD_eq_getElem?_getD, hi]
    simp only [this]
    rfl

/-- Both virtual work equations of an increment give the work of the bar forces. -/
theorem trapezoid {n : Nat} {bars : List (Bar ℝ)} {a a' : Analysis ℝ} {P P' : Nat → V3 ℝ} {t : ℝ} (hs : Spread bars a)
    (hs' : Spread bars a')
    (h : |work n P (moved a a') - ∑ i : Fin bars.length, barForce a i * bars[i].elongation a.U (moved a a')| ≤ t)
    (h' : |work n P' (moved a a') - ∑ i : Fin bars.length, barForce a' i * bars[i].elongation a'.U (moved a a')| ≤ t) :
    |work n (fun i d => (P i d + P' i d) / 2) (moved a a') -
        ∑ i : Fin bars.length, (barForce a i + barForce a' i) / 2 * bars[i].longer a a'| ≤ turnError bars a a' + t := by
  have hw : work n (fun i d => (P i d + P' i d) / 2) (moved a a') = (work n P (moved a a') + work n P' (moved a a')) / 2 := by
    unfold work
    rw [← Finset.sum_add_distrib, Finset.sum_div]
    refine Finset.sum_congr rfl fun i _ => ?_
    rw [← Finset.sum_add_distrib, Finset.sum_div]
    refine Finset.sum_congr rfl fun d _ => ?_
    ring
  have hsum : (∑ i : Fin bars.length, barForce a i * bars[i].elongation a.U (moved a a') +
      ∑ i : Fin bars.length, barForce a' i * bars[i].elongation a'.U (moved a a')) / 2 =
      ∑ i : Fin bars.length, (barForce a i + barForce a' i) / 2 * bars[i].longer a a' +
      ∑ i : Fin bars.length, bars[i].turned a a' / 4 *
        (barForce a' i / len (bars[i].axis a'.U) - barForce a i / len (bars[i].axis a.U)) := by
    rw [← Finset.sum_add_distrib, ← Finset.sum_add_distrib, Finset.sum_div]
    refine Finset.sum_congr rfl fun i _ => ?_
    have n0 := hs bars[i] (List.getElem_mem _)
    have n1 := hs' bars[i] (List.getElem_mem _)
    rw [elongation_before n0, elongation_after n1]
    field_simp
    ring
  have herr : |∑ i : Fin bars.length, bars[i].turned a a' / 4 *
        (barForce a' i / len (bars[i].axis a'.U) - barForce a i / len (bars[i].axis a.U))| ≤ turnError bars a a' := by
    refine (Finset.abs_sum_le_sum_abs _ _).trans (Finset.sum_le_sum fun i _ => ?_)
    rw [abs_mul, abs_of_nonneg (by have := turned_nonneg bars[i] a a'; positivity)]
  rw [hw]
  rw [abs_le] at h h' herr ⊢
  constructor <;> linarith [h.1, h.2, h'.1, h'.2, herr.1, herr.2]

/-- Energy of bars whose force is elastic in the strain without its plastic part. -/
theorem work_split {c : Ctx ℝ} {bars : List (Bar ℝ)} {a a' : Analysis ℝ} (href : ∀ b ∈ bars, len b.ref ≠ 0)
    (h : ∀ i : Fin bars.length, barForce a i = bars[i].E * bars[i].area * (bars[i].stretch a.U - 1 - bars[i].plasticStrain c i a))
    (h' : ∀ i : Fin bars.length, barForce a' i =
      bars[i].E * bars[i].area * (bars[i].stretch a'.U - 1 - bars[i].plasticStrain c i a')) :
    ∑ i : Fin bars.length, (barForce a i + barForce a' i) / 2 * bars[i].longer a a' =
      storedEnergy c bars a' - storedEnergy c bars a + plasticWork c bars a a' := by
  unfold storedEnergy plasticWork
  rw [← Finset.sum_sub_distrib, ← Finset.sum_add_distrib]
  refine Finset.sum_congr rfl fun i _ => ?_
  have hr := href bars[i] (List.getElem_mem _)
  rw [h i, h' i]
  unfold Bar.longer Bar.stretch
  field_simp
  ring

end TrussPy
