import Verif.Instances
import Verif.Material
import Verif.Lemmas.NumPy
import Verif.Spec.Plasticity
import Mathlib.Tactic.Ring
import Mathlib.Tactic.Linarith
import Mathlib.Tactic.FieldSimp
import Mathlib.Tactic.Positivity
/-!
# The material law is the textbook return mapping
-/

namespace TrussPy

open Spec

theorem npSign_real (x : ℝ) : npSign x = Real.sign x := by
  unfold npSign
  simp only [Flt.sgn]
  rcases lt_trichotomy x 0 with h | h | h
  · rw [if_pos h, Real.sign_of_neg h]
    simp [Flt.ofInt]
  · subst h
    simp [Flt.ofInt]
  · rw [if_neg (not_lt.2 h.le), if_neg h.ne', Real.sign_of_pos h]
    simp [Flt.ofInt]

theorem sign_mul_abs' (x : ℝ) : Real.sign x * |x| = x := by
  rcases lt_trichotomy x 0 with h | h | h
  · rw [Real.sign_of_neg h, abs_of_neg h]; ring
  · subst h; simp
  · rw [Real.sign_of_pos h, abs_of_pos h]; ring

theorem flow_elastic {c : Plastic} (hc : c.Valid) {Y p e : ℝ} (h : |c.E * (e - p)| ≤ Y) : flow c Y p e = 0 := by
  unfold flow
  apply max_eq_left
  have : 0 < c.E + c.K := by have := hc.E; have := hc.K; linarith
  apply div_nonpos_of_nonpos_of_nonneg <;> linarith

theorem flow_plastic {c : Plastic} (hc : c.Valid) {Y p e : ℝ} (h : Y ≤ |c.E * (e - p)|) :
    flow c Y p e = (|c.E * (e - p)| - Y) / (c.E + c.K) := by
  unfold flow
  apply max_eq_right
  have : 0 < c.E + c.K := by have := hc.E; have := hc.K; linarith
  apply div_nonneg <;> linarith

theorem flow_nonneg (c : Plastic) (Y p e : ℝ) : 0 ≤ flow c Y p e := le_max_left _ _

/-- Closed form of the law on real numbers. -/
theorem umat_real {c : Plastic} (hc : c.Valid) (rest : List ℝ) (e de y p : ℝ) {Y : ℝ}
    (hY : Y = if y = 0 then c.Sy else y) (hpos : 0 ≤ Y) (more : List ℝ := []) :
    umatElplastIso e de (c.E :: c.K :: c.Sy :: rest) (some (y :: p :: more)) =
      .ok ⟨c.E * (e - newP c Y p e),
        if |c.E * (e - p)| ≤ Y then c.E else c.E * c.K / (c.E + c.K), 0,
        some (newY c Y p e :: newP c Y p e :: more)⟩ := by
  have hEK : 0 < c.E + c.K := by have := hc.E; have := hc.K; linarith
  have g0 : pyGet (c.E :: c.K :: c.Sy :: rest) 0 = .ok c.E := rfl
  have g1 : pyGet (c.E :: c.K :: c.Sy :: rest) 1 = .ok c.K := pyGet_ok_nat (i := 1).2 rfl
  have g2 : pyGet (c.E :: c.K :: c.Sy :: rest) 2 = .ok c.Sy := pyGet_ok_nat (i := 2).2 rfl
  have s0 : pyGet (y :: p :: more) 0 = .ok y := rfl
  have s1 : pyGet (y :: p :: more) 1 = .ok p := pyGet_ok_nat (i := 1).2 rfl
  unfold umatElplastIso
  simp only [g0, g1, g2, s0, s1, py_bind_ok]
  have hy : (if Flt.eq y 0 = true then c.Sy else y) = Y := by
    rw [hY]
    simp [Flt.eq]
  rw [hy]
  by_cases h : |c.E * (e - p)| ≤ Y
  · have hle : Flt.le (Flt.abs (c.E * (e - p)) - Y) 0 = true := by
      simp only [Flt.le, Flt.abs, decide_eq_true_eq]; linarith
    rw [if_pos hle]
    rw [if_pos h]
    simp [newP, newY, flow_elastic hc h]
  · have hlt := not_le.1 h
    have hle : Flt.le (Flt.abs (c.E * (e - p)) - Y) 0 = false := by
      simp only [Flt.le, Flt.abs, decide_eq_false_iff_not]; linarith
    rw [hle]
    have hs : 0 < |c.E * (e - p)| := lt_of_le_of_lt hpos hlt
    simp only [Bool.false_eq_true, if_false, npSign_real, newP, newY, flow_plastic hc hlt.le, h,
      List.set_cons_zero, List.set_cons_succ, Flt.abs, py_pure]
    congr 2
    have hs' := sign_mul_abs' (c.E * (e - p))
    have hr : ∀ d : ℝ, c.E * (e - (p + d * (c.E * (e - p)).sign)) =
        c.E * (e - p) - d * c.E * (c.E * (e - p)).sign := fun d => by ring
    rw [hr]
    generalize c.E * (e - p) = σ at *
    have hdiv : σ / |σ| = Real.sign σ := by rw [div_eq_iff hs.ne']; exact hs'.symm
    rw [← hdiv]
    ring

/-- The stress after the update, and the yield condition. -/
theorem abs_stress_le {c : Plastic} (hc : c.Valid) {Y p e : ℝ} (hY : 0 ≤ Y) :
    |c.E * (e - newP c Y p e)| ≤ newY c Y p e ∧
      (flow c Y p e ≠ 0 → |c.E * (e - newP c Y p e)| = newY c Y p e) := by
  have hEK : 0 < c.E + c.K := by have := hc.E; have := hc.K; linarith
  by_cases h : |c.E * (e - p)| ≤ Y
  · simp only [newP, newY, flow_elastic hc h, zero_mul, mul_zero, add_zero]
    exact ⟨h, fun h => absurd rfl h⟩
  · have hlt := not_le.1 h
    have hs : 0 < |c.E * (e - p)| := lt_of_le_of_lt hY hlt
    have key : |c.E * (e - newP c Y p e)| = newY c Y p e := by
      simp only [newP, newY, flow_plastic hc hlt.le]
      have hs' := sign_mul_abs' (c.E * (e - p))
      have hr : ∀ d : ℝ, c.E * (e - (p + d * (c.E * (e - p)).sign)) =
          c.E * (e - p) - d * c.E * (c.E * (e - p)).sign := fun d => by ring
      rw [hr]
      generalize c.E * (e - p) = σ at *
      have hab : |σ - (|σ| - Y) / (c.E + c.K) * c.E * σ.sign| = |σ| - (|σ| - Y) / (c.E + c.K) * c.E := by
        have h1 : σ - (|σ| - Y) / (c.E + c.K) * c.E * σ.sign =
            σ.sign * (|σ| - (|σ| - Y) / (c.E + c.K) * c.E) := by
          rcases lt_trichotomy σ 0 with h | h | h
          · rw [Real.sign_of_neg h, abs_of_neg h]
            ring
          · subst h; simp at hs
          · rw [Real.sign_of_pos h, abs_of_pos h]
            ring
        have h2 : 0 ≤ |σ| - (|σ| - Y) / (c.E + c.K) * c.E := by
          have : (|σ| - Y) / (c.E + c.K) * c.E ≤ |σ| - Y := by
            rw [div_mul_eq_mul_div, div_le_iff₀ hEK]
            have := hc.K
            nlinarith
          linarith
        rw [h1, abs_mul, abs_of_nonneg h2]
        rcases lt_trichotomy σ 0 with h | h | h
        · rw [Real.sign_of_neg h]; simp
        · subst h; simp at hs
        · rw [Real.sign_of_pos h]; simp
      rw [hab]
      field_simp
      ring
    exact ⟨key.le, fun _ => key⟩

theorem newY_ge {c : Plastic} (hc : c.Valid) (Y p e : ℝ) : Y ≤ newY c Y p e := by
  unfold newY
  have := mul_nonneg hc.K (flow_nonneg c Y p e)
  linarith

theorem sign_sq_ne {x : ℝ} (h : x ≠ 0) : |Real.sign x| = 1 := by
  rcases lt_or_gt_of_ne h with h | h
  · rw [Real.sign_of_neg h]; simp
  · rw [Real.sign_of_pos h]; simp

/-- The plastic strain increment has absolute value `flow`. -/
theorem abs_newP_sub {c : Plastic} (hc : c.Valid) {Y p e : ℝ} (hY : 0 ≤ Y) : |newP c Y p e - p| = flow c Y p e := by
  have hf := flow_nonneg c Y p e
  unfold newP
  rw [add_sub_cancel_left, abs_mul, abs_of_nonneg hf]
  by_cases h : c.E * (e - p) = 0
  · have : flow c Y p e = 0 := flow_elastic hc (by rw [h]; simpa using hY)
    rw [this]; ring
  · rw [sign_sq_ne h, mul_one]

theorem newP_ne_iff {c : Plastic} (hc : c.Valid) {Y p e : ℝ} (hY : 0 ≤ Y) : newP c Y p e ≠ p ↔ flow c Y p e ≠ 0 := by
  rw [← abs_newP_sub hc hY, ne_eq, ne_eq, abs_eq_zero, sub_eq_zero]

/-- Two monotone updates are one, in the direction of increasing strain. -/
theorem two_steps_up {c : Plastic} (hc : c.Valid) {Y p e0 e1 e2 : ℝ} (hY : 0 < Y)
    (h0 : |c.E * (e0 - p)| ≤ Y) (h01 : e0 ≤ e1) (h12 : e1 ≤ e2) :
    newP c (newY c Y p e1) (newP c Y p e1) e2 = newP c Y p e2 ∧
    newY c (newY c Y p e1) (newP c Y p e1) e2 = newY c Y p e2 := by
  have hE := hc.E
  have hEK : 0 < c.E + c.K := by have := hc.K; linarith
  by_cases h : |c.E * (e1 - p)| ≤ Y
  · have : newP c Y p e1 = p := by simp [newP, flow_elastic hc h]
    have h2 : newY c Y p e1 = Y := by simp [newY, flow_elastic hc h]
    rw [this, h2]
    exact ⟨rfl, rfl⟩
  · have hlt := not_le.1 h
    have hlow := (abs_le.1 h0).1
    have h1 : Y < c.E * (e1 - p) := by
      rcases lt_abs.1 hlt with h | h
      · exact h
      · nlinarith
    have hp1 : 0 < c.E * (e1 - p) := by linarith
    have hD : flow c Y p e1 = (c.E * (e1 - p) - Y) / (c.E + c.K) := by
      rw [flow_plastic hc hlt.le, abs_of_pos hp1]
    have hY1pos : 0 < newY c Y p e1 := lt_of_lt_of_le hY (newY_ge hc _ _ _)
    have hp : newP c Y p e1 = p + flow c Y p e1 := by
      unfold newP; rw [Real.sign_of_pos hp1, mul_one]
    have h12' : c.E * (e1 - p) ≤ c.E * (e2 - p) := by nlinarith
    have hp2 : 0 < c.E * (e2 - p) := by linarith
    have hab2 : Y ≤ |c.E * (e2 - p)| := by rw [abs_of_pos hp2]; linarith
    have hD2 : flow c Y p e2 = (c.E * (e2 - p) - Y) / (c.E + c.K) := by
      rw [flow_plastic hc hab2, abs_of_pos hp2]
    -- stress at e1
    have hs1 : c.E * (e1 - newP c Y p e1) = newY c Y p e1 := by
      rw [hp]; unfold newY; rw [hD]; field_simp; ring
    have hs2 : newY c Y p e1 ≤ c.E * (e2 - newP c Y p e1) := by
      rw [← hs1]; nlinarith
    have hs2p : 0 < c.E * (e2 - newP c Y p e1) := by linarith
    have hD3 : flow c (newY c Y p e1) (newP c Y p e1) e2 = flow c Y p e2 - flow c Y p e1 := by
      rw [flow_plastic hc (by rw [abs_of_pos hs2p]; exact hs2), abs_of_pos hs2p, hD2, hp]
      unfold newY
      rw [hD]
      field_simp
      ring
    constructor
    · have hd : ∀ Y p e, newP c Y p e = p + flow c Y p e * Real.sign (c.E * (e - p)) := fun _ _ _ => rfl
      rw [hd, hD3, Real.sign_of_pos hs2p, hp]
      unfold newP
      rw [Real.sign_of_pos hp2]
      ring
    · have hd : ∀ Y p e, newY c Y p e = Y + c.K * flow c Y p e := fun _ _ _ => rfl
      rw [hd, hD3]
      unfold newY
      ring

theorem flow_neg (c : Plastic) (Y p e : ℝ) : flow c Y (-p) (-e) = flow c Y p e := by
  unfold flow
  have : c.E * (-e - -p) = -(c.E * (e - p)) := by ring
  rw [this, abs_neg]

theorem newY_neg (c : Plastic) (Y p e : ℝ) : newY c Y (-p) (-e) = newY c Y p e := by
  unfold newY; rw [flow_neg]

theorem newP_neg (c : Plastic) (Y p e : ℝ) : newP c Y (-p) (-e) = -newP c Y p e := by
  unfold newP
  rw [flow_neg]
  have : c.E * (-e - -p) = -(c.E * (e - p)) := by ring
  rw [this, Real.sign_neg]
  ring

/-- Two monotone updates are one, in the direction of decreasing strain. -/
theorem two_steps_down {c : Plastic} (hc : c.Valid) {Y p e0 e1 e2 : ℝ} (hY : 0 < Y)
    (h0 : |c.E * (e0 - p)| ≤ Y) (h01 : e1 ≤ e0) (h12 : e2 ≤ e1) :
    newP c (newY c Y p e1) (newP c Y p e1) e2 = newP c Y p e2 ∧
    newY c (newY c Y p e1) (newP c Y p e1) e2 = newY c Y p e2 := by
  have := two_steps_up hc (Y := Y) (p := -p) (e0 := -e0) (e1 := -e1) (e2 := -e2) hY
    (by have : c.E * (-e0 - -p) = -(c.E * (e0 - p)) := by ring
        rw [this, abs_neg]; exact h0) (by linarith) (by linarith)
  rw [newY_neg, newP_neg, newP_neg, newP_neg, newY_neg, newY_neg] at this
  exact ⟨neg_injective this.1, this.2⟩

end TrussPy
