import Verif.Spec.Rounded
import Mathlib.Tactic.Linarith
import Mathlib.Tactic.Positivity
import Mathlib.Tactic.FieldSimp
/-!
# Rounded operations on numbers close to given real numbers
-/

set_option linter.unusedSectionVars false

namespace TrussPy

variable {F : Type} [Zero F] [One F] [Add F] [Sub F] [Mul F] [Div F] [Neg F] [Flt F]

/-- `x` stands for `y` up to `C δ`, and `y` is at most `C`. -/
structure Close (val : F → ℝ) (δ C : ℝ) (x : F) (y : ℝ) : Prop where
  err : |val x - y| ≤ C * δ
  bound : |y| ≤ C

/-- How much the constant of `Close` grows in one operation. -/
def grow (C : ℝ) : ℝ := 16 * C ^ 4

/-- The constant after `n` nested operations. -/
def lev (C : ℝ) : Nat → ℝ
  | 0 => C
  | n + 1 => grow (lev C n)

theorem grow_ge {C : ℝ} (hC : 1 ≤ C) : 16 * C ^ 2 ≤ grow C ∧ 16 * C ≤ grow C ∧ 1 ≤ grow C ∧ C ≤ grow C := by
  unfold grow
  have h2 : C ≤ C ^ 2 := by nlinarith
  have h4 : C ^ 2 ≤ C ^ 4 := pow_le_pow_right₀ hC (by norm_num)
  refine ⟨by linarith, by linarith, by linarith, by linarith⟩

theorem lev_ge {C : ℝ} (hC : 1 ≤ C) : ∀ n, 1 ≤ lev C n
  | 0 => hC
  | n + 1 => (grow_ge (lev_ge hC n)).2.2.1

theorem lev_mono {C : ℝ} (hC : 1 ≤ C) {m n : Nat} (h : m ≤ n) : lev C m ≤ lev C n := by
  induction h with
  | refl => exact le_rfl
  | step _ ih => exact ih.trans (grow_ge (lev_ge hC _)).2.2.2

variable {val : F → ℝ} {δ C : ℝ} {x x' : F} {y y' : ℝ}

theorem Close.mono (h : Close val δ C x y) (hδ : 0 ≤ δ) {C' : ℝ} (hC : C ≤ C') : Close val δ C' x y :=
  ⟨h.err.trans (mul_le_mul_of_nonneg_right hC hδ), h.bound.trans hC⟩

/-- A number stands for its value. -/
theorem close_self (hδ : 0 ≤ δ) (hC : |val x| ≤ C) : Close val δ C x (val x) :=
  ⟨by rw [sub_self, abs_zero]; exact mul_nonneg ((abs_nonneg _).trans hC) hδ, hC⟩

section
variable (hR : Rounds val δ) (hC : 1 ≤ C) (hδ : δ * grow C ≤ 1)
include hR hC hδ

theorem small_bounds : δ ≤ 1 ∧ 16 * C * δ ≤ 1 ∧ 16 * C ^ 2 * δ ≤ 1 := by
  have h := grow_ge hC
  have hp := hR.pos
  refine ⟨?_, ?_, ?_⟩
  · have := mul_le_mul_of_nonneg_left h.2.2.1 hp.le
    linarith
  · have := mul_le_mul_of_nonneg_left h.2.1 hp.le
    linarith
  · have := mul_le_mul_of_nonneg_left h.1 hp.le
    linarith

theorem Close.size (h : Close val δ C x y) : |val x| ≤ 2 * C := by
  have hs := small_bounds hR hC hδ
  have h1 : |val x| ≤ |val x - y| + |y| := by
    have := abs_add_le (val x - y) y
    rwa [sub_add_cancel] at this
  have h2 := h.err
  have h3 := h.bound
  have : C * δ ≤ C * 1 := mul_le_mul_of_nonneg_left hs.1 (by linarith)
  linarith

theorem Close.range (h : Close val δ C x y) : |val x| ≤ 1 / δ := by
  refine (h.size hR hC hδ).trans ?_
  rw [le_div_iff₀ hR.pos]
  have := small_bounds hR hC hδ
  have := hR.pos
  nlinarith

theorem Close.add (h : Close val δ C x y) (h' : Close val δ C x' y') : Close val δ (grow C) (x + x') (y + y') := by
  have hp := hR.pos
  have hg := grow_ge hC
  have h1 := hR.add x x' (h.range hR hC hδ) (h'.range hR hC hδ)
  have h2 := h.size hR hC hδ
  have h3 := h'.size hR hC hδ
  have e1 := h.err
  have e2 := h'.err
  refine ⟨?_, (abs_add_le _ _).trans (by linarith [h.bound, h'.bound])⟩
  have h4 : |val (x + x') - (y + y')| ≤ |val (x + x') - (val x + val x')| + (|val x - y| + |val x' - y'|) := by
    have := abs_add_le (val (x + x') - (val x + val x')) ((val x - y) + (val x' - y'))
    have h6 := abs_add_le (val x - y) (val x' - y')
    rw [show val (x + x') - (val x + val x') + ((val x - y) + (val x' - y')) = val (x + x') - (y + y') by ring] at this
    linarith
  have h5 := abs_add_le (val x) (val x')
  have h6 : δ * (1 + |val x + val x'|) ≤ δ * (1 + 4 * C) := mul_le_mul_of_nonneg_left (by linarith) hp.le
  have h7 : (1 + 6 * C) * δ ≤ grow C * δ := mul_le_mul_of_nonneg_right (by linarith) hp.le
  linarith

theorem Close.sub (h : Close val δ C x y) (h' : Close val δ C x' y') : Close val δ (grow C) (x - x') (y - y') := by
  have hp := hR.pos
  have hg := grow_ge hC
  have h1 := hR.sub x x' (h.range hR hC hδ) (h'.range hR hC hδ)
  have h2 := h.size hR hC hδ
  have h3 := h'.size hR hC hδ
  have e1 := h.err
  have e2 := h'.err
  refine ⟨?_, (abs_sub _ _).trans (by linarith [h.bound, h'.bound])⟩
  have h4 : |val (x - x') - (y - y')| ≤ |val (x - x') - (val x - val x')| + (|val x - y| + |val x' - y'|) := by
    have := abs_add_le (val (x - x') - (val x - val x')) ((val x - y) - (val x' - y'))
    have h6 := abs_sub (val x - y) (val x' - y')
    rw [show val (x - x') - (val x - val x') + ((val x - y) - (val x' - y')) = val (x - x') - (y - y') by ring] at this
    linarith
  have h5 := abs_sub (val x) (val x')
  have h6 : δ * (1 + |val x - val x'|) ≤ δ * (1 + 4 * C) := mul_le_mul_of_nonneg_left (by linarith) hp.le
  have h7 : (1 + 6 * C) * δ ≤ grow C * δ := mul_le_mul_of_nonneg_right (by linarith) hp.le
  linarith

theorem Close.mul (h : Close val δ C x y) (h' : Close val δ C x' y') : Close val δ (grow C) (x * x') (y * y') := by
  have hp := hR.pos
  have hg := grow_ge hC
  have h1 := hR.mul x x' (h.range hR hC hδ) (h'.range hR hC hδ)
  have h2 := h.size hR hC hδ
  have h3 := h'.size hR hC hδ
  have e1 := h.err
  have e2 := h'.err
  have b1 := h.bound
  have b2 := h'.bound
  have hxx : |val x * val x'| ≤ 2 * C * (2 * C) := by
    rw [abs_mul]; exact mul_le_mul h2 h3 (abs_nonneg _) (by linarith)
  refine ⟨?_, ?_⟩
  · have h4 : |val (x * x') - y * y'| ≤ |val (x * x') - val x * val x'| + (|val x - y| * |val x'| + |y| * |val x' - y'|) := by
      have := abs_add_le (val (x * x') - val x * val x') ((val x - y) * val x' + y * (val x' - y'))
      have h6 := abs_add_le ((val x - y) * val x') (y * (val x' - y'))
      rw [abs_mul, abs_mul] at h6
      rw [show val (x * x') - val x * val x' + ((val x - y) * val x' + y * (val x' - y')) = val (x * x') - y * y' by ring] at this
      linarith
    have h5 : |val x - y| * |val x'| ≤ C * δ * (2 * C) := mul_le_mul e1 h3 (abs_nonneg _) (by positivity)
    have h6 : |y| * |val x' - y'| ≤ C * (C * δ) := mul_le_mul b1 e2 (abs_nonneg _) (by linarith)
    have h7 : δ * (1 + |val x * val x'|) ≤ δ * (1 + 2 * C * (2 * C)) := mul_le_mul_of_nonneg_left (by linarith) hp.le
    have h8 : (1 + 7 * C ^ 2) * δ ≤ grow C * δ := mul_le_mul_of_nonneg_right (by nlinarith) hp.le
    nlinarith
  · rw [abs_mul]
    have := mul_le_mul b1 b2 (abs_nonneg _) (by linarith : (0 : ℝ) ≤ C)
    nlinarith

theorem Close.neg (h : Close val δ C x y) : Close val δ C (-x) (-y) := by
  refine ⟨?_, by rw [abs_neg]; exact h.bound⟩
  rw [hR.neg x (h.range hR hC hδ), neg_sub_neg, abs_sub_comm]
  exact h.err

theorem Close.div (h : Close val δ C x y) (h' : Close val δ C x' y') (hy : 1 ≤ C * |y'|) :
    Close val δ (grow C) (x / x') (y / y') := by
  have hp := hR.pos
  have hg := grow_ge hC
  have hs := small_bounds hR hC hδ
  have hC0 : 0 < C := by linarith
  have e1 := h.err
  have e2 := h'.err
  have b1 := h.bound
  have b2 := h'.bound
  have s1 := h.size hR hC hδ
  have hy0 : 0 < |y'| := by
    rcases (abs_nonneg y').lt_or_eq with h | h
    · exact h
    · rw [← h] at hy; linarith
  have hlow : 1 ≤ 2 * C * |val x'| := by
    have h1 : |y'| ≤ |val x'| + |val x' - y'| := by
      have := abs_sub (val x') (val x' - y')
      rwa [sub_sub_cancel] at this
    have h2 : C * |y'| ≤ C * (|val x'| + C * δ) := mul_le_mul_of_nonneg_left (by linarith) hC0.le
    nlinarith
  have hv0 : 0 < |val x'| := by
    rcases (abs_nonneg (val x')).lt_or_eq with h | h
    · exact h
    · rw [← h] at hlow; linarith
  have hδv : δ ≤ |val x'| := by
    have h1 : δ * (16 * C) ≤ |val x'| * (16 * C) := by nlinarith
    exact le_of_mul_le_mul_right h1 (by linarith)
  have h1 := hR.div x x' (h.range hR hC hδ) (h'.range hR hC hδ) hδv
  have hq : |val x / val x'| ≤ 4 * C ^ 2 := by
    rw [abs_div, div_le_iff₀ hv0]
    nlinarith
  have hyq : |y / y'| ≤ C ^ 2 := by
    rw [abs_div, div_le_iff₀ hy0]
    nlinarith
  have hd : |val x / val x' - y / y'| ≤ 4 * C ^ 4 * δ := by
    have h0 : val x / val x' - y / y' = (val x - y) / val x' + (y / y') * ((y' - val x') / val x') := by
      have h1 : val x' ≠ 0 := abs_pos.1 hv0
      have h2 : y' ≠ 0 := abs_pos.1 hy0
      field_simp
      ring
    have h2 : |(val x - y) / val x'| ≤ 2 * C ^ 2 * δ := by
      rw [abs_div, div_le_iff₀ hv0]
      have := mul_le_mul_of_nonneg_left hlow (by positivity : 0 ≤ C * δ)
      nlinarith
    have h3 : |(y' - val x') / val x'| ≤ 2 * C ^ 2 * δ := by
      rw [abs_div, div_le_iff₀ hv0, abs_sub_comm]
      have := mul_le_mul_of_nonneg_left hlow (by positivity : 0 ≤ C * δ)
      nlinarith
    have h4 : |(y / y') * ((y' - val x') / val x')| ≤ C ^ 2 * (2 * C ^ 2 * δ) := by
      rw [abs_mul]
      exact mul_le_mul hyq h3 (abs_nonneg _) (by positivity)
    have h5 : C ^ 2 * δ ≤ C ^ 4 * δ := mul_le_mul_of_nonneg_right (pow_le_pow_right₀ hC (by norm_num)) hp.le
    rw [h0]
    refine (abs_add_le _ _).trans ?_
    nlinarith
  have hC4 : C ^ 2 ≤ C ^ 4 := pow_le_pow_right₀ hC (by norm_num)
  have hC2 : 1 ≤ C ^ 2 := one_le_pow₀ hC
  refine ⟨?_, hyq.trans (by unfold grow; linarith)⟩
  have h2 : |val (x / x') - y / y'| ≤ |val (x / x') - val x / val x'| + |val x / val x' - y / y'| := by
    have := abs_add_le (val (x / x') - val x / val x') (val x / val x' - y / y')
    rwa [sub_add_sub_cancel] at this
  have h3 : δ * (1 + |val x / val x'|) ≤ δ * (1 + 4 * C ^ 2) := mul_le_mul_of_nonneg_left (by linarith) hp.le
  have h4 : (1 + 4 * C ^ 2 + 4 * C ^ 4) * δ ≤ grow C * δ := mul_le_mul_of_nonneg_right (by unfold grow; linarith) hp.le
  nlinarith

theorem Close.sqrt (h : Close val δ C x y) (hy : 1 ≤ C * y) : Close val δ (grow C) (Flt.sqrt x) (√y) := by
  have hp := hR.pos
  have hg := grow_ge hC
  have hs := small_bounds hR hC hδ
  have hC0 : 0 < C := by linarith
  have e1 := h.err
  have b1 := h.bound
  have s1 := h.size hR hC hδ
  have hy0 : 0 < y := by
    by_contra hn
    have := mul_nonpos_of_nonneg_of_nonpos hC0.le (not_lt.1 hn)
    linarith
  have hx0 : 0 < val x := by
    have h1 := (abs_le.1 e1).1
    have h2 : C * (C * δ) ≤ 1 / 16 := by nlinarith
    have h3 : 0 < C * val x := by
      have := mul_le_mul_of_nonneg_left h1 hC0.le
      nlinarith
    exact (mul_pos_iff_of_pos_left hC0).1 h3
  have hr := h.range hR hC hδ
  rw [abs_of_pos hx0] at hr s1
  have h1 := hR.sqrt x hx0.le hr
  have hsx : √(val x) ≤ 2 * C := by
    rw [Real.sqrt_le_left (by linarith)]
    nlinarith
  have hsy : √y ≤ C := by
    rw [Real.sqrt_le_left hC0.le]
    have := (le_abs_self y).trans b1
    nlinarith
  have hsy1 : 1 ≤ C * √y := by
    have h2 : 1 ≤ (C * √y) ^ 2 := by
      rw [mul_pow, Real.sq_sqrt hy0.le]
      nlinarith
    by_contra hn
    have h3 : 0 ≤ C * √y := by positivity
    nlinarith [not_le.1 hn]
  have hd : |√(val x) - √y| ≤ C ^ 2 * δ := by
    have hsq : (√(val x) - √y) * (√(val x) + √y) = val x - y := by
      have h3 := Real.mul_self_sqrt hx0.le
      have h4 := Real.mul_self_sqrt hy0.le
      linear_combination h3 - h4
    have h3 : |√(val x) - √y| * √y ≤ C * δ := by
      calc |√(val x) - √y| * √y ≤ |√(val x) - √y| * |√(val x) + √y| := by
            refine mul_le_mul_of_nonneg_left ?_ (abs_nonneg _)
            rw [abs_of_nonneg (by positivity)]
            have := Real.sqrt_nonneg (val x)
            linarith
        _ = |val x - y| := by rw [← abs_mul, hsq]
        _ ≤ _ := e1
    have h4 := mul_le_mul_of_nonneg_left hsy1 (abs_nonneg (√(val x) - √y))
    nlinarith
  refine ⟨?_, by rw [abs_of_nonneg (Real.sqrt_nonneg _)]; linarith⟩
  have h2 : |val (Flt.sqrt x) - √y| ≤ |val (Flt.sqrt x) - √(val x)| + |√(val x) - √y| := by
    have := abs_add_le (val (Flt.sqrt x) - √(val x)) (√(val x) - √y)
    rwa [sub_add_sub_cancel] at this
  have h3 : δ * (1 + √(val x)) ≤ δ * (1 + 2 * C) := mul_le_mul_of_nonneg_left (by linarith) hp.le
  have h4 : (1 + 2 * C + C ^ 2) * δ ≤ grow C * δ := mul_le_mul_of_nonneg_right (by nlinarith) hp.le
  nlinarith

theorem close_zero : Close val δ C (0 : F) 0 := by
  refine ⟨by rw [hR.zero, sub_self, abs_zero]; exact mul_nonneg (by linarith) hR.pos.le, by rw [abs_zero]; linarith⟩

theorem close_one : Close val δ C (1 : F) 1 := by
  refine ⟨by rw [hR.one, sub_self, abs_zero]; exact mul_nonneg (by linarith) hR.pos.le, by rw [abs_one]; exact hC⟩

end

end TrussPy
