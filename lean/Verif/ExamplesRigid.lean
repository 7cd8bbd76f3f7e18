import Verif.ExamplesValid
import Verif.Spec.Rigid
import Mathlib.Tactic.FinCases
/-!
# A stable and an unstable truss, used in the examples beside the theorems
-/

namespace TrussPy

theorem rbStiff : StiffElems rbInput rbElems where
  length := by
    intro e he nA hA nE hE hc hcoord
    simp only [rbElems, List.mem_singleton] at he
    subst he
    simp only [List.cons.injEq, and_true] at hc
    simp only [rbInput, List.mem_cons, List.not_mem_nil, or_false] at hA hE
    rcases hA with rfl | rfl <;> rcases hE with rfl | rfl <;> simp at hc hcoord
  area := by
    intro e he
    simp only [rbElems, List.mem_singleton] at he
    subst he
    exact ⟨1, [], rfl, one_pos⟩
  elastic := by
    intro e he _
    simp only [rbElems, List.mem_singleton] at he
    subst he
    exact ⟨1, [], rfl, one_pos⟩
  plastic := by
    intro e he h
    simp only [rbElems, List.mem_singleton] at he
    subst he
    cases h

/-- The bar whose free node can only move along the bar is stable. -/
theorem rbStable : KinematicallyStable rbInput rbElems := by
  intro v hadm hin n hn d
  have h1 := hadm ⟨1, [0, 0, 0]⟩ (by simp [rbInput])
  have h2 := hadm ⟨2, [1, 0, 0]⟩ (by simp [rbInput])
  have hx := hin ⟨1, [1, 2], 1, 1, ⟨false, [1]⟩, ⟨false, [1]⟩⟩ (by simp [rbElems]) ⟨1, [0, 0, 0]⟩ (by simp [rbInput])
    ⟨2, [1, 0, 0]⟩ (by simp [rbInput]) rfl
  have a0 : v 1 0 = 0 := h1 0 (by decide)
  have a1 : v 1 1 = 0 := h1 1 (by decide)
  have a2 : v 1 2 = 0 := h1 2 (by decide)
  have b1 : v 2 1 = 0 := h2 1 (by decide)
  have b2 : v 2 2 = 0 := h2 2 (by decide)
  have b0 : v 2 0 = 0 := by
    simpa [inner3, a0, a1, a2, b1, b2] using hx
  simp only [rbInput, List.mem_cons, List.not_mem_nil, or_false] at hn
  rcases hn with rfl | rfl <;> fin_cases d <;> assumption

/-- The same bar, node 2 also free in y. -/
def mbInput : UserInput ℝ := { rbInput with bounds := [⟨1, [0, 0, 0]⟩, ⟨2, [1, 1, 0]⟩] }

noncomputable def mbModel : Model ℝ := { rbModel with bounds := some ⟨[1, 2], .d2 ⟨3, [[0, 0, 0], [1, 1, 0]]⟩⟩ }

theorem mbEntered : Entered mbInput mbModel := ⟨rfl, rfl, rfl⟩

theorem mbEnteredElems : EnteredElems rbElems mbModel := rfl

theorem mbStiff : StiffElems mbInput rbElems := ⟨rbStiff.length, rbStiff.area, rbStiff.elastic, rbStiff.plastic⟩

theorem mbValid : ValidInput mbInput rbElems mbModel.settings.nsteps where
  posed := ⟨rbValid.posed.nodes, rbValid.posed.elems, rbValid.posed.coords, rbValid.posed.joins, rbValid.posed.law⟩
  props := rbValid.props
  elems := rbValid.elems
  supports := by simp [mbInput, rbInput]
  supportsOnce := by decide
  supportsAt := by simp [mbInput, rbInput]
  loads := rbValid.loads
  loadsOnce := rbValid.loadsOnce
  loadsAt := rbValid.loadsAt
  width := by decide
  free := by decide

/-- It is a mechanism: node 2 can move in y. -/
theorem mbUnstable : ¬KinematicallyStable mbInput rbElems := by
  intro h
  have := h (fun l d => if l = 2 ∧ d = 1 then 1 else 0) ?_ ?_ ⟨2, [1, 0, 0]⟩ (by simp [mbInput, rbInput]) 1
  · simp at this
  · intro n hn d hd
    simp only [mbInput, rbInput, List.mem_cons, List.not_mem_nil, or_false] at hn
    rcases hn with rfl | rfl
    · by_cases h1 : d = 1
      · subst h1
        exact absurd (by decide) hd
      · simp [h1]
    · simp
  · intro e he nA hA nE hE hc
    simp only [rbElems, List.mem_singleton] at he
    subst he
    simp only [List.cons.injEq, and_true] at hc
    simp only [mbInput, rbInput, List.mem_cons, List.not_mem_nil, or_false] at hA hE
    rcases hA with rfl | rfl <;> rcases hE with rfl | rfl <;> simp at hc
    simp [inner3]

/-- The settings C73 asks for exist for all step widths. -/
theorem smallSteps_exist (s : Settings ℝ) {t du dl : ℝ} (ht : 0 < t) (hdu : 0 < du) (hdl : 0 < dl) (C : ℝ) :
    ∃ (xtol ftol nfev : Int), SmallSteps { s with
      du := t * du, dlpf := t * dl, jFixed := false, jPre := true, j0 := none, xtol := xtol, ftol := ftol, nfev := nfev }
      t du dl s.dxtol C := by
  obtain ⟨k, hk⟩ := exists_pow_lt_of_lt_one (lt_min (mul_pos ht hdu) (mul_pos ht hdl)) (show (10 : ℝ)⁻¹ < 1 by norm_num)
  have hp : (Flt.pow10neg (k : Int) : ℝ) = (10 : ℝ)⁻¹ ^ k := by
    show (10 : ℝ) ^ (-(k : Int)) = _
    rw [zpow_neg, zpow_natCast, inv_pow]
  have hpos : (0 : ℝ) < (10 : ℝ)⁻¹ ^ k := by positivity
  obtain ⟨N, hN⟩ := pow_unbounded_of_one_lt (C * t / (10 : ℝ)⁻¹ ^ k) (show (1 : ℝ) < 2 by norm_num)
  have hN' : C * t < (10 : ℝ)⁻¹ ^ k * 2 ^ N := by
    rw [div_lt_iff₀ hpos] at hN
    linarith
  refine ⟨k, k, N + 2, rfl, rfl, rfl, rfl, le_refl _, ?_, ?_, N, ?_, ?_, le_refl _⟩
  · show (Flt.pow10neg (k : Int) : ℝ) ≤ _
    rw [hp]
    exact (hk.trans_le (min_le_left _ _)).le
  · show (Flt.pow10neg (k : Int) : ℝ) ≤ _
    rw [hp]
    exact (hk.trans_le (min_le_right _ _)).le
  · show _ < (Flt.pow10neg (k : Int) : ℝ) * _
    rwa [hp]
  · show _ < (Flt.pow10neg (k : Int) : ℝ) * _
    rwa [hp]

end TrussPy
