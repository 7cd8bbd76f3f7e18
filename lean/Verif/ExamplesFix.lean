import Verif.Spec.Rounded
import Verif.Lemmas.Converge
/-!
# Fixed-point numbers

A number format used to show that the hypotheses about rounded arithmetic can be met: `k` stands for `k / 2^p`, and every
result is rounded down to the next such number.
-/

namespace TrussPy

/-- Fixed-point numbers with `p` binary places. -/
structure Fix (_p : Nat) where
  num : ℤ

namespace Fix
variable {p : Nat}

/-- What a number stands for. -/
noncomputable def val (x : Fix p) : ℝ := x.num / 2 ^ p

/-- Rounding down. -/
noncomputable def round (r : ℝ) : Fix p := ⟨⌊r * 2 ^ p⌋⟩

theorem round_le (r : ℝ) : |val (round r : Fix p) - r| ≤ 1 / 2 ^ p := by
  have hp : (0 : ℝ) < 2 ^ p := by positivity
  have h1 := Int.floor_le (r * 2 ^ p)
  have h2 := Int.lt_floor_add_one (r * 2 ^ p)
  show |((⌊r * 2 ^ p⌋ : ℤ) : ℝ) / 2 ^ p - r| ≤ _
  have : ((⌊r * 2 ^ p⌋ : ℤ) : ℝ) / 2 ^ p - r = ((⌊r * 2 ^ p⌋ : ℤ) - r * 2 ^ p) / 2 ^ p := by field_simp
  rw [this, abs_div, abs_of_pos hp]
  gcongr
  rw [abs_le]
  constructor <;> linarith

noncomputable instance : Zero (Fix p) := ⟨⟨0⟩⟩
noncomputable instance : One (Fix p) := ⟨⟨2 ^ p⟩⟩
noncomputable instance : Add (Fix p) := ⟨fun x y => round (val x + val y)⟩
noncomputable instance : Sub (Fix p) := ⟨fun x y => round (val x - val y)⟩
noncomputable instance : Mul (Fix p) := ⟨fun x y => round (val x * val y)⟩
noncomputable instance : Div (Fix p) := ⟨fun x y => round (val x / val y)⟩
noncomputable instance : Neg (Fix p) := ⟨fun x => ⟨-x.num⟩⟩

noncomputable instance : Flt (Fix p) where
  abs x := ⟨|x.num|⟩
  lt x y := decide (x.num < y.num)
  le x y := decide (x.num ≤ y.num)
  eq x y := decide (x.num = y.num)
  sgn x := some (Int.sign x.num)
  sqrt x := round √(val x)
  vnorm l := round (Flt.vnorm (l.map val))
  ofInt n := ⟨n * 2 ^ p⟩
  trunc x := round ((Flt.trunc : ℝ → ℝ) (val x))
  pow10neg n := round ((10 : ℝ) ^ (-n))
  nan := ⟨0⟩

theorem rounds (p : Nat) : Rounds (F := Fix p) val (1 / 2 ^ p) := by
  have hp : (0 : ℝ) < 2 ^ p := by positivity
  have hr : ∀ (r : ℝ), |val (round r : Fix p) - r| ≤ 1 / 2 ^ p * (1 + |r|) := fun r => (round_le r).trans (by
    have : 0 ≤ 1 / 2 ^ p * |r| := by positivity
    linarith)
  have hr' : ∀ (r : ℝ), 0 ≤ r → |val (round r : Fix p) - r| ≤ 1 / 2 ^ p * (1 + r) := fun r h => by
    have := hr r
    rwa [abs_of_nonneg h] at this
  have hlt : ∀ x y : Fix p, (x.num < y.num) ↔ val x < val y := by
    intro x y
    unfold val
    rw [div_lt_div_iff_of_pos_right hp, Int.cast_lt]
  refine ⟨by positivity, by show ((0 : ℤ) : ℝ) / 2 ^ p = 0; simp, ?_, fun x y _ _ => hr _, fun x y _ _ => hr _, fun x y _ _ => hr _,
    fun x y _ _ _ => hr _, ?_, ?_, ?_, ?_, fun x _ _ => hr' _ (Real.sqrt_nonneg _), ?_, ?_, fun n _ => hr' _ (by positivity)⟩
  · show (((2 ^ p : ℤ)) : ℝ) / 2 ^ p = 1
    push_cast
    field_simp
  · intro x _
    show ((-x.num : ℤ) : ℝ) / 2 ^ p = -((x.num : ℝ) / 2 ^ p)
    push_cast
    ring
  · intro x _
    show ((|x.num| : ℤ) : ℝ) / 2 ^ p = |(x.num : ℝ) / 2 ^ p|
    rw [abs_div, abs_of_pos hp]
    push_cast
    rfl
  · intro x y _ _
    rw [← hlt]
    exact decide_eq_true_iff
  · intro x y _ _
    rw [← not_lt, ← hlt, not_lt]
    exact decide_eq_true_iff
  · intro l _ _
    refine (hr' (Flt.vnorm (l.map val)) (Real.sqrt_nonneg _)).trans ?_
    have h1 : (0 : ℝ) ≤ Flt.vnorm (l.map val) := Real.sqrt_nonneg _
    refine mul_le_mul_of_nonneg_right ?_ (by linarith)
    have h2 : (0 : ℝ) ≤ l.length := Nat.cast_nonneg _
    have h3 : (0 : ℝ) < 1 / 2 ^ p := by positivity
    nlinarith
  · intro n _
    show (((n * 2 ^ p : ℤ)) : ℝ) / 2 ^ p = n
    push_cast
    field_simp

/-- A solver that rounds the exact solution. -/
noncomputable def solve (K : List (List (Fix p))) (b : List (Fix p)) : Py (List (Fix p)) :=
  .ok (List.ofFn fun i : Fin b.length => round ((matOf b.length (K.map (List.map val)))⁻¹.mulVec (fun j => val (b.get j)) i))

theorem solve_near (n : Nat) {κ : ℝ} (hκ : 0 ≤ κ) : SolvesNear (F := Fix p) val solve n κ 0 (n * κ * (1 / 2 ^ p)) := by
  intro K b h1 h2 h3 h4 h5 h6
  subst h5
  set A := matOf b.length (K.map (List.map val)) with hA
  have hinj : Function.Injective A.mulVec := by
    intro v w hvw
    have := h4 (v - w)
    rw [Matrix.mulVec_sub, hvw, sub_self, norm_zero, mul_zero] at this
    exact sub_eq_zero.1 (norm_le_zero_iff.1 this)
  have hu : IsUnit A.det := by
    rw [← Matrix.isUnit_iff_isUnit_det]
    exact Matrix.mulVec_injective_iff_isUnit.1 hinj
  refine ⟨_, rfl, by simp, fun r hr e he => ?_⟩
  have hK1 : (K.map (List.map val)).length = b.length := by rw [List.length_map, h1]
  have hK2 : ∀ row ∈ K.map (List.map val), row.length = b.length := by
    intro row hrow
    obtain ⟨q, hq, rfl⟩ := List.mem_map.1 hrow
    rw [List.length_map, h2 q hq]
  rw [List.map_ofFn, matVec_ofFn hK1 hK2, ← hA] at he
  obtain ⟨i, hi, rfl⟩ := List.mem_iff_getElem.1 he
  have hib : i < b.length := by simp at hi; exact hi
  set x : Fin b.length → ℝ := A⁻¹.mulVec fun j => val (b.get j) with hx
  have hAx : A.mulVec x = fun j => val (b.get j) := by rw [hx, Matrix.mulVec_mulVec, Matrix.mul_nonsing_inv A hu, Matrix.one_mulVec]
  rw [List.getElem_zipWith, List.getElem_ofFn, List.getElem_map]
  have hbi : val b[i] = A.mulVec x ⟨i, hib⟩ := by rw [hAx]; rfl
  rw [hbi]
  change |A.mulVec (fun q => val (round (x q) : Fix p)) ⟨i, hib⟩ - A.mulVec x ⟨i, hib⟩| ≤ _
  rw [← Pi.sub_apply, ← Matrix.mulVec_sub]
  calc |A.mulVec ((fun q => val (round (x q) : Fix p)) - x) ⟨i, hib⟩|
      = |∑ q, A ⟨i, hib⟩ q * (val (round (x q) : Fix p) - x q)| := rfl
    _ ≤ ∑ q, |A ⟨i, hib⟩ q * (val (round (x q) : Fix p) - x q)| := Finset.abs_sum_le_sum_abs _ _
    _ ≤ ∑ _q : Fin b.length, κ * (1 / 2 ^ p) := by
      refine Finset.sum_le_sum fun q _ => ?_
      rw [abs_mul]
      refine mul_le_mul ?_ (round_le _) (abs_nonneg _) hκ
      have hq : (q : Nat) < (K[i]'(by omega)).length := by rw [h2 _ (List.getElem_mem _)]; exact q.isLt
      have := h3 (K[i]'(by omega)) (List.getElem_mem _) _ (List.getElem_mem hq)
      rw [hA]
      unfold matOf
      simpa [List.getD_eq_getElem?_getD, show i < K.length by omega, hq] using this
    _ = _ := by rw [Finset.sum_const, Finset.card_univ, Fintype.card_fin, nsmul_eq_mul]; ring

end Fix

end TrussPy
