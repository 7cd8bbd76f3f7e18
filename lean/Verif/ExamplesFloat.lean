import Verif.Lemmas.Ieee
import Verif.ExamplesFix
import Mathlib.Topology.MetricSpace.HausdorffDistance
import Mathlib.Topology.Instances.Int
import Mathlib.Topology.Algebra.Ring.Real
/-!
# Floating-point numbers

A number format with `p` binary digits whose operations are those of IEEE 754: used to show that the hypotheses about floating-point
arithmetic can be met.
-/

namespace TrussPy

section
variable {p : Nat} {emin : Int}

/-- Every number has a closest one with `p` digits. -/
theorem exists_nearest (p : Nat) (emin : Int) (x : ℝ) : ∃ r, Nearest p emin x r := by
  have hclosed : IsClosed {y : ℝ | Representable p emin y} := by
    have hs : (0 : ℝ) < 2 ^ emin := by positivity
    have e : {y : ℝ | Representable p emin y} = (fun y : ℝ => y / 2 ^ emin) ⁻¹'
        ((fun n : ℤ => (n : ℝ)) '' {n : ℤ | Representable p emin ((n : ℝ) * 2 ^ emin)}) := by
      ext y
      constructor
      · rintro ⟨m, e, h1, h2, rfl⟩
        obtain ⟨k, rfl⟩ := Int.le.dest h2
        refine ⟨m * 2 ^ k, ?_, ?_⟩
        · refine ⟨m, emin + k, h1, h2, ?_⟩
          push_cast
          rw [zpow_add₀ (by norm_num), zpow_natCast]
          ring
        · show ((m * 2 ^ k : ℤ) : ℝ) = m * 2 ^ (emin + (k : ℤ)) / 2 ^ emin
          push_cast
          rw [zpow_add₀ (by norm_num), zpow_natCast]
          field_simp
      · rintro ⟨n, h1, h2⟩
        have h3 : (n : ℝ) = y / 2 ^ emin := h2
        have h4 : y = n * 2 ^ emin := by rw [h3]; field_simp
        show Representable p emin y
        rw [h4]
        exact h1
    rw [e]
    exact (Int.isClosedEmbedding_coe_real.isClosedMap _ (isClosed_discrete _)).preimage (by fun_prop)
  obtain ⟨r, h1, h2⟩ := hclosed.exists_infDist_eq_dist ⟨0, representable_zero⟩ x
  refine ⟨r, h1, fun s hs => ?_⟩
  have h3 := Metric.infDist_le_dist_of_mem (x := x) (show s ∈ {y : ℝ | Representable p emin y} from hs)
  rw [h2, dist_comm, dist_comm x s, Real.dist_eq, Real.dist_eq] at h3
  exact h3

theorem Representable.neg {x : ℝ} (h : Representable p emin x) : Representable p emin (-x) := by
  obtain ⟨m, e, h1, h2, rfl⟩ := h
  exact ⟨-m, e, by rwa [abs_neg], h2, by push_cast; ring⟩

theorem Representable.abs {x : ℝ} (h : Representable p emin x) : Representable p emin |x| := by
  rcases le_total 0 x with hx | hx
  · rwa [abs_of_nonneg hx]
  · rw [abs_of_nonpos hx]
    exact h.neg

end

/-- Floating-point numbers with `p` binary digits, smallest weight `2^(-4p)` and largest number `2^(4p)`, and one undefined result. -/
inductive Bin (p : Nat) : Type
  | num (x : ℝ) (rep : Representable p (-(4 * p : ℤ)) x) (range : |x| ≤ 2 ^ (4 * p))
  | undef

namespace Bin
variable {p : Nat}

/-- What a number stands for. -/
noncomputable def val (x : Bin p) : ℝ :=
  match x with
  | undef => 2 ^ (4 * p) + 1
  | num y _ _ => y

open Classical in
/-- A closest number; undefined if it is too large. -/
noncomputable def round (x : ℝ) : Bin p :=
  if h : |(exists_nearest p (-(4 * p : ℤ)) x).choose| ≤ 2 ^ (4 * p) then
    num (exists_nearest p (-(4 * p : ℤ)) x).choose (exists_nearest p (-(4 * p : ℤ)) x).choose_spec.rep h
  else undef

theorem round_nearest (hp : 1 ≤ p) {x : ℝ} (hx : |x| ≤ 2 ^ (4 * p)) : Nearest p (-(4 * p : ℤ)) x (val (round x : Bin p)) := by
  have hn := (exists_nearest p (-(4 * p : ℤ)) x).choose_spec
  have hbig : Representable p (-(4 * p : ℤ)) (2 ^ (4 * p)) :=
    ⟨1, 4 * p, by rw [abs_one]; exact one_lt_pow₀ (by norm_num) (by omega), by omega, by rw [Int.cast_one, one_mul]; norm_cast⟩
  have h : |(exists_nearest p (-(4 * p : ℤ)) x).choose| ≤ 2 ^ (4 * p) := by
    generalize (exists_nearest p (-(4 * p : ℤ)) x).choose = r at *
    rw [abs_le] at hx
    have h1 := abs_le.1 (hn.closest _ hbig)
    have h2 := abs_le.1 (hn.closest _ hbig.neg)
    rw [abs_of_nonneg (by linarith)] at h1
    rw [abs_of_nonpos (by linarith)] at h2
    rw [abs_le]
    constructor <;> linarith
  unfold round
  rw [dif_pos h]
  exact hn

theorem val_le (x : Bin p) (h : |val x| ≤ 2 ^ (4 * p)) : ∃ y h1 h2, x = num y h1 h2 := by
  cases x with
  | undef =>
    have h1 : (0 : ℝ) < 2 ^ (4 * p) := by positivity
    have h2 : val (undef : Bin p) = 2 ^ (4 * p) + 1 := rfl
    rw [h2, abs_of_pos (by linarith)] at h
    linarith
  | num y h1 h2 => exact ⟨y, h1, h2, rfl⟩

noncomputable instance : Zero (Bin p) := ⟨round 0⟩
noncomputable instance : One (Bin p) := ⟨round 1⟩
noncomputable instance : Add (Bin p) := ⟨fun x y => round (val x + val y)⟩
noncomputable instance : Sub (Bin p) := ⟨fun x y => round (val x - val y)⟩
noncomputable instance : Mul (Bin p) := ⟨fun x y => round (val x * val y)⟩
noncomputable instance : Div (Bin p) := ⟨fun x y => round (val x / val y)⟩
noncomputable instance : Neg (Bin p) := ⟨fun x =>
  match x with
  | undef => undef
  | num y h1 h2 => num (-y) h1.neg (by rwa [abs_neg])⟩

open Classical in
noncomputable instance : Flt (Bin p) where
  abs x :=
    match x with
    | undef => undef
    | num y h1 h2 => num |y| h1.abs (by rwa [abs_abs])
  lt x y := decide (val x < val y)
  le x y := decide (val x ≤ val y)
  eq x y := decide (val x = val y)
  sgn x := some (SignType.sign (val x) : ℤ)
  sqrt x := round √(val x)
  vnorm l :=
    match l with
    | [] => round 0
    | v :: l => round √(val (l.foldl (fun r w => r + w * w) (v * v)))
  ofInt n := round n
  trunc x := round ((Flt.trunc : ℝ → ℝ) (val x))
  pow10neg n := round ((10 : ℝ) ^ (-n))
  nan := undef

theorem val_round_zero (hp : 1 ≤ p) : val (round 0 : Bin p) = 0 :=
  (round_nearest hp (by rw [abs_zero]; positivity)).exact representable_zero

theorem foldl_squareSum (emin : Int) (Ω : ℝ) : ∀ (l l0 : List (Bin p)) (r : Bin p), SquareSum val p emin Ω l0 r →
    SquareSum val p emin Ω (l0 ++ l) (l.foldl (fun r w => r + w * w) r)
  | [], l0, r, h => by simpa using h
  | w :: l, l0, r, h => by
    have := foldl_squareSum emin Ω l (l0 ++ [w]) _ (.add h (.square w))
    simpa using this

/-- The operations are those of IEEE 754. -/
theorem ieee (hp : 1 ≤ p) : Ieee (F := Bin p) val p (-(4 * p : ℤ)) (2 ^ (4 * p)) := by
  have h1 : (1 : ℝ) ≤ 2 ^ (4 * p) := one_le_pow₀ (by norm_num)
  refine ⟨val_round_zero hp, ?_, fun x y _ _ h => round_nearest hp h, fun x y _ _ h => round_nearest hp h, fun x y _ _ h => round_nearest hp h,
    fun x y _ _ _ h => round_nearest hp h, ?_, ?_, fun x y _ _ => decide_eq_true_iff, fun x y _ _ => decide_eq_true_iff, ?_, val_round_zero hp, ?_,
    fun n h => round_nearest hp h, ?_⟩
  · have := (round_nearest hp (x := 1) (by rwa [abs_one])).exact (by
      have := representable_int (p := p) (emin := -(4 * p : ℤ)) (by omega) (n := 1) (by rw [abs_one]; exact one_lt_pow₀ (by norm_num) (by omega))
      simpa using this)
    exact this
  · intro x hx
    obtain ⟨y, h1, h2, rfl⟩ := val_le x hx
    rfl
  · intro x hx
    obtain ⟨y, h1, h2, rfl⟩ := val_le x hx
    rfl
  · intro x h0 h
    refine round_nearest hp ?_
    rw [abs_of_nonneg (Real.sqrt_nonneg _)]
    refine Real.sqrt_le_iff.2 ⟨by positivity, ?_⟩
    nlinarith
  · intro l hl
    cases l with
    | nil => exact absurd rfl hl
    | cons v l => exact ⟨_, foldl_squareSum _ _ l [v] _ (.square v), rfl⟩
  · intro n h
    have h2 : (0 : ℝ) < 10 ^ (-n) := by positivity
    have h3 := (round_nearest hp (x := (10 : ℝ) ^ (-n)) (by rwa [abs_of_pos h2])).error
    rw [abs_of_pos h2] at h3
    refine h3.trans ?_
    have : (0 : ℝ) ≤ 1 / 2 ^ p * 10 ^ (-n) := by positivity
    linarith

/-- A solver that rounds the exact solution. -/
noncomputable def solve (K : List (List (Bin p))) (b : List (Bin p)) : Py (List (Bin p)) :=
  .ok (List.ofFn fun i : Fin b.length => round ((matOf b.length (K.map (List.map val)))⁻¹.mulVec (fun j => val (b.get j)) i))

theorem solve_near (hp : 1 ≤ p) (n : Nat) {κ : ℝ} (hκ : 0 ≤ κ) (hκp : κ ^ 2 ≤ 2 ^ (4 * p)) :
    SolvesNear (F := Bin p) val solve n κ 0 (n * (κ * (2 * (1 / 2 ^ p) * κ ^ 2 + 2 ^ (-(4 * p : ℤ))))) := by
  intro K b h1 h2 h3 h4 h5 h6
  subst h5
  set A := matOf b.length (K.map (List.map val)) with hA
  have hinj : Function.Injective A.mulVec := by
    intro v w hvw
    have := h4 (v - w)
    rw [Matrix.mulVec_sub, hvw, sub_self, norm_zero, mul_zero] at this
    exact sub_eq_zero.1 (norm_le_zero_iff.1 this)
  have hu : IsUnit A.det := by
    rw [← Matrix.isUnit_iff_isUnit_det]
    exact Matrix.mulVec_injective_iff_isUnit.1 hinj
  refine ⟨_, rfl, by simp, fun r hr e he => ?_⟩
  have hK1 : (K.map (List.map val)).length = b.length := by rw [List.length_map, h1]
  have hK2 : ∀ row ∈ K.map (List.map val), row.length = b.length := by
    intro row hrow
    obtain ⟨q, hq, rfl⟩ := List.mem_map.1 hrow
    rw [List.length_map, h2 q hq]
  rw [List.map_ofFn, matVec_ofFn hK1 hK2, ← hA] at he
  obtain ⟨i, hi, rfl⟩ := List.mem_iff_getElem.1 he
  have hib : i < b.length := by simp at hi; exact hi
  set x : Fin b.length → ℝ := A⁻¹.mulVec fun j => val (b.get j) with hx
  have hAx : A.mulVec x = fun j => val (b.get j) := by rw [hx, Matrix.mulVec_mulVec, Matrix.mul_nonsing_inv A hu, Matrix.one_mulVec]
  have hxκ : ∀ q, |x q| ≤ κ ^ 2 := by
    intro q
    have e1 := norm_le_pi_norm x q
    have e2 := h4 x
    rw [hAx] at e2
    have e3 : ‖fun j => val (b.get j)‖ ≤ κ := (pi_norm_le_iff_of_nonneg hκ).2 fun j => h6 _ (List.get_mem _ _)
    have e4 := mul_le_mul_of_nonneg_left e3 hκ
    rw [Real.norm_eq_abs] at e1
    rw [sq]
    linarith
  have herr : ∀ q, |val (round (x q) : Bin p) - x q| ≤ 2 * (1 / 2 ^ p) * κ ^ 2 + 2 ^ (-(4 * p : ℤ)) := by
    intro q
    refine (round_nearest hp ((hxκ q).trans hκp)).error.trans ?_
    have : 2 * (1 / 2 ^ p : ℝ) * |x q| ≤ 2 * (1 / 2 ^ p) * κ ^ 2 := mul_le_mul_of_nonneg_left (hxκ q) (by positivity)
    linarith
  rw [List.getElem_zipWith, List.getElem_ofFn, List.getElem_map]
  have hbi : val b[i] = A.mulVec x ⟨i, hib⟩ := by rw [hAx]; rfl
  rw [hbi]
  change |A.mulVec (fun q => val (round (x q) : Bin p)) ⟨i, hib⟩ - A.mulVec x ⟨i, hib⟩| ≤ _
  rw [← Pi.sub_apply, ← Matrix.mulVec_sub]
  calc |A.mulVec ((fun q => val (round (x q) : Bin p)) - x) ⟨i, hib⟩|
      = |∑ q, A ⟨i, hib⟩ q * (val (round (x q) : Bin p) - x q)| := rfl
    _ ≤ ∑ q, |A ⟨i, hib⟩ q * (val (round (x q) : Bin p) - x q)| := Finset.abs_sum_le_sum_abs _ _
    _ ≤ ∑ _q : Fin b.length, κ * (2 * (1 / 2 ^ p) * κ ^ 2 + 2 ^ (-(4 * p : ℤ))) := by
      refine Finset.sum_le_sum fun q _ => ?_
      rw [abs_mul]
      refine mul_le_mul ?_ (herr q) (abs_nonneg _) hκ
      have hq : (q : Nat) < (K[i]'(by omega)).length := by rw [h2 _ (List.getElem_mem _)]; exact q.isLt
      have := h3 (K[i]'(by omega)) (List.getElem_mem _) _ (List.getElem_mem hq)
      rw [hA]
      unfold matOf
      simpa [List.getD_eq_getElem?_getD, show i < K.length by omega, hq] using this
    _ = _ := by rw [Finset.sum_const, Finset.card_univ, Fintype.card_fin, nsmul_eq_mul]; ring

end Bin

theorem SolvesNear.mono {F : Type} {val : F → ℝ} {sp : List (List F) → List F → Py (List F)} {n : Nat} {κ θ τ τ' : ℝ} (h : SolvesNear val sp n κ θ τ)
    (hτ : τ ≤ τ') : SolvesNear val sp n κ θ τ' := by
  intro K b h1 h2 h3 h4 h5 h6
  obtain ⟨dx, g1, g2, g3⟩ := h K b h1 h2 h3 h4 h5 h6
  exact ⟨dx, g1, g2, fun r hr e he => (g3 r hr e he).trans (by linarith)⟩

end TrussPy
