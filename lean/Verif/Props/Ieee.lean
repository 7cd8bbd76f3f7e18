import Verif.Lemmas.Ieee
import Verif.Props.RoundFollow
import Verif.ExamplesFloat
/-!
# Property C112: IEEE 754 arithmetic is accurate enough
-/

set_option linter.unusedSectionVars false

namespace TrussPy

/-- **C112.** Binary floating-point arithmetic with `p` digits and a sufficient range of exponents is an arithmetic with rounding error `2^(4-p)`, in the sense of
C109, C110 and C111. -/
theorem C112_ieee_rounds {F : Type} [Zero F] [One F] [Add F] [Sub F] [Mul F] [Div F] [Neg F] [Flt F] {val : F → ℝ} {p : Nat} {emin : Int} {Ω : ℝ}
    (H : Ieee val p emin Ω) (hp : 8 ≤ p) (hm : emin ≤ -(4 * p : ℤ)) (hΩ : (2 : ℝ) ^ (4 * p) ≤ Ω) : Rounds val (16 * (1 / 2 ^ p)) := by
  have hU1 : (1 / 2 ^ p : ℝ) ≤ 1 / 256 := by
    refine one_div_le_one_div_of_le (by norm_num) ?_
    calc (256 : ℝ) = 2 ^ 8 := by norm_num
      _ ≤ 2 ^ p := pow_le_pow_right₀ (by norm_num) hp
  have hp2 : (1 : ℝ) / (16 * (1 / 2 ^ p)) = 2 ^ p / 16 := by field_simp
  have hnorm : ∀ l : List F, (∀ v ∈ l, |val v| ≤ 1 / (16 * (1 / 2 ^ p))) → 16 * (1 / 2 ^ p : ℝ) * (l.length + 1) ≤ 1 →
      |val (Flt.vnorm l) - Flt.vnorm (l.map val)| ≤ 16 * (1 / 2 ^ p) * (l.length + 1) * (1 + Flt.vnorm (l.map val)) :=
    fun l hl hn => H.norm_error hp hm hΩ hl hn
  have hs : (2 : ℝ) ^ emin ≤ 1 / 2 ^ p := by
    have h1 : (2 : ℝ) ^ emin ≤ 2 ^ (-(p : ℤ)) := zpow_le_zpow_right₀ (by norm_num) (by omega)
    rwa [zpow_neg, zpow_natCast, ← one_div] at h1
  set U : ℝ := 1 / 2 ^ p with hU
  have hU0 : 0 < U := by positivity
  set X : ℝ := 1 / (16 * U) with hX
  have hXU : X * (16 * U) = 1 := by rw [hX]; field_simp
  have hX1 : 16 ≤ X := by
    rw [hX, le_div_iff₀ (by positivity)]
    linarith
  have hXΩ : X ^ 4 ≤ Ω := by
    refine le_trans ?_ hΩ
    rw [hp2, mul_comm 4 p, pow_mul]
    refine pow_le_pow_left₀ (by positivity) ?_ 4
    have : (0 : ℝ) < 2 ^ p := by positivity
    linarith
  have hX2 : 16 * X ≤ X ^ 2 := by nlinarith
  have hX4 : X ^ 2 ≤ X ^ 4 := pow_le_pow_right₀ (by linarith) (by norm_num)
  have hin : ∀ {t : ℝ}, |t| ≤ X → |t| ≤ Ω := fun h => by linarith
  have herr : ∀ {t r : ℝ}, Nearest p emin t r → |r - t| ≤ 16 * U * (1 + |t|) := by
    intro t r h
    refine h.error.trans ?_
    rw [← hU]
    have : 0 ≤ U * |t| := by positivity
    linarith
  have herr' : ∀ {t r : ℝ}, 0 ≤ t → Nearest p emin t r → |r - t| ≤ 16 * U * (1 + t) := by
    intro t r ht h
    have := herr h
    rwa [abs_of_nonneg ht] at this
  refine ⟨by positivity, H.zero, H.one, ?_, ?_, ?_, ?_, fun x hx => H.neg x (hin hx), fun x hx => H.abs x (hin hx),
    fun x y hx hy => H.lt x y (hin hx) (hin hy), fun x y hx hy => H.le x y (hin hx) (hin hy), ?_, hnorm, ?_, ?_⟩
  · intro x y hx hy
    exact herr (H.add x y (hin hx) (hin hy) ((abs_add_le _ _).trans (by linarith)))
  · intro x y hx hy
    exact herr (H.sub x y (hin hx) (hin hy) ((abs_sub _ _).trans (by linarith)))
  · intro x y hx hy
    refine herr (H.mul x y (hin hx) (hin hy) ?_)
    rw [abs_mul]
    have := mul_le_mul hx hy (abs_nonneg _) (by linarith)
    rw [← sq] at this
    linarith
  · intro x y hx hy hy0
    have hy1 : 0 < |val y| := lt_of_lt_of_le (by positivity) hy0
    refine herr (H.div x y (hin hx) (hin hy) (abs_pos.1 hy1) ?_)
    rw [abs_div]
    have h1 : |val x| / |val y| ≤ X / (16 * U) := div_le_div₀ (by linarith) hx (by positivity) hy0
    have h2 : X / (16 * U) = X ^ 2 := by
      rw [div_eq_iff (by positivity)]
      calc X = X * (X * (16 * U)) := by rw [hXU, mul_one]
        _ = _ := by ring
    linarith
  · intro x hx0 hx
    exact herr' (Real.sqrt_nonneg _) (H.sqrt x hx0 (by linarith))
  · intro n hn
    refine (H.ofInt n (hin hn)).exact (representable_int (by omega) ?_)
    have h1 : |(n : ℝ)| < 2 ^ p := by
      rw [← hX, hp2] at hn
      have : (0 : ℝ) < 2 ^ p := by positivity
      linarith
    exact_mod_cast h1
  · intro n hn
    refine (H.pow10neg n (by linarith)).trans ?_
    have h1 : (0 : ℝ) < 10 ^ (-n) := by positivity
    have h2 : 0 ≤ U * (10 : ℝ) ^ (-n) := by positivity
    linarith

/-- **C112, doubles.** Double precision has 53 binary digits, smallest weight `2^-1074` and numbers up to about `2^1024`: the rounding error in the sense of
C109, C110 and C111 is at most `2^-49`. -/
theorem C112_double_rounds {F : Type} [Zero F] [One F] [Add F] [Sub F] [Mul F] [Div F] [Neg F] [Flt F] {val : F → ℝ}
    (H : Ieee val 53 (-1074) ((2 ^ 53 - 1) * 2 ^ 971)) : Rounds val (1 / 2 ^ 49) := by
  have hΩ : (2 : ℝ) ^ (4 * 53) ≤ (2 ^ 53 - 1) * 2 ^ 971 := by
    have h1 : (2 : ℝ) ^ (4 * 53) ≤ 2 ^ 971 := pow_le_pow_right₀ (by norm_num) (by norm_num)
    have h2 : (1 : ℝ) * 2 ^ 971 ≤ (2 ^ 53 - 1) * 2 ^ 971 := mul_le_mul_of_nonneg_right (by norm_num) (by positivity)
    rw [one_mul] at h2
    exact h1.trans h2
  have h := C112_ieee_rounds H (by norm_num) (by norm_num) hΩ
  have e : (16 : ℝ) * (1 / 2 ^ 53) = 1 / 2 ^ 49 := by norm_num
  rwa [e] at h

/-! ## The hypotheses are met

`Bin p` is a number format with `p` binary digits; `Bin.ieee` shows that its operations are those of IEEE 754. -/

example (p : Nat) (hp : 8 ≤ p) : Rounds (F := Bin p) Bin.val (16 * (1 / 2 ^ p)) := C112_ieee_rounds (Bin.ieee (by omega)) hp le_rfl le_rfl

/-- Path following in floating-point arithmetic with enough digits: five accepted increments, and at each of them the displacement is the load
factor up to any given accuracy. -/
example (ε : ℝ) (hε : 0 < ε) : ∃ p0 : Nat, ∀ p, p0 ≤ p → ∃ (cfg : PFCfg (Bin p)) (o : PFOut (Bin p)), cfg.incs = 5 ∧
    pathfollow ⟨Bin.solve, fun l => List.range l.length⟩ (modelProblem fmCtx) cfg 1 [0] fmA = .ok o ∧ o.recs.length = 5 ∧
    ∀ r ∈ o.recs, r.out = .accepted ∧ ∃ u l : Bin p, r.x = [u, l] ∧ |Bin.val u - Bin.val l| ≤ ε := by
  obtain ⟨κ, hκ, H⟩ := fm_follows ε hε
  obtain ⟨σ, hσ, H⟩ := H (2 * κ * (2 * κ ^ 2 + 1)) (by positivity)
  obtain ⟨p0, hp0⟩ := exists_pow_lt_of_lt_one (show 0 < min (σ / 16) (1 / (κ ^ 2 + 1)) by positivity) (by norm_num : (1 / 2 : ℝ) < 1)
  refine ⟨p0 + 8, fun p hp => ?_⟩
  have hU0 : (0 : ℝ) < 1 / 2 ^ p := by positivity
  have h1 : ((1 : ℝ) / 2) ^ p ≤ (1 / 2) ^ p0 := pow_le_pow_of_le_one (by norm_num) (by norm_num) (by omega)
  rw [div_pow, one_pow] at h1
  have h2 := h1.trans (hp0.le.trans (min_le_left _ _))
  have h3 := h1.trans (hp0.le.trans (min_le_right _ _))
  have hκp : κ ^ 2 ≤ 2 ^ (4 * p) := by
    rw [one_div_le_one_div (by positivity) (by positivity)] at h3
    have : (2 : ℝ) ^ p ≤ 2 ^ (4 * p) := pow_le_pow_right₀ (by norm_num) (by omega)
    linarith
  have hs : (2 : ℝ) ^ (-(4 * p : ℤ)) ≤ 1 / 2 ^ p := by
    have h1 : (2 : ℝ) ^ (-(4 * p : ℤ)) ≤ 2 ^ (-(p : ℤ)) := zpow_le_zpow_right₀ (by norm_num) (by omega)
    rwa [zpow_neg 2 (p : ℤ), zpow_natCast, ← one_div] at h1
  refine H (Bin p) Bin.val _ (C112_ieee_rounds (Bin.ieee (by omega)) (by omega) le_rfl le_rfl) (by linarith) (fun t ht => ⟨Bin.round t, ?_⟩) Bin.solve ?_
  · have h4 : (4 : ℝ) ≤ 2 ^ (4 * p) := by
      calc (4 : ℝ) = 2 ^ 2 := by norm_num
        _ ≤ _ := pow_le_pow_right₀ (by norm_num) (by omega)
    have := (Bin.round_nearest (p := p) (by omega) (ht.trans h4)).error
    have h5 : 1 / 2 ^ p * |t| ≤ 1 / 2 ^ p * 4 := mul_le_mul_of_nonneg_left ht hU0.le
    linarith
  · refine (Bin.solve_near (by omega) 2 hκ hκp).mono ?_
    push_cast
    have h6 : 0 ≤ κ * (1 / 2 ^ p) := by positivity
    have h7 : 0 ≤ κ ^ 2 * (κ * (1 / 2 ^ p)) := by positivity
    have h8 : κ * 2 ^ (-(4 * p : ℤ)) ≤ κ * (1 / 2 ^ p) := mul_le_mul_of_nonneg_left hs hκ
    linarith

end TrussPy
