import Verif.Spec.Ieee
import Verif.Spec.Rounded
import Mathlib.Data.Int.Log
import Mathlib.Tactic.Linarith
import Mathlib.Tactic.Positivity
import Mathlib.Tactic.FieldSimp
/-!
# Errors of binary floating-point operations
-/

set_option linter.unusedSectionVars false

namespace TrussPy

section
variable {p : Nat} {emin : Int}

theorem representable_zero : Representable p emin 0 := ⟨0, emin, by simp, le_rfl, by simp⟩

/-- Between `x` and zero there is a number with `p` digits close to `x`. -/
theorem exists_representable (p : Nat) (emin : Int) (x : ℝ) : ∃ s, Representable p emin s ∧ |s - x| ≤ 2 * (1 / 2 ^ p) * |x| + 2 ^ emin := by
  by_cases hx : x = 0
  · exact ⟨0, representable_zero, by rw [hx]; simp; positivity⟩
  have hx0 : 0 < |x| := abs_pos.2 hx
  set L := Int.log 2 |x| with hL
  have h1 : (2 : ℝ) ^ L ≤ |x| := by have := Int.zpow_log_le_self (R := ℝ) (b := 2) (by norm_num) hx0; simpa using this
  have h2 : |x| < (2 : ℝ) ^ (L + 1) := by have := Int.lt_zpow_succ_log_self (R := ℝ) (b := 2) (by norm_num) |x|; simpa using this
  set e := max emin (L + 1 - p) with he
  have hE : (0 : ℝ) < 2 ^ e := by positivity
  have h3 : (2 : ℝ) ^ (L + 1 - (p : ℤ)) = 2 * (1 / 2 ^ p) * 2 ^ L := by
    rw [zpow_sub₀ (by norm_num), zpow_add₀ (by norm_num), zpow_one, zpow_natCast]
    ring
  have h4 : (2 : ℝ) ^ e ≤ 2 * (1 / 2 ^ p) * |x| + 2 ^ emin := by
    have h5 : (0 : ℝ) < 2 ^ emin := by positivity
    have h6 : (0 : ℝ) ≤ 2 * (1 / 2 ^ p) := by positivity
    rcases max_choice emin (L + 1 - (p : ℤ)) with h | h
    · rw [he, h]
      have : 0 ≤ 2 * (1 / 2 ^ p) * |x| := by positivity
      linarith
    · rw [he, h, h3]
      have := mul_le_mul_of_nonneg_left h1 h6
      linarith
  have h5 : |x| / 2 ^ e < 2 ^ p := by
    rw [div_lt_iff₀ hE]
    refine h2.trans_le ?_
    have : (2 : ℝ) ^ (L + 1) ≤ 2 ^ ((p : ℤ) + e) := zpow_le_zpow_right₀ (by norm_num) (by omega)
    rwa [zpow_add₀ (by norm_num) (p : ℤ), zpow_natCast] at this
  set k : ℤ := ⌊|x| / 2 ^ e⌋ with hk
  have hk0 : 0 ≤ k := Int.floor_nonneg.2 (by positivity)
  have hk1 := Int.floor_le (|x| / 2 ^ e)
  have hk2 := Int.lt_floor_add_one (|x| / 2 ^ e)
  have hkp : k < 2 ^ p := by
    have : (k : ℝ) < ((2 ^ p : ℤ) : ℝ) := by push_cast; linarith
    exact_mod_cast this
  have hdiff : |x| - k * 2 ^ e ≤ 2 ^ e ∧ 0 ≤ |x| - k * 2 ^ e := by
    rw [← hk, le_div_iff₀ hE] at hk1
    rw [← hk, div_lt_iff₀ hE] at hk2
    constructor <;> linarith
  rcases le_total 0 x with hs | hs
  · rw [abs_of_nonneg hs] at hdiff
    refine ⟨k * 2 ^ e, ⟨k, e, by rwa [abs_of_nonneg hk0], le_max_left _ _, rfl⟩, le_trans ?_ h4⟩
    rw [abs_le]
    constructor <;> linarith [hdiff.1, hdiff.2]
  · rw [abs_of_nonpos hs] at hdiff
    refine ⟨(-k : ℤ) * 2 ^ e, ⟨-k, e, by rwa [abs_neg, abs_of_nonneg hk0], le_max_left _ _, rfl⟩, le_trans ?_ h4⟩
    push_cast
    rw [abs_le]
    constructor <;> linarith [hdiff.1, hdiff.2]

theorem Nearest.error {x r : ℝ} (h : Nearest p emin x r) : |r - x| ≤ 2 * (1 / 2 ^ p) * |x| + 2 ^ emin := by
  obtain ⟨s, h1, h2⟩ := exists_representable p emin x
  exact (h.closest s h1).trans h2

theorem Nearest.exact {x r : ℝ} (h : Nearest p emin x r) (hx : Representable p emin x) : r = x := by
  have := h.closest x hx
  rw [sub_self, abs_zero] at this
  exact sub_eq_zero.1 (abs_nonpos_iff.1 this)

theorem Nearest.nonneg {x r : ℝ} (h : Nearest p emin x r) (hx : 0 ≤ x) : 0 ≤ r := by
  have := h.closest 0 representable_zero
  rw [zero_sub, abs_neg, abs_of_nonneg hx, abs_le] at this
  linarith

theorem representable_int (he : emin ≤ 0) {n : ℤ} (h : |n| < 2 ^ p) : Representable p emin n := ⟨n, 0, h, he, by simp⟩

end

/-! ## Sums of squares -/

theorem one_add_pow_le {x : ℝ} (hx : 0 ≤ x) : ∀ n : Nat, 2 * n * x ≤ 1 → (1 + x) ^ n ≤ 1 + 2 * n * x
  | 0, _ => by simp
  | n + 1, h => by
    push_cast at h ⊢
    have h1 : 2 * n * x ≤ 1 := by linarith
    have ih := one_add_pow_le hx n h1
    have h2 : (1 + x) ^ n * (1 + x) ≤ (1 + 2 * n * x) * (1 + x) := mul_le_mul_of_nonneg_right ih (by linarith)
    have h3 : 2 * n * x * x ≤ 1 * x := mul_le_mul_of_nonneg_right h1 hx
    rw [pow_succ]
    linarith

/-- The error of a sum when both parts and the addition have errors. -/
theorem sum_step {q q' r r' t u s g g' G A A' : ℝ} (hq : 0 ≤ q) (hq' : 0 ≤ q') (hu : 0 ≤ u)
    (h1 : |r - q| ≤ (g - 1) * q + A) (h2 : |r' - q'| ≤ (g' - 1) * q' + A') (h3 : |t - (r + r')| ≤ u * |r + r'| + s)
    (hr : 0 ≤ r) (hr' : 0 ≤ r') (hg : (1 + u) * g ≤ G) (hg' : (1 + u) * g' ≤ G) :
    |t - (q + q')| ≤ (G - 1) * (q + q') + (1 + u) * (A + A') + s := by
  have a1 := abs_le.1 h1
  have a2 := abs_le.1 h2
  have a3 := abs_le.1 h3
  rw [abs_of_nonneg (by linarith)] at a3
  have b1 : u * (r + r') ≤ u * (g * q + g' * q' + A + A') := mul_le_mul_of_nonneg_left (by linarith) hu
  have b2 : (1 + u) * g * q ≤ G * q := mul_le_mul_of_nonneg_right hg hq
  have b3 : (1 + u) * g' * q' ≤ G * q' := mul_le_mul_of_nonneg_right hg' hq'
  rw [abs_le]
  constructor <;> linarith

section
variable {F : Type} [Zero F] [One F] [Add F] [Sub F] [Mul F] [Div F] [Neg F] [Flt F] {val : F → ℝ} {p : Nat} {emin : Int} {Ω : ℝ}

/-- Sum of the squares, exactly. -/
noncomputable def sumSq (val : F → ℝ) (l : List F) : ℝ := (l.map fun v => val v * val v).sum

theorem sumSq_nonneg (l : List F) : 0 ≤ sumSq val l :=
  List.sum_nonneg fun x hx => by
    obtain ⟨v, -, rfl⟩ := List.mem_map.1 hx
    exact mul_self_nonneg _

theorem sumSq_le {l : List F} {X : ℝ} (h : ∀ v ∈ l, |val v| ≤ X) : sumSq val l ≤ l.length * X ^ 2 := by
  induction l with
  | nil => simp [sumSq]
  | cons v l ih =>
    have h1 := ih fun w hw => h w (List.mem_cons_of_mem _ hw)
    have h2 := h v (by simp)
    have h3 : val v * val v ≤ X ^ 2 := by
      rw [← abs_mul_abs_self, ← sq]
      exact pow_le_pow_left₀ (abs_nonneg _) h2 2
    unfold sumSq at *
    rw [List.map_cons, List.sum_cons, List.length_cons]
    push_cast
    linarith

/-- The error of a computed sum of squares. -/
theorem squareSum_error (H : Ieee val p emin Ω) {X : ℝ} {N : Nat} (hX : X ≤ Ω) (hXX : X ^ 2 ≤ Ω) (hN : 4 * N * (1 / 2 ^ p : ℝ) ≤ 1)
    (hΩ : 2 * (N * X ^ 2) + 4 * (N * (2 : ℝ) ^ emin) ≤ Ω) {l : List F} {r : F} (h : SquareSum val p emin Ω l r) :
    (∀ v ∈ l, |val v| ≤ X) → l.length ≤ N → 1 ≤ l.length ∧ 0 ≤ val r ∧ val r ≤ Ω ∧
      |val r - sumSq val l| ≤ ((1 + 2 * (1 / 2 ^ p)) ^ l.length - 1) * sumSq val l +
        (1 + 2 * (1 / 2 ^ p)) ^ l.length * ((2 * l.length - 1) * (2 : ℝ) ^ emin) := by
  set u : ℝ := 2 * (1 / 2 ^ p) with hu
  have hu0 : 0 ≤ u := by positivity
  set s : ℝ := (2 : ℝ) ^ emin with hs
  have hs0 : 0 < s := by positivity
  have hg1 : ∀ n : Nat, 1 ≤ (1 + u) ^ n := fun n => one_le_pow₀ (by linarith)
  -- every computed value is in range
  have hrange : ∀ (l : List F) (t : ℝ), (∀ v ∈ l, |val v| ≤ X) → l.length ≤ N → 1 ≤ l.length →
      |t - sumSq val l| ≤ ((1 + u) ^ l.length - 1) * sumSq val l + (1 + u) ^ l.length * ((2 * l.length - 1) * s) → t ≤ Ω := by
    intro l t hl hlen h1 ht
    have hlN : (l.length : ℝ) ≤ N := Nat.cast_le.2 hlen
    have hl1 : (1 : ℝ) ≤ l.length := by exact_mod_cast h1
    have hlu : 2 * l.length * u ≤ 1 := by
      have : (l.length : ℝ) * (1 / 2 ^ p) ≤ N * (1 / 2 ^ p) := mul_le_mul_of_nonneg_right hlN (by positivity)
      linarith
    have hg : (1 + u) ^ l.length ≤ 2 := (one_add_pow_le hu0 _ hlu).trans (by linarith)
    have hq := sumSq_nonneg (val := val) l
    have hq2 : sumSq val l ≤ N * X ^ 2 := (sumSq_le hl).trans (mul_le_mul_of_nonneg_right hlN (sq_nonneg _))
    have e1 : (1 + u) ^ l.length * sumSq val l ≤ 2 * sumSq val l := mul_le_mul_of_nonneg_right hg hq
    have e2 : (1 + u) ^ l.length * ((2 * l.length - 1) * s) ≤ 2 * ((2 * l.length - 1) * s) :=
      mul_le_mul_of_nonneg_right hg (mul_nonneg (by linarith) hs0.le)
    have e3 : l.length * s ≤ N * s := mul_le_mul_of_nonneg_right hlN hs0.le
    have := (abs_le.1 ht).2
    linarith
  induction h with
  | square v =>
    intro hv _
    have hv' := hv v (by simp)
    have h2 : |val v * val v| ≤ Ω := by
      rw [abs_mul, ← sq]
      exact (pow_le_pow_left₀ (abs_nonneg _) hv' 2).trans hXX
    have h3 := H.mul v v (hv'.trans hX) (hv'.trans hX) h2
    have h4 := h3.error
    rw [abs_of_nonneg (mul_self_nonneg (val v)), ← hu, ← hs] at h4
    have h5 : |val (v * v) - sumSq val [v]| ≤ ((1 + u) ^ [v].length - 1) * sumSq val [v] + (1 + u) ^ [v].length * ((2 * ([v].length : ℝ) - 1) * s) := by
      simp only [sumSq, List.map_cons, List.map_nil, List.sum_cons, List.sum_nil, add_zero, List.length_singleton, pow_one, Nat.cast_one]
      have : 0 ≤ u * s := by positivity
      linarith
    exact ⟨by simp, h3.nonneg (mul_self_nonneg _), hrange [v] _ hv (by assumption) (by simp) h5, h5⟩
  | @add l l' r r' h h' ih ih' =>
    intro hv hlen
    rw [List.length_append] at hlen
    obtain ⟨a1, a2, a3, a4⟩ := ih (fun v hv' => hv v (List.mem_append_left _ hv')) (by omega)
    obtain ⟨b1, b2, b3, b4⟩ := ih' (fun v hv' => hv v (List.mem_append_right _ hv')) (by omega)
    have a1' : (1 : ℝ) ≤ l.length := by exact_mod_cast a1
    have b1' : (1 : ℝ) ≤ l'.length := by exact_mod_cast b1
    have hA : 0 ≤ (1 + u) ^ l.length * ((2 * l.length - 1) * s) := mul_nonneg (by positivity) (mul_nonneg (by linarith) hs0.le)
    have hA' : 0 ≤ (1 + u) ^ l'.length * ((2 * l'.length - 1) * s) := mul_nonneg (by positivity) (mul_nonneg (by linarith) hs0.le)
    have hgl : (1 + u) * (1 + u) ^ l.length ≤ (1 + u) ^ (l.length + l'.length) := by
      rw [← pow_succ']
      exact pow_le_pow_right₀ (by linarith) (by omega)
    have hgl' : (1 + u) * (1 + u) ^ l'.length ≤ (1 + u) ^ (l.length + l'.length) := by
      rw [← pow_succ']
      exact pow_le_pow_right₀ (by linarith) (by omega)
    have hq : sumSq val (l ++ l') = sumSq val l + sumSq val l' := by unfold sumSq; rw [List.map_append, List.sum_append]
    -- from the error of the parts to that of the whole
    have hfin : ∀ t : ℝ, |t - (val r + val r')| ≤ u * |val r + val r'| + s →
        |t - sumSq val (l ++ l')| ≤ ((1 + u) ^ (l ++ l').length - 1) * sumSq val (l ++ l') +
          (1 + u) ^ (l ++ l').length * ((2 * ((l ++ l').length : ℝ) - 1) * s) := by
      intro t ht
      have := sum_step (sumSq_nonneg l) (sumSq_nonneg l') hu0 a4 b4 ht a2 b2 hgl hgl'
      rw [hq, List.length_append]
      refine this.trans ?_
      push_cast
      have c1 : (1 + u) * (1 + u) ^ l.length * ((2 * l.length - 1) * s) ≤ (1 + u) ^ (l.length + l'.length) * ((2 * l.length - 1) * s) :=
        mul_le_mul_of_nonneg_right hgl (mul_nonneg (by linarith) hs0.le)
      have c2 : (1 + u) * (1 + u) ^ l'.length * ((2 * l'.length - 1) * s) ≤ (1 + u) ^ (l.length + l'.length) * ((2 * l'.length - 1) * s) :=
        mul_le_mul_of_nonneg_right hgl' (mul_nonneg (by linarith) hs0.le)
      have c3 : 1 * s ≤ (1 + u) ^ (l.length + l'.length) * s := mul_le_mul_of_nonneg_right (hg1 _) hs0.le
      linarith
    have hT : val r + val r' ≤ Ω := hrange (l ++ l') _ hv (by rw [List.length_append]; exact hlen) (by rw [List.length_append]; omega)
      (hfin _ (by rw [sub_self, abs_zero]; positivity))
    have h3 := H.add r r' (by rwa [abs_of_nonneg a2]) (by rwa [abs_of_nonneg b2]) (by rwa [abs_of_nonneg (by linarith)])
    have h5 := hfin _ h3.error
    exact ⟨by rw [List.length_append]; omega, h3.nonneg (by linarith),
      hrange _ _ hv (by rw [List.length_append]; exact hlen) (by rw [List.length_append]; omega) h5, h5⟩
  | @fused l r v t h hn ih =>
    intro hv hlen
    rw [List.length_cons] at hlen
    obtain ⟨a1, a2, a3, a4⟩ := ih (fun w hw => hv w (List.mem_cons_of_mem _ hw)) (by omega)
    have a1' : (1 : ℝ) ≤ l.length := by exact_mod_cast a1
    have hA : 0 ≤ (1 + u) ^ l.length * ((2 * l.length - 1) * s) := mul_nonneg (by positivity) (mul_nonneg (by linarith) hs0.le)
    have hgl : (1 + u) * (1 + u) ^ l.length ≤ (1 + u) ^ (l.length + 1) := by rw [← pow_succ']
    have hgl' : (1 + u) * 1 ≤ (1 + u) ^ (l.length + 1) := by
      rw [pow_succ']
      exact mul_le_mul_of_nonneg_left (hg1 _) (by linarith)
    have hq : sumSq val (v :: l) = sumSq val l + val v * val v := by unfold sumSq; rw [List.map_cons, List.sum_cons]; ring
    have hfin : ∀ t : ℝ, |t - (val r + val v * val v)| ≤ u * |val r + val v * val v| + s →
        |t - sumSq val (v :: l)| ≤ ((1 + u) ^ (v :: l).length - 1) * sumSq val (v :: l) +
          (1 + u) ^ (v :: l).length * ((2 * ((v :: l).length : ℝ) - 1) * s) := by
      intro t ht
      have := sum_step (sumSq_nonneg l) (mul_self_nonneg (val v)) hu0 a4 (g' := 1) (A' := 0) (by rw [sub_self, abs_zero]; simp) ht a2 (mul_self_nonneg _) hgl hgl'
      rw [hq, List.length_cons]
      refine this.trans ?_
      push_cast
      have c1 : (1 + u) * (1 + u) ^ l.length * ((2 * l.length - 1) * s) ≤ (1 + u) ^ (l.length + 1) * ((2 * l.length - 1) * s) :=
        mul_le_mul_of_nonneg_right hgl (mul_nonneg (by linarith) hs0.le)
      have c3 : 1 * s ≤ (1 + u) ^ (l.length + 1) * s := mul_le_mul_of_nonneg_right (hg1 _) hs0.le
      linarith
    have hT : val r + val v * val v ≤ Ω := hrange (v :: l) _ hv hlen (by rw [List.length_cons]; omega)
      (hfin _ (by rw [sub_self, abs_zero]; positivity))
    have hpos : 0 ≤ val r + val v * val v := add_nonneg a2 (mul_self_nonneg _)
    have h3 := hn (by rwa [abs_of_nonneg hpos])
    have h5 := hfin _ h3.error
    exact ⟨by rw [List.length_cons]; omega, h3.nonneg hpos, hrange _ _ hv hlen (by rw [List.length_cons]; omega) h5, h5⟩
  | @perm l l' r h hp ih =>
    intro hv hlen
    have hq : sumSq val l' = sumSq val l := by
      unfold sumSq
      exact ((hp.map _).sum_eq).symm
    rw [hq, ← hp.length_eq]
    exact ih (fun v hv' => hv v (hp.mem_iff.1 hv')) (by rw [hp.length_eq]; exact hlen)

/-- The root of a sum with errors. -/
theorem sqrt_error {a q t w : ℝ} (ha : 0 ≤ a) (hq : 0 ≤ q) (ht : 0 ≤ t) (ht1 : t ≤ 1 / 2) (hw : 0 ≤ w) (h : |a - q| ≤ t * q + w ^ 2) :
    √a ≤ (1 + t) * √q + w ∧ √q ≤ (1 + 2 * t) * √a + 2 * w := by
  have h1 := abs_le.1 h
  have hsq := Real.sqrt_nonneg q
  have hsa := Real.sqrt_nonneg a
  have eq := Real.mul_self_sqrt hq
  have ea := Real.mul_self_sqrt ha
  constructor
  · refine Real.sqrt_le_iff.2 ⟨by positivity, ?_⟩
    have : 0 ≤ 2 * ((1 + t) * √q * w) := by positivity
    nlinarith [mul_nonneg ht hq, mul_nonneg (mul_nonneg ht ht) hq]
  · refine Real.sqrt_le_iff.2 ⟨by positivity, ?_⟩
    have h2 : q * (1 - t) ≤ a + w ^ 2 := by linarith
    have h3 : q ≤ (1 + 2 * t) * (a + w ^ 2) := by
      have h4 : (1 + 2 * t) * (q * (1 - t)) ≤ (1 + 2 * t) * (a + w ^ 2) := mul_le_mul_of_nonneg_left h2 (by linarith)
      have h5 : 0 ≤ t * q * (1 - 2 * t) := mul_nonneg (mul_nonneg ht hq) (by linarith)
      nlinarith
    have h6 : 0 ≤ 2 * ((1 + 2 * t) * √a * (2 * w)) := by positivity
    have h7 : 0 ≤ t * a := mul_nonneg ht ha
    have h8 : 0 ≤ t ^ 2 * a := by positivity
    have h9 : t * w ^ 2 ≤ 1 / 2 * w ^ 2 := mul_le_mul_of_nonneg_right ht1 (by positivity)
    have h10 : 0 ≤ w ^ 2 := by positivity
    have e : ((1 + 2 * t) * √a + 2 * w) ^ 2 = (1 + 2 * t) ^ 2 * (√a * √a) + 2 * ((1 + 2 * t) * √a * (2 * w)) + 4 * w ^ 2 := by ring
    rw [e, ea]
    nlinarith

/-- The error of the norm. -/
theorem Ieee.norm_error (H : Ieee val p emin Ω) (hp : 8 ≤ p) (hm : emin ≤ -(4 * p : ℤ)) (hΩ : (2 : ℝ) ^ (4 * p) ≤ Ω) {l : List F}
    (hl : ∀ v ∈ l, |val v| ≤ 1 / (16 * (1 / 2 ^ p))) (hn : 16 * (1 / 2 ^ p : ℝ) * (l.length + 1) ≤ 1) :
    |val (Flt.vnorm l) - Flt.vnorm (l.map val)| ≤ 16 * (1 / 2 ^ p) * (l.length + 1) * (1 + Flt.vnorm (l.map val)) := by
  set U : ℝ := 1 / 2 ^ p with hU
  have hU0 : 0 < U := by positivity
  have hU1 : U ≤ 1 / 256 := by
    rw [hU]
    refine one_div_le_one_div_of_le (by norm_num) ?_
    calc (256 : ℝ) = 2 ^ 8 := by norm_num
      _ ≤ 2 ^ p := pow_le_pow_right₀ (by norm_num) hp
  have hs : (2 : ℝ) ^ emin ≤ U ^ 4 := by
    have h1 : (2 : ℝ) ^ emin ≤ 2 ^ (-(4 * p : ℤ)) := zpow_le_zpow_right₀ (by norm_num) hm
    have h2 : (2 : ℝ) ^ (-(4 * p : ℤ)) = U ^ 4 := by
      rw [hU, zpow_neg, one_div, inv_pow, ← pow_mul, mul_comm p 4]
      norm_cast
    rwa [h2] at h1
  have hs0 : (0 : ℝ) < 2 ^ emin := by positivity
  have hΩU : 1 / U ^ 4 ≤ Ω := by
    have : 1 / U ^ 4 = (2 : ℝ) ^ (4 * p) := by rw [hU, one_div_pow, one_div_one_div, ← pow_mul, mul_comm p 4]
    rwa [this]
  have hV : Flt.vnorm (l.map val) = √(sumSq val l) := by
    show √((((l.map val).map fun v => v * v)).sum) = _
    rw [List.map_map]
    rfl
  by_cases hnil : l = []
  · subst hnil
    rw [H.vnorm_nil]
    show |0 - √0| ≤ _
    rw [Real.sqrt_zero, sub_zero, abs_zero]
    have : (0 : ℝ) ≤ Flt.vnorm (List.map val []) := Real.sqrt_nonneg _
    positivity
  obtain ⟨r, hr, hvr⟩ := H.vnorm l hnil
  set n : ℝ := (l.length : ℝ) with hnd
  have hn0 : 0 ≤ n := Nat.cast_nonneg _
  have hnU : n * U ≤ 1 / 16 := by linarith
  set X : ℝ := 1 / (16 * U) with hX
  have hXU : X * U = 1 / 16 := by rw [hX]; field_simp
  have hX0 : 0 < X := by positivity
  have hX1 : 16 ≤ X := by
    rw [hX, le_div_iff₀ (by positivity)]
    linarith
  have hnX : n ≤ X := by
    rw [hX, le_div_iff₀ (by positivity)]
    linarith
  have hXX : X ≤ X ^ 2 := by nlinarith
  have hXXX : X ^ 2 ≤ X ^ 3 := pow_le_pow_right₀ (by linarith) (by norm_num)
  have hX4 : 16 * X ^ 3 ≤ X ^ 4 := by
    have : X ^ 4 = X * X ^ 3 := by ring
    rw [this]
    exact mul_le_mul_of_nonneg_right hX1 (by positivity)
  have hXΩ : X ^ 4 ≤ Ω := by
    refine le_trans ?_ hΩU
    rw [hX, one_div_pow]
    refine one_div_le_one_div_of_le (by positivity) (pow_le_pow_left₀ hU0.le (by linarith) 4)
  have hX3 : 0 < X ^ 3 := by positivity
  have hU41 : U ^ 4 ≤ 1 := pow_le_one₀ hU0.le (by linarith)
  have hns : n * (2 : ℝ) ^ emin ≤ U ^ 2 := by
    have h1 : n * (2 : ℝ) ^ emin ≤ n * U ^ 4 := mul_le_mul_of_nonneg_left hs hn0
    have h2 : n * U ^ 4 = n * U * (U * U ^ 2) := by ring
    have h3 : n * U * (U * U ^ 2) ≤ 1 / 16 * (U * U ^ 2) := mul_le_mul_of_nonneg_right hnU (by positivity)
    have h4 : U * U ^ 2 ≤ 1 * U ^ 2 := mul_le_mul_of_nonneg_right (by linarith) (by positivity)
    have h5 : 0 ≤ U ^ 2 := by positivity
    linarith
  have hrng : 2 * (n * X ^ 2) + 4 * (n * (2 : ℝ) ^ emin) ≤ Ω := by
    have h1 : n * X ^ 2 ≤ X * X ^ 2 := mul_le_mul_of_nonneg_right hnX (by positivity)
    have h2 : X * X ^ 2 = X ^ 3 := by ring
    have h3 : U ^ 2 ≤ 1 := pow_le_one₀ hU0.le (by linarith)
    linarith
  obtain ⟨h1, h2, h3, h4⟩ := squareSum_error H (X := X) (N := l.length) (by linarith) (by linarith) (by rw [← hU, ← hnd]; linarith) hrng hr hl le_rfl
  rw [← hU, ← hnd] at h4
  have hq := sumSq_nonneg (val := val) l
  have h1' : 1 ≤ n := by rw [hnd]; exact_mod_cast h1
  have hg := one_add_pow_le (show 0 ≤ 2 * U by positivity) l.length (by rw [← hnd]; linarith)
  rw [← hnd] at hg
  set q := sumSq val l with hqd
  set a := val r with had
  set w := √(4 * (n * (2 : ℝ) ^ emin)) with hw
  have hw2 : w ^ 2 = 4 * (n * (2 : ℝ) ^ emin) := Real.sq_sqrt (by positivity)
  have hw0 : 0 ≤ w := Real.sqrt_nonneg _
  have hwU : w ≤ 2 * U := by
    refine Real.sqrt_le_iff.2 ⟨by positivity, ?_⟩
    have : (2 * U) ^ 2 = 4 * U ^ 2 := by ring
    linarith
  have h5 : |a - q| ≤ 4 * n * U * q + w ^ 2 := by
    refine h4.trans ?_
    have e1 : ((1 + 2 * U) ^ l.length - 1) * q ≤ (4 * n * U) * q := mul_le_mul_of_nonneg_right (by linarith) hq
    have e2 : (1 + 2 * U) ^ l.length * ((2 * n - 1) * (2 : ℝ) ^ emin) ≤ 2 * ((2 * n - 1) * (2 : ℝ) ^ emin) :=
      mul_le_mul_of_nonneg_right (by linarith) (mul_nonneg (by linarith) hs0.le)
    rw [hw2]
    linarith
  obtain ⟨g1, g2⟩ := sqrt_error h2 hq (show 0 ≤ 4 * n * U by positivity) (by linarith) hw0 h5
  have h6 := (H.sqrt r h2 h3).error
  rw [abs_of_nonneg (Real.sqrt_nonneg _), ← hU, ← had] at h6
  rw [hvr, hV]
  have h7 := abs_le.1 h6
  have hQ0 := Real.sqrt_nonneg q
  have hA0 := Real.sqrt_nonneg a
  have hsU : (2 : ℝ) ^ emin ≤ U := by
    refine hs.trans ?_
    have : U ^ 4 = U * U ^ 3 := by ring
    rw [this]
    exact mul_le_of_le_one_right hU0.le (pow_le_one₀ hU0.le (by linarith))
  set Q := √q with hQd
  set A := √a with hAd
  have hUQ : 0 ≤ U * Q := by positivity
  have hnUQ : 0 ≤ n * (U * Q) := by positivity
  have hnU0 : 0 ≤ n * U := by positivity
  have t1 : U * A ≤ U * ((1 + 4 * n * U) * Q + w) := mul_le_mul_of_nonneg_left g1 hU0.le
  have t2 : n * U * A ≤ n * U * ((1 + 4 * n * U) * Q + w) := mul_le_mul_of_nonneg_left g1 hnU0
  have t3 : 4 * (n * U) * (U * Q) ≤ 1 / 4 * (U * Q) := mul_le_mul_of_nonneg_right (by linarith) hUQ
  have t4 : 4 * (n * U) * (n * (U * Q)) ≤ 1 / 4 * (n * (U * Q)) := mul_le_mul_of_nonneg_right (by linarith) hnUQ
  have t5 : U * w ≤ U * 1 := mul_le_mul_of_nonneg_left (by linarith) hU0.le
  have t6 : n * U * w ≤ n * U * 1 := mul_le_mul_of_nonneg_left (by linarith) hnU0
  rw [abs_le]
  constructor <;> linarith

end

end TrussPy
