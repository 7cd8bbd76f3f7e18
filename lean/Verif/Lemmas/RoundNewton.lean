import Verif.Spec.Rounded
import Verif.Lemmas.Inexact
/-!
# Newton iterations in rounded arithmetic
-/

set_option linter.unusedSectionVars false

namespace TrussPy

/-- The error bounds are small enough for the Newton iteration: `n` equations, `M` and `B` bound the inverse and the matrix, `Q` the vectors, `α` the
residuals, `ρ` is the radius of the ball, `κ` what the linear solver has to cope with, `δ` the rounding error, `η` the error of the
functions, `θ` and `τ` the errors of the linear solver. -/
structure Fine (n : Nat) (M B Q α ρ κ δ η θ τ : ℝ) : Prop where
  B0 : 0 ≤ B
  Q0 : 0 ≤ Q
  eta0 : 0 ≤ η
  eta1 : η ≤ 1 / 2
  cond : 32 * M * n * η ≤ 1
  theta0 : 0 ≤ θ
  theta : θ ≤ 1 / 32
  tau0 : 0 ≤ τ
  tau : τ ≤ η
  delta : δ * (1 + Q) ≤ η
  deltan : δ * (n + 1) ≤ η
  decay : 4 * (5 + 4 * B) * η ≤ α
  ball : 5 * M * α + 5 * M * η + η ≤ ρ
  kappa1 : 3 * M ≤ κ
  kappa2 : 2 * B + 1 ≤ κ
  kappa3 : α + 1 ≤ κ
  range : (2 * n * (α + ρ + 1) + 1 + Q) * δ ≤ 1

theorem Fine.mono {n : Nat} {M M' B Q α ρ κ δ η θ τ : ℝ} (h : Fine n M B Q α ρ κ δ η θ τ) (hM : M' ≤ M) (hα : 0 ≤ α) :
    Fine n M' B Q α ρ κ δ η θ τ := by
  have hη := h.eta0
  have h1 : M' * (n * η) ≤ M * (n * η) := mul_le_mul_of_nonneg_right hM (by positivity)
  have h2 : M' * α ≤ M * α := mul_le_mul_of_nonneg_right hM hα
  have h3 : M' * η ≤ M * η := mul_le_mul_of_nonneg_right hM hη
  have h4 := h.cond
  have h5 := h.ball
  have h6 := h.kappa1
  exact ⟨h.B0, h.Q0, h.eta0, h.eta1, by linarith, h.theta0, h.theta, h.tau0, h.tau, h.delta, h.deltan, h.decay, by linarith, by linarith, h.kappa2,
    h.kappa3, h.range⟩

/-- Small errors are small enough. -/
theorem fine_of_small (n : Nat) {M B Q ρ : ℝ} (hM : 0 < M) (hB : 0 ≤ B) (hQ : 0 ≤ Q) (hρ : 0 < ρ) :
    ∃ η0 > 0, ∃ κ R : ℝ, 0 < R ∧ ∀ δ η θ τ : ℝ, 0 < δ → R * δ ≤ η → η ≤ η0 → 0 ≤ θ → θ ≤ 1 / 32 → 0 ≤ τ → τ ≤ η →
      Fine n M B Q (ρ / (10 * M)) ρ κ δ η θ τ := by
  set α := ρ / (10 * M) with hα
  have hα0 : 0 < α := by positivity
  have hMα : 10 * M * α = ρ := by rw [hα]; field_simp
  have hn0 : (0 : ℝ) ≤ n := Nat.cast_nonneg n
  set R := 2 * n * (α + ρ + 1) + 1 + Q + n with hR
  have hR0 : 0 < R := by positivity
  have hT : 0 < 2 + 32 * M * n + 4 * (5 + 4 * B) / α + (10 * M + 2) / ρ := by positivity
  set T := 2 + 32 * M * n + 4 * (5 + 4 * B) / α + (10 * M + 2) / ρ with hTd
  refine ⟨1 / T, by positivity, 3 * M + (2 * B + 1) + (α + 1), R, hR0, ?_⟩
  intro δ η θ τ hδ h1 h2 h3 h4 h5 h6
  have hη : 0 < η := lt_of_lt_of_le (by positivity) h1
  have hTη : T * η ≤ 1 := by
    rw [le_div_iff₀ hT] at h2
    linarith
  have a1 : 0 ≤ 32 * M * n * η := by positivity
  have a2 : 0 ≤ 4 * (5 + 4 * B) / α * η := by positivity
  have a3 : 0 ≤ (10 * M + 2) / ρ * η := by positivity
  have hsum : 2 * η + 32 * M * n * η + 4 * (5 + 4 * B) / α * η + (10 * M + 2) / ρ * η ≤ 1 := by
    rw [hTd] at hTη
    linarith
  have b2 : 4 * (5 + 4 * B) * η ≤ α := by
    have : 4 * (5 + 4 * B) / α * η ≤ 1 := by linarith
    rw [div_mul_eq_mul_div, div_le_one hα0] at this
    exact this
  have b3 : (10 * M + 2) * η ≤ ρ := by
    have : (10 * M + 2) / ρ * η ≤ 1 := by linarith
    rw [div_mul_eq_mul_div, div_le_one hρ] at this
    exact this
  have hRδ : ∀ t, t ≤ R → δ * t ≤ η := fun t ht => by
    have := mul_le_mul_of_nonneg_left ht hδ.le
    linarith
  have c1 : 0 ≤ 2 * (n : ℝ) * (α + ρ + 1) := by positivity
  refine ⟨hB, hQ, hη.le, by linarith, by linarith, h3, h4, h5, h6, hRδ _ (by linarith), hRδ _ (by linarith), b2, by linarith, by linarith,
    by linarith, by linarith, ?_⟩
  have := hRδ (2 * n * (α + ρ + 1) + 1 + Q) (by linarith)
  linarith

section
variable {n : Nat} {φ : (Fin n → ℝ) → Fin n → ℝ} {J : (Fin n → ℝ) → Matrix (Fin n) (Fin n) ℝ}
  {A : (Fin n → ℝ) →L[ℝ] Fin n → ℝ} {z : Fin n → ℝ} {ρ ε M B Q α κ δ η θ τ : ℝ}

theorem mulVec_near {K L : Matrix (Fin n) (Fin n) ℝ} {η : ℝ} (hη : 0 ≤ η) (h : ∀ i j, |K i j - L i j| ≤ η) (v : Fin n → ℝ) :
    ‖K.mulVec v - L.mulVec v‖ ≤ n * η * ‖v‖ := by
  refine (pi_norm_le_iff_of_nonneg (by positivity)).2 fun i => ?_
  rw [← Matrix.sub_mulVec, Real.norm_eq_abs]
  calc |(K - L).mulVec v i| = |∑ j, (K - L) i j * v j| := rfl
    _ ≤ ∑ j, |(K - L) i j * v j| := Finset.abs_sum_le_sum_abs _ _
    _ ≤ ∑ _j : Fin n, η * ‖v‖ := by
      refine Finset.sum_le_sum fun j _ => ?_
      rw [abs_mul]
      have := norm_le_pi_norm v j
      rw [Real.norm_eq_abs] at this
      exact mul_le_mul (h i j) this (abs_nonneg _) hη
    _ = _ := by rw [Finset.sum_const, Finset.card_univ, Fintype.card_fin, nsmul_eq_mul]; ring

theorem entry_le_mulVec {K : Matrix (Fin n) (Fin n) ℝ} {B : ℝ} (h : ∀ v, ‖K.mulVec v‖ ≤ B * ‖v‖) (i j : Fin n) : |K i j| ≤ B := by
  have h1 := h (Pi.single j 1)
  rw [Matrix.mulVec_single_one] at h1
  have h2 : ‖(Pi.single j 1 : Fin n → ℝ)‖ ≤ 1 := by
    refine (pi_norm_le_iff_of_nonneg zero_le_one).2 fun q => ?_
    rw [Real.norm_eq_abs, Pi.single_apply]
    split <;> simp
  have h3 := norm_le_pi_norm (K.col j) i
  rw [Real.norm_eq_abs] at h3
  have h4 : 0 ≤ B := by
    have h6 : ‖(Pi.single j 1 : Fin n → ℝ)‖ = 1 := by
      refine le_antisymm h2 ?_
      have := norm_le_pi_norm (Pi.single j 1 : Fin n → ℝ) j
      simpa using this
    rw [h6, mul_one] at h1
    exact (norm_nonneg _).trans h1
  have h5 : B * ‖(Pi.single j 1 : Fin n → ℝ)‖ ≤ B * 1 := mul_le_mul_of_nonneg_left h2 h4
  have : |K i j| ≤ ‖K.col j‖ := h3
  linarith

/-- What the linear solver has to know about the computed matrix. -/
theorem Tame.near_matrix (h : Tame φ J A z ρ ε M) (hB : ∀ v, ‖A v‖ ≤ B * ‖v‖) (hε : ε ≤ B) (hF : Fine n M B Q α ρ κ δ η θ τ)
    {x : Fin n → ℝ} (hx : ‖x - z‖ ≤ ρ) {K : Matrix (Fin n) (Fin n) ℝ} (hK : ∀ i j, |K i j - J x i j| ≤ η) :
    (∀ i j, |K i j| ≤ κ) ∧ ∀ v, ‖v‖ ≤ 32 / 15 * M * ‖K.mulVec v‖ := by
  have hM := h.pos
  constructor
  · intro i j
    have h1 : ∀ v, ‖(J x).mulVec v‖ ≤ 2 * B * ‖v‖ := by
      intro v
      have h1 := h.matrix x hx v
      have h2 := hB v
      have h3 : ε * ‖v‖ ≤ B * ‖v‖ := mul_le_mul_of_nonneg_right hε (norm_nonneg _)
      calc ‖(J x).mulVec v‖ = ‖((J x).mulVec v - A v) + A v‖ := by congr 1; abel
        _ ≤ _ := norm_add_le _ _
        _ ≤ _ := by linarith
    have h2 := entry_le_mulVec h1 i j
    have h3 := hK i j
    have h4 := abs_add_le (K i j - J x i j) (J x i j)
    rw [sub_add_cancel] at h4
    have := hF.kappa2
    have := hF.eta1
    linarith
  · intro v
    have h1 := h.belowJ hx v
    have h2 := mulVec_near hF.eta0 hK v
    have h3 : ‖(J x).mulVec v‖ ≤ ‖K.mulVec v‖ + n * η * ‖v‖ := by
      calc ‖(J x).mulVec v‖ = ‖K.mulVec v - (K.mulVec v - (J x).mulVec v)‖ := by congr 1; abel
        _ ≤ _ := norm_sub_le _ _
        _ ≤ _ := by linarith
    have h4 := mul_le_mul_of_nonneg_left h3 hM.le
    have h5 := mul_le_mul_of_nonneg_right hF.cond (norm_nonneg v)
    linarith

/-- One rounded Newton step: `y` is the computed residual, `K` the computed matrix, `d` the computed solution and `e` the rounding error of the
update. -/
theorem Tame.rounded (h : Tame φ J A z ρ ε M) (hB : ∀ v, ‖A v‖ ≤ B * ‖v‖) (hε : ε ≤ B) (hF : Fine n M B Q α ρ κ δ η θ τ)
    (hρ : 0 ≤ ρ) (hz : φ z = 0) {x y d e : Fin n → ℝ} (hx : ‖x - z‖ ≤ ρ) (hα : ‖φ x‖ ≤ α) {K : Matrix (Fin n) (Fin n) ℝ}
    (hK : ∀ i j, |K i j - J x i j| ≤ η) (hy : ‖y - φ x‖ ≤ η) (hd : ‖K.mulVec d + y‖ ≤ θ * (‖φ x‖ + η) + τ) :
    ‖d‖ ≤ 9 / 4 * M * ‖φ x‖ + 5 * M * η ∧ ‖x + d - z‖ ≤ ρ ∧ (‖e‖ ≤ η →
      ‖x + d + e - z‖ ≤ ρ ∧ ‖φ (x + d + e)‖ ≤ 3 / 4 * ‖φ x‖ + (5 + 4 * B) * η) := by
  have hM := h.pos
  have hφ := norm_nonneg (φ x)
  have hη := hF.eta0
  have hMη : 0 ≤ M * η := by positivity
  have hMφ : 0 ≤ M * ‖φ x‖ := by positivity
  have hθ : θ * (‖φ x‖ + η) ≤ 1 / 32 * (‖φ x‖ + η) := mul_le_mul_of_nonneg_right hF.theta (by linarith)
  have hτ := hF.tau
  have hKd : ‖K.mulVec d‖ ≤ 33 / 32 * ‖φ x‖ + 65 / 32 * η := by
    calc ‖K.mulVec d‖ = ‖(K.mulVec d + y) - (y - φ x) - φ x‖ := by congr 1; abel
      _ ≤ ‖(K.mulVec d + y) - (y - φ x)‖ + ‖φ x‖ := norm_sub_le _ _
      _ ≤ ‖K.mulVec d + y‖ + ‖y - φ x‖ + ‖φ x‖ := by gcongr; exact norm_sub_le _ _
      _ ≤ _ := by linarith
  have hd1 : ‖d‖ ≤ 9 / 4 * M * ‖φ x‖ + 5 * M * η := by
    have h1 := (h.near_matrix hB hε hF hx hK).2 d
    have h2 := mul_le_mul_of_nonneg_left hKd hM.le
    nlinarith
  have hpos := h.near_zero hρ hz hx le_rfl
  have hMα : M * ‖φ x‖ ≤ M * α := mul_le_mul_of_nonneg_left hα hM.le
  have hball := hF.ball
  have hxd : ‖x + d - z‖ ≤ 17 / 4 * M * ‖φ x‖ + 5 * M * η := by
    calc ‖x + d - z‖ = ‖(x - z) + d‖ := by congr 1; abel
      _ ≤ _ := norm_add_le _ _
      _ ≤ _ := by linarith
  refine ⟨hd1, by linarith, fun he => ?_⟩
  have hin : ‖x + d + e - z‖ ≤ ρ := by
    calc ‖x + d + e - z‖ = ‖(x + d - z) + e‖ := by congr 1; abel
      _ ≤ _ := norm_add_le _ _
      _ ≤ _ := by linarith
  refine ⟨hin, ?_⟩
  have hde : ‖d + e‖ ≤ 9 / 4 * M * ‖φ x‖ + 5 * M * η + η := (norm_add_le _ _).trans (by linarith)
  have h1 := h.diff (x + d + e) x hin hx
  rw [show x + d + e - x = d + e by abel] at h1
  have h2 := h.matrix x hx (d + e)
  -- the linear part
  have hKJ := mulVec_near hη hK d
  have hJe : ‖(J x).mulVec e‖ ≤ 2 * B * η := by
    have h3 := h.matrix x hx e
    have h4 := hB e
    have h5 : ε * ‖e‖ ≤ B * η := mul_le_mul hε he (norm_nonneg _) hF.B0
    have h6 : B * ‖e‖ ≤ B * η := mul_le_mul_of_nonneg_left he hF.B0
    calc ‖(J x).mulVec e‖ = ‖((J x).mulVec e - A e) + A e‖ := by congr 1; abel
      _ ≤ _ := norm_add_le _ _
      _ ≤ _ := by linarith
  have hn1 : (n : ℝ) * η * ‖d‖ ≤ 9 / 128 * ‖φ x‖ + 5 / 32 * η := by
    have h3 : (n : ℝ) * η * ‖d‖ ≤ n * η * (9 / 4 * M * ‖φ x‖ + 5 * M * η) := mul_le_mul_of_nonneg_left hd1 (by positivity)
    have h4 := mul_le_mul_of_nonneg_right hF.cond hφ
    have h5 := mul_le_mul_of_nonneg_right hF.cond hη
    linarith
  have hJd : ‖(J x).mulVec (d + e) + φ x‖ ≤ 1 / 8 * ‖φ x‖ + (3 + 2 * B) * η := by
    rw [Matrix.mulVec_add]
    calc ‖(J x).mulVec d + (J x).mulVec e + φ x‖
        = ‖(K.mulVec d + y) - (K.mulVec d - (J x).mulVec d) - (y - φ x) + (J x).mulVec e‖ := by congr 1; abel
      _ ≤ ‖(K.mulVec d + y) - (K.mulVec d - (J x).mulVec d) - (y - φ x)‖ + ‖(J x).mulVec e‖ := norm_add_le _ _
      _ ≤ ‖(K.mulVec d + y) - (K.mulVec d - (J x).mulVec d)‖ + ‖y - φ x‖ + ‖(J x).mulVec e‖ := by gcongr; exact norm_sub_le _ _
      _ ≤ ‖K.mulVec d + y‖ + ‖K.mulVec d - (J x).mulVec d‖ + ‖y - φ x‖ + ‖(J x).mulVec e‖ := by gcongr; exact norm_sub_le _ _
      _ ≤ _ := by linarith
  have hεd : ε * ‖d + e‖ ≤ 9 / 32 * ‖φ x‖ + 5 / 8 * η + B * η := by
    have h3 : ε * ‖d + e‖ ≤ ε * (9 / 4 * M * ‖φ x‖ + 5 * M * η + η) := mul_le_mul_of_nonneg_left hde h.eps
    have h4 := mul_le_mul_of_nonneg_right h.small hφ
    have h5 := mul_le_mul_of_nonneg_right h.small hη
    have h6 : ε * η ≤ B * η := mul_le_mul_of_nonneg_right hε hη
    linarith
  calc ‖φ (x + d + e)‖
      = ‖(φ (x + d + e) - φ x - A (d + e)) - ((J x).mulVec (d + e) - A (d + e)) + ((J x).mulVec (d + e) + φ x)‖ := by congr 1; abel
    _ ≤ ‖(φ (x + d + e) - φ x - A (d + e)) - ((J x).mulVec (d + e) - A (d + e))‖ + ‖(J x).mulVec (d + e) + φ x‖ := norm_add_le _ _
    _ ≤ ‖φ (x + d + e) - φ x - A (d + e)‖ + ‖(J x).mulVec (d + e) - A (d + e)‖ + ‖(J x).mulVec (d + e) + φ x‖ := by
        gcongr; exact norm_sub_le _ _
    _ ≤ _ := by linarith

end

variable {F : Type} [Zero F] [One F] [Add F] [Sub F] [Mul F] [Div F] [Neg F] [Flt F]

theorem vadd_ofFn' {n : Nat} (x y : Fin n → F) : vadd (List.ofFn x) (List.ofFn y) = List.ofFn fun i => x i + y i := by
  unfold vadd
  refine List.ext_getElem (by simp) fun i h1 h2 => ?_
  simp

theorem exists_ofFn' {n : Nat} {l : List F} (h : l.length = n) : ∃ v : Fin n → F, l = List.ofFn v := by
  subst h
  exact ⟨l.get, (List.ofFn_get l).symm⟩

section
variable {val : F → ℝ} {δ : ℝ}

/-- The rounded norm of a vector, compared with its largest entry. -/
theorem Rounds.norm_bounds (hR : Rounds val δ) {n : Nat} {η : ℝ} (hn : δ * (n + 1) ≤ η) (hη : η ≤ 1 / 2) {v : Fin n → F}
    (hv : ∀ i, |val (v i)| ≤ 1 / δ) :
    val (Flt.vnorm (List.ofFn v)) ≤ 2 * n * ‖fun i => val (v i)‖ + η ∧
      ‖fun i => val (v i)‖ ≤ 2 * val (Flt.vnorm (List.ofFn v)) + 2 * η := by
  have h1 := hR.vnorm (List.ofFn v) (by
    intro t ht
    obtain ⟨i, rfl⟩ := (List.mem_ofFn' _ _).1 ht
    exact hv i) (by rw [List.length_ofFn]; linarith)
  rw [List.map_ofFn, List.length_ofFn] at h1
  have hle := vnorm_ofFn_le fun i => val (v i)
  have hge := norm_le_vnorm fun i => val (v i)
  change |val (Flt.vnorm (List.ofFn v)) - Flt.vnorm (List.ofFn fun i => val (v i))| ≤
    δ * (n + 1) * (1 + Flt.vnorm (List.ofFn fun i => val (v i))) at h1
  have hW : 0 ≤ ‖fun i => val (v i)‖ := norm_nonneg _
  generalize Flt.vnorm (List.ofFn fun i => val (v i)) = V at *
  generalize ‖fun i => val (v i)‖ = W at *
  have hV : 0 ≤ V := hW.trans hge
  have h2 : δ * (n + 1) * (1 + V) ≤ η * (1 + V) := mul_le_mul_of_nonneg_right hn (by linarith)
  have h3 : η * V ≤ 1 / 2 * V := mul_le_mul_of_nonneg_right hη hV
  have h4 := abs_le.1 (h1.trans h2)
  constructor <;> linarith [h4.1, h4.2]

end

section
variable {val : F → ℝ} {S : Type} {n : Nat} {I : S → Prop} {f : S → List F → Py (S × List F)} {df : S → List F → Py (S × List (List F))}
  {sp : List (List F) → List F → Py (List F)} {φ : (Fin n → ℝ) → Fin n → ℝ} {J : (Fin n → ℝ) → Matrix (Fin n) (Fin n) ℝ}
  {A : (Fin n → ℝ) →L[ℝ] Fin n → ℝ} {z : Fin n → ℝ} {ρ ε M B Q α κ δ η θ τ : ℝ}

/-- One pass of the loop, up to the stopping test. -/
theorem newton_pass (hR : Rounds val δ) (hC : ComputesNear val n I (fun x => ‖x - z‖ ≤ ρ) f df φ J η)
    (hsp : SolvesNear val sp n κ θ τ) (h : Tame φ J A z ρ ε M) (hB : ∀ v, ‖A v‖ ≤ B * ‖v‖) (hε : ε ≤ B)
    (hF : Fine n M B Q α ρ κ δ η θ τ) (hQ : ‖z‖ + ρ ≤ Q) (hρ : 0 ≤ ρ) (hz : φ z = 0) {s : S} {x : Fin n → F} (hI : I s)
    (hx : ‖(fun i => val (x i)) - z‖ ≤ ρ) (hα : ‖φ fun i => val (x i)‖ ≤ α) :
    ∃ (s1 s2 s3 : S) (K : List (List F)) (y d w : Fin n → F), df s (List.ofFn x) = .ok (s1, K) ∧ f s1 (List.ofFn x) = .ok (s2, List.ofFn y) ∧
      sp K ((List.ofFn y).map fun v => -v) = .ok (List.ofFn d) ∧
      f s2 (List.ofFn fun i => x i + d i) = .ok (s3, List.ofFn w) ∧ I s3 ∧
      ‖(fun i => val (x i + d i)) - z‖ ≤ ρ ∧
      ‖φ fun i => val (x i + d i)‖ ≤ 3 / 4 * ‖φ fun i => val (x i)‖ + (5 + 4 * B) * η ∧
      (∀ i, |val (w i) - φ (fun i => val (x i + d i)) i| ≤ η) ∧
      ‖fun i => val (d i)‖ ≤ 9 / 4 * M * ‖φ fun i => val (x i)‖ + 5 * M * η := by
  have hδ := hR.pos
  have hM := h.pos
  have hη := hF.eta0
  have hn0 : (0 : ℝ) ≤ n := Nat.cast_nonneg n
  have hα0 : 0 ≤ α := (norm_nonneg _).trans hα
  have hmain : ∀ t : ℝ, t ≤ 2 * n * (α + ρ + 1) + 1 + Q → t ≤ 1 / δ := by
    intro t ht
    rw [le_div_iff₀ hδ]
    exact (mul_le_mul_of_nonneg_right ht hδ.le).trans hF.range
  have hnn : ∀ i : Fin n, (1 : ℝ) ≤ n := by
    intro i
    have := i.isLt
    exact_mod_cast (by omega : 1 ≤ n)
  have hbig : ∀ i : Fin n, ∀ t : ℝ, t ≤ α + ρ + 1 + Q → t ≤ 1 / δ := by
    intro i t ht
    refine hmain t ?_
    have := hnn i
    nlinarith
  obtain ⟨s1, K, e1, i1, l1, l2, l3⟩ := hC.matrix s x hI hx
  obtain ⟨s2, y, e2, i2, hy⟩ := hC.value s1 x i1 hx
  have hyφ : ‖(fun i => val (y i)) - φ fun i => val (x i)‖ ≤ η := (pi_norm_le_iff_of_nonneg hη).2 fun i => hy i
  have hyb : ∀ i, |val (y i)| ≤ ‖φ fun i => val (x i)‖ + η := by
    intro i
    have h1 := hy i
    have h2 := norm_le_pi_norm (φ fun i => val (x i)) i
    rw [Real.norm_eq_abs] at h2
    have h3 := abs_add_le (val (y i) - φ (fun i => val (x i)) i) (φ (fun i => val (x i)) i)
    rw [sub_add_cancel] at h3
    linarith
  have hyr : ∀ i, |val (y i)| ≤ 1 / δ := fun i => hbig i _ (by have := hyb i; have := hF.Q0; have := hF.eta1; linarith)
  have hneg : ∀ i, val (-(y i)) = -val (y i) := fun i => hR.neg _ (hyr i)
  have hKn := h.near_matrix hB hε hF hx l3
  have hbl : ((List.ofFn y).map fun v => -v).length = n := by simp
  have hbm : ∀ v ∈ (List.ofFn y).map fun v => -v, |val v| ≤ ‖φ fun i => val (x i)‖ + η := by
    intro v hv
    rw [List.map_ofFn] at hv
    obtain ⟨i, rfl⟩ := (List.mem_ofFn' _ _).1 hv
    show |val (-(y i))| ≤ _
    rw [hneg, abs_neg]
    exact hyb i
  have hK1 : (K.map (List.map val)).length = n := by rw [List.length_map, l1]
  have hK2 : ∀ row ∈ K.map (List.map val), row.length = n := by
    intro row hrow
    obtain ⟨r, hr, rfl⟩ := List.mem_map.1 hrow
    rw [List.length_map, l2 r hr]
  obtain ⟨dx, e3, e3l, e3r⟩ := hsp K ((List.ofFn y).map fun v => -v) l1 l2 (by
      intro row hrow v hv
      obtain ⟨p, hp, rfl⟩ := List.mem_iff_getElem.1 hrow
      obtain ⟨q, hq, rfl⟩ := List.mem_iff_getElem.1 hv
      have hq' : q < n := by rw [l2 _ hrow] at hq; exact hq
      have := hKn.1 ⟨p, by omega⟩ ⟨q, hq'⟩
      simpa [matOf, List.getD_eq_getElem?_getD, hp, hq] using this)
    (fun v => (hKn.2 v).trans (mul_le_mul_of_nonneg_right (by have := hF.kappa1; linarith) (norm_nonneg _))) hbl
    (fun v hv => (hbm v hv).trans (by have := hF.kappa3; have := hF.eta1; linarith))
  obtain ⟨d, rfl⟩ := exists_ofFn' e3l
  have hd : ‖(matOf n (K.map (List.map val))).mulVec (fun i => val (d i)) + fun i => val (y i)‖ ≤
      θ * (‖φ fun i => val (x i)‖ + η) + τ := by
    have h0 := e3r _ hbm
    refine (pi_norm_le_iff_of_nonneg (add_nonneg (mul_nonneg hF.theta0 (by positivity)) hF.tau0)).2 fun i => ?_
    refine h0 ((matOf n (K.map (List.map val))).mulVec (fun i => val (d i)) i + val (y i)) ?_
    rw [List.map_ofFn]
    change _ ∈ List.zipWith _ (matVec (K.map (List.map val)) (List.ofFn fun i => val (d i))) _
    rw [matVec_ofFn hK1 hK2, List.map_ofFn, List.map_ofFn]
    refine List.mem_iff_getElem.2 ⟨i, by simp, ?_⟩
    simp [List.getElem_zipWith, hneg]
  obtain ⟨p1, p2, p3⟩ := h.rounded (e := (fun i => val (x i + d i)) - ((fun i => val (x i)) + fun i => val (d i))) hB hε hF hρ hz hx hα l3 hyφ hd
  have hxr : ∀ i, |val (x i)| ≤ Q := by
    intro i
    have h1 := norm_le_pi_norm ((fun i => val (x i)) - z) i
    have h2 := norm_le_pi_norm z i
    rw [Pi.sub_apply, Real.norm_eq_abs] at h1
    rw [Real.norm_eq_abs] at h2
    have h3 := abs_add_le (val (x i) - z i) (z i)
    rw [sub_add_cancel] at h3
    linarith
  have hdr : ∀ i, |val (d i)| ≤ ρ := by
    intro i
    have h1 := norm_le_pi_norm (fun i => val (d i)) i
    rw [Real.norm_eq_abs] at h1
    have h2 : M * ‖φ fun i => val (x i)‖ ≤ M * α := mul_le_mul_of_nonneg_left hα hM.le
    have h3 : 0 ≤ M * α := by positivity
    have := hF.ball
    linarith
  have hsr : ∀ i, |val (x i) + val (d i)| ≤ Q := by
    intro i
    have h1 := norm_le_pi_norm ((fun i => val (x i)) + (fun i => val (d i)) - z) i
    have h2 := norm_le_pi_norm z i
    rw [Pi.sub_apply, Pi.add_apply, Real.norm_eq_abs] at h1
    rw [Real.norm_eq_abs] at h2
    have h3 := abs_add_le (val (x i) + val (d i) - z i) (z i)
    rw [sub_add_cancel] at h3
    linarith
  have he : ‖(fun i => val (x i + d i)) - ((fun i => val (x i)) + fun i => val (d i))‖ ≤ η := by
    refine (pi_norm_le_iff_of_nonneg hη).2 fun i => ?_
    have h1 := hR.add (x i) (d i) (hbig i _ (by have := hxr i; linarith)) (hbig i _ (by have := hdr i; have := hF.Q0; linarith))
    refine (show |val (x i + d i) - (val (x i) + val (d i))| ≤ η from h1.trans (le_trans ?_ hF.delta))
    exact mul_le_mul_of_nonneg_left (by have := hsr i; linarith) hδ.le
  obtain ⟨p4, p5⟩ := p3 he
  rw [add_sub_cancel] at p4 p5
  obtain ⟨s3, w, e5, i3, hw⟩ := hC.value s2 (fun i => x i + d i) i2 p4
  exact ⟨s1, s2, s3, K, y, d, w, e1, e2, e3, e5, i3, p4, p5, hw, p1⟩

/-- The computed stopping criteria. -/
theorem stop_bounds (hR : Rounds val δ) (hF : Fine n M B Q α ρ κ δ η θ τ) (hρ : 0 ≤ ρ)
    {φ : (Fin n → ℝ) → Fin n → ℝ} {x' : Fin n → ℝ} (hα : ‖φ x'‖ ≤ α) {w d : Fin n → F} (hw : ∀ i, |val (w i) - φ x' i| ≤ η)
    (hd : ‖fun i => val (d i)‖ ≤ ρ) :
    |val (Flt.vnorm (List.ofFn w))| ≤ 1 / δ ∧ |val (Flt.vnorm (List.ofFn d))| ≤ 1 / δ ∧
      val (Flt.vnorm (List.ofFn w)) ≤ 2 * n * (‖φ x'‖ + η) + η ∧ ‖φ x'‖ ≤ 2 * val (Flt.vnorm (List.ofFn w)) + 3 * η ∧
      val (Flt.vnorm (List.ofFn d)) ≤ 2 * n * ‖fun i => val (d i)‖ + η := by
  have hδ := hR.pos
  have hη := hF.eta0
  have hη1 := hF.eta1
  have hQ := hF.Q0
  have hn0 : (0 : ℝ) ≤ n := Nat.cast_nonneg n
  have hα0 : 0 ≤ α := (norm_nonneg _).trans hα
  have hmain : ∀ t : ℝ, t ≤ 2 * n * (α + ρ + 1) + 1 + Q → t ≤ 1 / δ := by
    intro t ht
    rw [le_div_iff₀ hδ]
    exact (mul_le_mul_of_nonneg_right ht hδ.le).trans hF.range
  have hnn : ∀ i : Fin n, (1 : ℝ) ≤ n := by
    intro i
    have := i.isLt
    exact_mod_cast (by omega : 1 ≤ n)
  have hbig : ∀ i : Fin n, ∀ t : ℝ, t ≤ α + ρ + 1 + Q → t ≤ 1 / δ := by
    intro i t ht
    refine hmain t ?_
    have := hnn i
    nlinarith
  have hwn : ‖fun i => val (w i)‖ ≤ ‖φ x'‖ + η := by
    refine (pi_norm_le_iff_of_nonneg (by positivity)).2 fun i => ?_
    have h1 := hw i
    have h2 := norm_le_pi_norm (φ x') i
    rw [Real.norm_eq_abs] at h2 ⊢
    have h3 := abs_add_le (val (w i) - φ x' i) (φ x' i)
    rw [sub_add_cancel] at h3
    linarith
  have hφn : ‖φ x'‖ ≤ ‖fun i => val (w i)‖ + η := by
    refine (pi_norm_le_iff_of_nonneg (by positivity)).2 fun i => ?_
    have h1 := hw i
    have h2 := norm_le_pi_norm (fun i => val (w i)) i
    rw [Real.norm_eq_abs] at h2 ⊢
    have h3 := abs_sub (val (w i)) (val (w i) - φ x' i)
    rw [sub_sub_cancel] at h3
    linarith
  obtain ⟨a1, a2⟩ := hR.norm_bounds hF.deltan hη1 (v := w) (fun i => hbig i _ (by
    have h2 := norm_le_pi_norm (fun i => val (w i)) i
    rw [Real.norm_eq_abs] at h2
    linarith))
  obtain ⟨b1, b2⟩ := hR.norm_bounds hF.deltan hη1 (v := d) (fun i => hbig i _ (by
    have h2 := norm_le_pi_norm (fun i => val (d i)) i
    rw [Real.norm_eq_abs] at h2
    linarith))
  have hw0 := norm_nonneg fun i => val (w i)
  have hd0 := norm_nonneg fun i => val (d i)
  have c1 : 2 * (n : ℝ) * ‖fun i => val (w i)‖ ≤ 2 * n * (‖φ x'‖ + η) := mul_le_mul_of_nonneg_left hwn (by positivity)
  have c2 : 2 * (n : ℝ) * (‖φ x'‖ + η) ≤ 2 * n * (α + 1) := mul_le_mul_of_nonneg_left (by linarith) (by positivity)
  have c3 : 2 * (n : ℝ) * ‖fun i => val (d i)‖ ≤ 2 * n * ρ := mul_le_mul_of_nonneg_left hd (by positivity)
  have c4 : 0 ≤ 2 * (n : ℝ) * ρ := by positivity
  have c5 : 0 ≤ 2 * (n : ℝ) * (α + 1) := by positivity
  refine ⟨hmain _ (abs_le.2 ⟨by linarith, by linarith⟩), hmain _ (abs_le.2 ⟨by linarith, by linarith⟩), by linarith, by linarith, b1⟩

theorem newtonLoop_rounded (hR : Rounds val δ) (hC : ComputesNear val n I (fun x => ‖x - z‖ ≤ ρ) f df φ J η)
    (hsp : SolvesNear val sp n κ θ τ) (h : Tame φ J A z ρ ε M) (hB : ∀ v, ‖A v‖ ≤ B * ‖v‖) (hε : ε ≤ B)
    (hF : Fine n M B Q α ρ κ δ η θ τ) (hQ : ‖z‖ + ρ ≤ Q) (hρ : 0 ≤ ρ) (hz : φ z = 0) {ftol xtol : F} (hft : |val ftol| ≤ 1 / δ)
    (hxt : |val xtol| ≤ 1 / δ) :
    ∀ (k : Nat) (m : Int) (s : S) (x : Fin n → F) (p : ℝ), I s → ‖(fun i => val (x i)) - z‖ ≤ ρ → ‖φ fun i => val (x i)‖ ≤ α → 0 ≤ p →
      ‖φ fun i => val (x i)‖ ≤ p + 4 * (5 + 4 * B) * η →
      2 * n * p * (3 / 4) ^ (k + 1) + (8 * n * (5 + 4 * B) + 2 * n + 1) * η < val ftol →
      2 * n * (9 / 4 * M * p) * (3 / 4) ^ k + (2 * n * (9 * M * (5 + 4 * B) + 5 * M) + 1) * η < val xtol →
      ∃ s' o y, newtonLoop f df sp ftol xtol (k + 1) m s (List.ofFn x) = .ok (s', o) ∧ I s' ∧ o.success = true ∧
        o.x = List.ofFn y ∧ ‖(fun i => val (y i)) - z‖ ≤ ρ ∧ ‖φ fun i => val (y i)‖ ≤ 2 * val ftol + 3 * η := by
  have hη := hF.eta0
  have hM := h.pos
  have hBη : 0 ≤ B * η := mul_nonneg hF.B0 hη
  intro k
  induction k with
  | zero =>
    intro m s x p hI hx hα hp hpa hf hxt'
    obtain ⟨s1, s2, s3, K, y, d, w, e1, e2, e3, e5, i3, p4, p5, hw, p1⟩ := newton_pass hR hC hsp h hB hε hF hQ hρ hz hI hx hα
    have hα' : ‖φ fun i => val (x i + d i)‖ ≤ α := by have := hF.decay; linarith
    have hdρ : ‖fun i => val (d i)‖ ≤ ρ := by
      have h2 : M * ‖φ fun i => val (x i)‖ ≤ M * α := mul_le_mul_of_nonneg_left hα hM.le
      have h3 : 0 ≤ M * α := mul_nonneg hM.le ((norm_nonneg _).trans hα)
      have := hF.ball
      linarith
    obtain ⟨b1, b2, b3, b4, b5⟩ := stop_bounds hR hF hρ hα' hw hdρ
    have c1 : val (Flt.vnorm (List.ofFn w)) < val ftol := by
      have h1 : 2 * (n : ℝ) * (‖φ fun i => val (x i + d i)‖ + η) ≤ 2 * n * ((3 / 4 * (p + 4 * (5 + 4 * B) * η) + (5 + 4 * B) * η) + η) :=
        mul_le_mul_of_nonneg_left (by linarith) (by positivity)
      norm_num at hf
      nlinarith
    have c2 : val (Flt.vnorm (List.ofFn d)) < val xtol := by
      have h0 : M * ‖φ fun i => val (x i)‖ ≤ M * (p + 4 * (5 + 4 * B) * η) := mul_le_mul_of_nonneg_left hpa hM.le
      have h1 : 2 * (n : ℝ) * ‖fun i => val (d i)‖ ≤ 2 * n * (9 / 4 * (M * (p + 4 * (5 + 4 * B) * η)) + 5 * M * η) :=
        mul_le_mul_of_nonneg_left (by linarith) (by positivity)
      norm_num at hxt'
      nlinarith
    have hc : (Flt.lt (Flt.vnorm (List.ofFn w)) ftol && Flt.lt (Flt.vnorm (List.ofFn d)) xtol) = true := by
      rw [Bool.and_eq_true]
      exact ⟨(hR.lt _ _ b1 hft).2 c1, (hR.lt _ _ b2 hxt).2 c2⟩
    refine ⟨s3, ⟨List.ofFn fun i => x i + d i, true, m + 1, Flt.vnorm (List.ofFn w), Flt.vnorm (List.ofFn d)⟩, fun i => x i + d i, ?_, i3, rfl, rfl,
      p4, by linarith⟩
    rw [newtonLoop]
    simp only [e1, py_bind_ok, e2, e3, List.length_ofFn, ne_eq, not_true_eq_false, if_false, vadd_ofFn', e5, hc, if_true]
    rfl
  | succ k ih =>
    intro m s x p hI hx hα hp hpa hf hxt'
    obtain ⟨s1, s2, s3, K, y, d, w, e1, e2, e3, e5, i3, p4, p5, hw, p1⟩ := newton_pass hR hC hsp h hB hε hF hQ hρ hz hI hx hα
    have hα' : ‖φ fun i => val (x i + d i)‖ ≤ α := by have := hF.decay; linarith
    have hdρ : ‖fun i => val (d i)‖ ≤ ρ := by
      have h2 : M * ‖φ fun i => val (x i)‖ ≤ M * α := mul_le_mul_of_nonneg_left hα hM.le
      have h3 : 0 ≤ M * α := mul_nonneg hM.le ((norm_nonneg _).trans hα)
      have := hF.ball
      linarith
    obtain ⟨b1, b2, b3, b4, b5⟩ := stop_bounds hR hF hρ hα' hw hdρ
    have hrun : newtonLoop f df sp ftol xtol (k + 1 + 1) m s (List.ofFn x) =
        if (Flt.lt (Flt.vnorm (List.ofFn w)) ftol && Flt.lt (Flt.vnorm (List.ofFn d)) xtol) = true then
          .ok (s3, ⟨List.ofFn fun i => x i + d i, true, m + 1, Flt.vnorm (List.ofFn w), Flt.vnorm (List.ofFn d)⟩)
        else newtonLoop f df sp ftol xtol (k + 1) (m + 1) s3 (List.ofFn fun i => x i + d i) := by
      rw [newtonLoop]
      simp only [e1, py_bind_ok, e2, e3, List.length_ofFn, ne_eq, not_true_eq_false, if_false, vadd_ofFn', e5]
      rfl
    rw [hrun]
    by_cases hc : (Flt.lt (Flt.vnorm (List.ofFn w)) ftol && Flt.lt (Flt.vnorm (List.ofFn d)) xtol) = true
    · rw [if_pos hc]
      have h1 := (hR.lt _ _ b1 hft).1 (Bool.and_eq_true _ _ ▸ hc).1
      exact ⟨s3, _, fun i => x i + d i, rfl, i3, rfl, rfl, p4, by linarith⟩
    · rw [if_neg hc]
      refine ih (m + 1) s3 (fun i => x i + d i) (3 / 4 * p) i3 p4 hα' (by linarith) (by linarith) (lt_of_eq_of_lt ?_ hf) (lt_of_eq_of_lt ?_ hxt')
      · rw [pow_succ _ (k + 1)]; ring
      · rw [pow_succ _ k]; ring

/-- The same for `newton`. -/
theorem newton_rounded (hR : Rounds val δ) (hC : ComputesNear val n I (fun x => ‖x - z‖ ≤ ρ) f df φ J η)
    (hsp : SolvesNear val sp n κ θ τ) (h : Tame φ J A z ρ ε M) (hB : ∀ v, ‖A v‖ ≤ B * ‖v‖) (hε : ε ≤ B)
    (hF : Fine n M B Q α ρ κ δ η θ τ) (hQ : ‖z‖ + ρ ≤ Q) (hρ : 0 ≤ ρ) (hz : φ z = 0) {ftol xtol : F} (hft : |val ftol| ≤ 1 / δ)
    (hxt : |val xtol| ≤ 1 / δ) {N : Nat} {nfev : Int} (hN : (N : Int) + 1 ≤ nfev) {s : S} {x : Fin n → F} {p C : ℝ} (hI : I s)
    (hx : ‖(fun i => val (x i)) - z‖ ≤ ρ) (hα : ‖φ fun i => val (x i)‖ ≤ α) (hp : ‖φ fun i => val (x i)‖ ≤ p)
    (hC1 : 2 * n * (1 + 9 / 4 * M) ≤ C) (hC2 : (8 * n * (5 + 4 * B) + 2 * n + 1) + (2 * n * (9 * M * (5 + 4 * B) + 5 * M) + 1) ≤ C)
    (hNf : C * p * (3 / 4) ^ N + C * η < val ftol) (hNx : C * p * (3 / 4) ^ N + C * η < val xtol) :
      ∃ s' o y, newton f df sp s (List.ofFn x) nfev ftol xtol = .ok (s', o) ∧ I s' ∧ o.success = true ∧
        o.x = List.ofFn y ∧ ‖(fun i => val (y i)) - z‖ ≤ ρ ∧ ‖φ fun i => val (y i)‖ ≤ 2 * val ftol + 3 * η := by
  obtain ⟨k, hk⟩ : ∃ k : Nat, nfev.toNat = k + 1 := ⟨nfev.toNat - 1, by omega⟩
  have hNk : N ≤ k := by omega
  have hM := h.pos
  have hη := hF.eta0
  have hB0 := hF.B0
  have hp0 : 0 ≤ p := (norm_nonneg _).trans hp
  have hpow : (3 / 4 : ℝ) ^ k ≤ (3 / 4) ^ N := pow_le_pow_of_le_one (by norm_num) (by norm_num) hNk
  have hpow1 : (3 / 4 : ℝ) ^ (k + 1) ≤ (3 / 4) ^ N := pow_le_pow_of_le_one (by norm_num) (by norm_num) (by omega)
  have hnM : 0 ≤ (n : ℝ) * M := by positivity
  have hnn : (0 : ℝ) ≤ n := Nat.cast_nonneg n
  have hC0 : 0 ≤ C := le_trans (by positivity) hC1
  unfold newton
  rw [hk]
  refine newtonLoop_rounded hR hC hsp h hB hε hF hQ hρ hz hft hxt k 0 s x p hI hx hα hp0 (by nlinarith [mul_nonneg hB0 hη]) (lt_of_le_of_lt ?_ hNf)
    (lt_of_le_of_lt ?_ hNx)
  · refine add_le_add ?_ (mul_le_mul_of_nonneg_right ?_ hη)
    · refine mul_le_mul ?_ hpow1 (by positivity) (by positivity)
      exact mul_le_mul_of_nonneg_right (by linarith) hp0
    · have : 0 ≤ 2 * (n : ℝ) * (9 * M * (5 + 4 * B) + 5 * M) + 1 := by positivity
      linarith
  · refine add_le_add ?_ (mul_le_mul_of_nonneg_right ?_ hη)
    · refine mul_le_mul ?_ hpow (by positivity) (by positivity)
      rw [← mul_assoc]
      exact mul_le_mul_of_nonneg_right (by linarith) hp0
    · have : 0 ≤ 8 * (n : ℝ) * (5 + 4 * B) + 2 * n + 1 := by positivity
      linarith

end

end TrussPy
