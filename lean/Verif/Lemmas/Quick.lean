import Verif.Lemmas.Tame
/-!
# Quadratic convergence of the Newton loop
-/

namespace TrussPy

/-- The linearisation error is quadratic in a ball around `c`. -/
def Quad {n : Nat} (φ : (Fin n → ℝ) → Fin n → ℝ) (J : (Fin n → ℝ) → Matrix (Fin n) (Fin n) ℝ) (c : Fin n → ℝ) (ρ Λ : ℝ) : Prop :=
  ∀ x y, ‖x - c‖ ≤ ρ → ‖y - c‖ ≤ ρ → ‖φ y - φ x - (J x).mulVec (y - x)‖ ≤ Λ * ‖y - x‖ ^ 2

theorem Quad.recenter {n : Nat} {φ : (Fin n → ℝ) → Fin n → ℝ} {J : (Fin n → ℝ) → Matrix (Fin n) (Fin n) ℝ}
    {c c' : Fin n → ℝ} {ρ ρ' Λ : ℝ} (h : Quad φ J c ρ Λ) (hr : ‖c' - c‖ + ρ' ≤ ρ) : Quad φ J c' ρ' Λ := by
  have hin : ∀ x, ‖x - c'‖ ≤ ρ' → ‖x - c‖ ≤ ρ := by
    intro x hx
    calc ‖x - c‖ = ‖(x - c') + (c' - c)‖ := by congr 1; abel
      _ ≤ _ := norm_add_le _ _
      _ ≤ ρ := by linarith
  exact fun x y hx hy => h x y (hin x hx) (hin y hy)

theorem Quad.mono {n : Nat} {φ : (Fin n → ℝ) → Fin n → ℝ} {J : (Fin n → ℝ) → Matrix (Fin n) (Fin n) ℝ}
    {c : Fin n → ℝ} {ρ Λ Λ' : ℝ} (h : Quad φ J c ρ Λ) (hΛ : Λ ≤ Λ') : Quad φ J c ρ Λ' :=
  fun x y hx hy => (h x y hx hy).trans (mul_le_mul_of_nonneg_right hΛ (by positivity))

theorem exists_quad {n : Nat} {φ : (Fin n → ℝ) → Fin n → ℝ} {J : (Fin n → ℝ) → Matrix (Fin n) (Fin n) ℝ} {c : Fin n → ℝ}
    (hφ : ContDiffAt ℝ 2 φ c) (hJ : ∀ᶠ x in nhds c, HasFDerivAt φ (mulCLM (J x)) x) :
    ∃ ρ > 0, ∃ Λ ≥ 0, Quad φ J c ρ Λ := by
  have h1 : ContDiffAt ℝ 1 (fderiv ℝ φ) c := hφ.fderiv_right (m := 1) (by norm_num)
  obtain ⟨K, t, ht, hL⟩ := h1.exists_lipschitzOnWith
  obtain ⟨r, hr, hball⟩ := Metric.eventually_nhds_iff_ball.1 ((Filter.eventually_mem_set.2 ht).and hJ)
  refine ⟨r / 2, by linarith, K, K.2, fun x y hx hy => ?_⟩
  have hin : ∀ x : Fin n → ℝ, ‖x - c‖ ≤ r / 2 → x ∈ Metric.ball c r := by
    intro x hx
    rw [Metric.mem_ball, dist_eq_norm]
    linarith
  have hseg : segment ℝ x y ⊆ Metric.ball c r := (convex_ball c r).segment_subset (hin x hx) (hin y hy)
  have key := (convex_segment x y).norm_image_sub_le_of_norm_hasFDerivWithin_le' (f := φ) (f' := fun z => mulCLM (J z))
    (φ := mulCLM (J x)) (C := K * ‖y - x‖) (fun z hz => (hball z (hseg hz)).2.hasFDerivWithinAt) (fun z hz => by
      have e1 := (hball z (hseg hz)).2.fderiv
      have e2 := (hball x (hin x hx)).2.fderiv
      rw [← e1, ← e2]
      refine (hL.norm_sub_le (hball z (hseg hz)).1 (hball x (hin x hx)).1).trans ?_
      refine mul_le_mul_of_nonneg_left ?_ K.2
      exact norm_sub_le_of_mem_segment hz) (left_mem_segment ℝ x y) (right_mem_segment ℝ x y)
  rw [mulCLM_apply] at key
  refine key.trans_eq ?_
  ring

/-- A bound of the residual after some Newton steps: it is halved, and roughly squared, in every step. -/
noncomputable def decay (D : ℝ) : Nat → ℝ → ℝ
  | 0, r => r
  | k + 1, r => decay D k (min (r / 2) (D * r ^ 2))

theorem decay_mono {D D' : ℝ} (h0 : 0 ≤ D) (hD : D ≤ D') (k : Nat) : ∀ {r r' : ℝ}, 0 ≤ r → r ≤ r' → decay D k r ≤ decay D' k r' := by
  induction k with
  | zero => exact fun _ h => h
  | succ k ih =>
    intro r r' hr h
    have hD0 : 0 ≤ D' := h0.trans hD
    refine ih (le_min (by positivity) (by positivity)) (min_le_min (by linarith) ?_)
    gcongr

theorem decay_half {D : ℝ} (h0 : 0 ≤ D) (k : Nat) : ∀ {r : ℝ}, 0 ≤ r → decay D k r * 2 ^ k ≤ r := by
  induction k with
  | zero => intro r _; simp [decay]
  | succ k ih =>
    intro r hr
    have h1 := ih (r := min (r / 2) (D * r ^ 2)) (le_min (by positivity) (by positivity))
    have h2 := min_le_left (r / 2) (D * r ^ 2)
    rw [pow_succ, ← mul_assoc]
    show decay D k (min (r / 2) (D * r ^ 2)) * 2 ^ k * 2 ≤ r
    linarith

theorem decay_nonneg {D : ℝ} (h0 : 0 ≤ D) (k : Nat) : ∀ {r : ℝ}, 0 ≤ r → 0 ≤ decay D k r := by
  induction k with
  | zero => exact fun h => h
  | succ k ih => intro r hr; exact ih (le_min (by positivity) (by positivity))

theorem decay_square {D : ℝ} (h0 : 0 ≤ D) (k : Nat) : ∀ {r : ℝ}, 0 ≤ r → D * decay D k r ≤ (D * r) ^ 2 ^ k := by
  induction k with
  | zero => intro r _; simp [decay]
  | succ k ih =>
    intro r hr
    have h1 : 0 ≤ min (r / 2) (D * r ^ 2) := le_min (by positivity) (by positivity)
    have h2 := min_le_right (r / 2) (D * r ^ 2)
    calc D * decay D k (min (r / 2) (D * r ^ 2)) ≤ (D * min (r / 2) (D * r ^ 2)) ^ 2 ^ k := ih h1
      _ ≤ (D * (D * r ^ 2)) ^ 2 ^ k := pow_le_pow_left₀ (mul_nonneg h0 h1) (mul_le_mul_of_nonneg_left h2 h0) _
      _ = (D * r) ^ 2 ^ (k + 1) := by rw [pow_succ 2 k, mul_comm (2 ^ k) 2, pow_mul]; congr 1; ring

/-- The iterations allowed suffice for a residual `r` at the start. -/
def Enough (B D ftol xtol : ℝ) (nfev : Int) (r : ℝ) : Prop :=
  ∃ N : Nat, (N : Int) + 1 ≤ nfev ∧ B * decay D N r < ftol ∧ B * decay D N r < xtol

theorem Shrinks.mono {C C' r tol : ℝ} {N : Nat} (h : Shrinks C r tol N) (hC : |C'| ≤ C) (hr : 0 ≤ r) : Shrinks C' r tol N := by
  have h1 : |C' * r| ≤ C * r := by
    rw [abs_mul, abs_of_nonneg hr]
    exact mul_le_mul_of_nonneg_right hC hr
  rcases h with h | h
  · exact Or.inl (((le_abs_self _).trans h1).trans_lt h)
  · refine Or.inr (lt_of_le_of_lt ?_ h)
    refine (le_abs_self _).trans ?_
    rw [abs_pow]
    exact pow_le_pow_left₀ (abs_nonneg _) h1 _

theorem Shrinks.scale {C r r' s tol : ℝ} {N : Nat} (h : Shrinks (C * s) r tol N) (hr : r' = s * r) : Shrinks C r' tol N := by
  unfold Shrinks at *
  rwa [hr, ← mul_assoc]

theorem Shrinks.decay {B C D r tol : ℝ} {N : Nat} (h : Shrinks C r tol N) (hD : 0 ≤ D) (hDC : D ≤ C) (hBC : B ≤ C) (hr : 0 ≤ r) :
    B * decay D N r < tol := by
  have hC := hD.trans hDC
  rcases h with h | h
  · have h1 := mul_le_mul_of_nonneg_left (decay_half hD N hr) hC
    rw [← mul_assoc] at h1
    have hp : (0 : ℝ) < 2 ^ N := by positivity
    exact (mul_le_mul_of_nonneg_right hBC (decay_nonneg hD N hr)).trans_lt (lt_of_mul_lt_mul_right (h1.trans_lt h) hp.le)
  · refine lt_of_le_of_lt ?_ h
    refine le_trans ?_ (decay_square hC N hr)
    exact mul_le_mul hBC (decay_mono hD hDC N hr le_rfl) (decay_nonneg hD N hr) hC

theorem Shrinks.enough {B C D r ftol xtol : ℝ} {N : Nat} {nfev : Int} (h : Shrinks C r ftol N) (h' : Shrinks C r xtol N)
    (hN : (N : Int) + 1 ≤ nfev) (hD : 0 ≤ D) (hDC : D ≤ C) (hBC : B ≤ C) (hr : 0 ≤ r) : Enough B D ftol xtol nfev r :=
  ⟨N, hN, h.decay hD hDC hBC hr, h'.decay hD hDC hBC hr⟩

theorem Enough.mono {B D r r' ftol xtol : ℝ} {nfev : Int} (h : Enough B D ftol xtol nfev r) (hB : 0 ≤ B) (hD : 0 ≤ D)
    (hr : 0 ≤ r') (hrr : r' ≤ r) : Enough B D ftol xtol nfev r' := by
  obtain ⟨N, h1, h2, h3⟩ := h
  have := mul_le_mul_of_nonneg_left (decay_mono hD le_rfl N hr hrr) hB
  exact ⟨N, h1, this.trans_lt h2, this.trans_lt h3⟩

/-- `N` squarings give `3/10 * 2^N` decimal digits. -/
theorem shrinks_digits {C r : ℝ} (h : |C * r| ≤ 1 / 2) {k : Int} {N : Nat} (hk : 10 * k ≤ 3 * 2 ^ N) :
    Shrinks C r ((10 : ℝ) ^ (-k)) N := by
  refine Or.inr ?_
  have h1 : (C * r) ^ 2 ^ N ≤ (1 / 2) ^ 2 ^ N := by
    refine (le_abs_self _).trans ?_
    rw [abs_pow]
    exact pow_le_pow_left₀ (abs_nonneg _) h _
  refine h1.trans_lt ?_
  have hp : 2 ^ N ≠ 0 := by positivity
  obtain ⟨m, hm | hm⟩ := k.eq_nat_or_neg
  · subst hm
    rw [zpow_neg, zpow_natCast, one_div, inv_pow]
    refine inv_strictAnti₀ (by positivity) ?_
    refine lt_of_pow_lt_pow_left₀ 10 (by positivity) ?_
    have h2 : 10 * m ≤ 3 * 2 ^ N := by exact_mod_cast hk
    calc ((10 : ℝ) ^ m) ^ 10 = 10 ^ (10 * m) := by rw [← pow_mul, mul_comm]
      _ ≤ 10 ^ (3 * 2 ^ N) := pow_le_pow_right₀ (by norm_num) h2
      _ = (10 ^ 3) ^ 2 ^ N := pow_mul _ _ _
      _ < (2 ^ 10) ^ 2 ^ N := pow_lt_pow_left₀ (by norm_num) (by norm_num) hp
      _ = (2 ^ 2 ^ N) ^ 10 := by rw [← pow_mul, ← pow_mul, mul_comm]
  · subst hm
    rw [neg_neg, zpow_natCast]
    exact (pow_lt_one₀ (by norm_num) (by norm_num) hp).trans_le (one_le_pow₀ (by norm_num))

theorem Tame.step_square {n : Nat} {φ : (Fin n → ℝ) → Fin n → ℝ} {J : (Fin n → ℝ) → Matrix (Fin n) (Fin n) ℝ}
    {A : (Fin n → ℝ) →L[ℝ] Fin n → ℝ} {c : Fin n → ℝ} {ρ ε M Λ : ℝ} (h : Tame φ J A c ρ ε M) (hΛ : 0 ≤ Λ)
    (hq : Quad φ J c ρ Λ) {x dx : Fin n → ℝ} (hx : ‖x - c‖ + 4 * M * ‖φ x‖ ≤ ρ)
    (hdx : (J x).mulVec dx = -φ x) : ‖φ (x + dx)‖ ≤ 4 * Λ * M ^ 2 * ‖φ x‖ ^ 2 := by
  obtain ⟨h1, -, h3⟩ := h.step hx hdx
  have hM := h.pos
  have e1 : ‖x - c‖ ≤ ρ := by
    have : 0 ≤ M * ‖φ x‖ := by positivity
    linarith
  have e2 : ‖x + dx - c‖ ≤ ρ := by
    have : 0 ≤ M * ‖φ (x + dx)‖ := by positivity
    linarith
  have h4 := hq x (x + dx) e1 e2
  rw [add_sub_cancel_left, hdx, sub_neg_eq_add, sub_add_cancel] at h4
  refine h4.trans ?_
  have h5 : ‖dx‖ ^ 2 ≤ (2 * M * ‖φ x‖) ^ 2 := pow_le_pow_left₀ (norm_nonneg _) h1 2
  calc Λ * ‖dx‖ ^ 2 ≤ Λ * (2 * M * ‖φ x‖) ^ 2 := mul_le_mul_of_nonneg_left h5 hΛ
    _ = _ := by ring

theorem newtonLoop_quick {S : Type} {n : Nat} {I : S → Prop} {f : S → List ℝ → Py (S × List ℝ)}
    {df : S → List ℝ → Py (S × List (List ℝ))} {sp : List (List ℝ) → List ℝ → Py (List ℝ)}
    {φ : (Fin n → ℝ) → Fin n → ℝ} {J : (Fin n → ℝ) → Matrix (Fin n) (Fin n) ℝ} (hC : Computes n I f df φ J)
    (hsp : SolvesRegular sp n) {A : (Fin n → ℝ) →L[ℝ] Fin n → ℝ} {c : Fin n → ℝ} {ρ ε M D : ℝ} (h : Tame φ J A c ρ ε M)
    (hD : 0 ≤ D) (hq : ∀ x dx, ‖x - c‖ + 4 * M * ‖φ x‖ ≤ ρ → (J x).mulVec dx = -φ x → ‖φ (x + dx)‖ ≤ D * ‖φ x‖ ^ 2)
    {ftol xtol : ℝ} {N : Nat} : ∀ (k : Nat) (m : Int) (s : S) (x : Fin n → ℝ), N ≤ k → I s →
      ‖x - c‖ + 4 * M * ‖φ x‖ ≤ ρ → n * ((1 + 2 * M) * decay D N ‖φ x‖) < ftol → n * ((1 + 2 * M) * decay D N ‖φ x‖) < xtol →
      ∃ s' o y, newtonLoop f df sp ftol xtol (k + 1) m s (List.ofFn x) = .ok (s', o) ∧ I s' ∧ o.success = true ∧
        o.x = List.ofFn y ∧ ‖y - x‖ ≤ 4 * M * ‖φ x‖ ∧ Flt.vnorm (List.ofFn (φ y)) < ftol ∧
        ∃ u v, y = u + v ∧ (J u).mulVec v = -φ u := by
  induction N with
  | zero =>
    intro k m s x _ hI hx hf hxt
    change n * ((1 + 2 * M) * ‖φ x‖) < ftol at hf
    change n * ((1 + 2 * M) * ‖φ x‖) < xtol at hxt
    have h0 : 0 ≤ (n : ℝ) * ((1 + 2 * M) * ‖φ x‖) := by
      have := h.pos
      positivity
    have hp : (1 : ℝ) ≤ 2 ^ k := one_le_pow₀ (by norm_num)
    have e1 : 0 ≤ (n : ℝ) * ‖φ x‖ := by positivity
    have e2 : 0 ≤ (n : ℝ) * (M * ‖φ x‖) := by
      have := h.pos
      positivity
    have hf' : ftol ≤ ftol * 2 ^ k := le_mul_of_one_le_right (h0.trans hf.le) hp
    have hx' : xtol ≤ xtol * 2 ^ k := le_mul_of_one_le_right (h0.trans hxt.le) hp
    exact newtonLoop_converges hC hsp h k m s x hI hx (by rw [pow_succ]; linarith) (by linarith)
  | succ N ih =>
    intro k m s x hk hI hx hf hxt
    obtain ⟨k, rfl⟩ : ∃ k', k = k' + 1 := ⟨k - 1, by omega⟩
    have hx0 : ‖x - c‖ ≤ ρ := by nlinarith [norm_nonneg (φ x), h.pos, mul_nonneg h.pos.le (norm_nonneg (φ x))]
    obtain ⟨s1, K, e1, i1, l1, l2, l3⟩ := hC.matrix s x hI
    obtain ⟨s2, e2, i2⟩ := hC.value s1 x i1
    obtain ⟨dx, e3, l4, e4⟩ := hsp K ((List.ofFn (φ x)).map fun v => -v) l1 l2 (by rw [l3]; exact h.regular hx0) (by simp)
    obtain ⟨d, rfl⟩ := exists_ofFn l4
    rw [matVec_ofFn l1 l2, l3, List.map_ofFn] at e4
    have hdx : (J x).mulVec d = -φ x := List.ofFn_injective e4
    obtain ⟨p1, p2, p3⟩ := h.step hx hdx
    obtain ⟨s3, e5, i3⟩ := hC.value s2 (x + d) i2
    have hMx : 0 ≤ M * ‖φ x‖ := mul_nonneg h.pos.le (norm_nonneg _)
    have hrun : newtonLoop f df sp ftol xtol (k + 1 + 1) m s (List.ofFn x) =
        if (Flt.lt (Flt.vnorm (List.ofFn (φ (x + d)))) ftol && Flt.lt (Flt.vnorm (List.ofFn d)) xtol) = true then
          .ok (s3, ⟨List.ofFn (x + d), true, m + 1, Flt.vnorm (List.ofFn (φ (x + d))), Flt.vnorm (List.ofFn d)⟩)
        else newtonLoop f df sp ftol xtol (k + 1) (m + 1) s3 (List.ofFn (x + d)) := by
      rw [newtonLoop]
      simp only [e1, py_bind_ok, e2, e3, List.length_ofFn, ne_eq, not_true_eq_false, if_false, vadd_ofFn, e5]
      rfl
    rw [hrun]
    by_cases hc : (Flt.lt (Flt.vnorm (List.ofFn (φ (x + d)))) ftol && Flt.lt (Flt.vnorm (List.ofFn d)) xtol) = true
    · rw [if_pos hc]
      refine ⟨s3, _, x + d, rfl, i3, rfl, rfl, ?_, of_decide_eq_true (Bool.and_eq_true _ _ ▸ hc).1, x, d, rfl, hdx⟩
      rw [add_sub_cancel_left]
      linarith
    · rw [if_neg hc]
      have q1 : decay D N ‖φ (x + d)‖ ≤ decay D (N + 1) ‖φ x‖ :=
        decay_mono hD le_rfl N (norm_nonneg _) (le_min (by linarith) (hq x d hx hdx))
      have q2 : (n : ℝ) * ((1 + 2 * M) * decay D N ‖φ (x + d)‖) ≤ n * ((1 + 2 * M) * decay D (N + 1) ‖φ x‖) := by
        have := h.pos
        gcongr
      obtain ⟨s', o, y, r1, r2, r3, r4, r5, r6⟩ := ih k (m + 1) s3 (x + d) (by omega) i3 p3 (q2.trans_lt hf) (q2.trans_lt hxt)
      refine ⟨s', o, y, r1, r2, r3, r4, ?_, r6⟩
      have q3 : M * ‖φ (x + d)‖ ≤ M * (1 / 2 * ‖φ x‖) := mul_le_mul_of_nonneg_left p2 h.pos.le
      calc ‖y - x‖ = ‖(y - (x + d)) + d‖ := by congr 1; abel
        _ ≤ ‖y - (x + d)‖ + ‖d‖ := norm_add_le _ _
        _ ≤ _ := by linarith

/-- The Newton loop converges if the iterations suffice for the residual at the start. -/
theorem newton_quick {S : Type} {n : Nat} {I : S → Prop} {f : S → List ℝ → Py (S × List ℝ)}
    {df : S → List ℝ → Py (S × List (List ℝ))} {sp : List (List ℝ) → List ℝ → Py (List ℝ)}
    {φ : (Fin n → ℝ) → Fin n → ℝ} {J : (Fin n → ℝ) → Matrix (Fin n) (Fin n) ℝ} (hC : Computes n I f df φ J)
    (hsp : SolvesRegular sp n) {A : (Fin n → ℝ) →L[ℝ] Fin n → ℝ} {c : Fin n → ℝ} {ρ ε M M0 Λ : ℝ} (h : Tame φ J A c ρ ε M)
    (hM0 : M ≤ M0) (hΛ : 0 ≤ Λ) (hq : Quad φ J c ρ Λ) {ftol xtol r : ℝ} {nfev : Int}
    (hN : Enough (n * (1 + 2 * M0)) (4 * Λ * M0 ^ 2) ftol xtol nfev r) {s : S} {x : Fin n → ℝ} (hI : I s)
    (hx : ‖x - c‖ + 4 * M * ‖φ x‖ ≤ ρ) (hr : ‖φ x‖ ≤ r) :
      ∃ s' o y, newton f df sp s (List.ofFn x) nfev ftol xtol = .ok (s', o) ∧ I s' ∧ o.success = true ∧
        o.x = List.ofFn y ∧ ‖y - x‖ ≤ 4 * M * ‖φ x‖ ∧ Flt.vnorm (List.ofFn (φ y)) < ftol ∧
        ∃ u v, y = u + v ∧ (J u).mulVec v = -φ u := by
  obtain ⟨N, hN, hN1, hN2⟩ := hN
  have hM := h.pos
  obtain ⟨k, hk⟩ : ∃ k : Nat, nfev.toNat = k + 1 := ⟨nfev.toNat - 1, by omega⟩
  have hD : 0 ≤ 4 * Λ * M0 ^ 2 := by positivity
  have hle : (n : ℝ) * ((1 + 2 * M) * decay (4 * Λ * M0 ^ 2) N ‖φ x‖) ≤ n * (1 + 2 * M0) * decay (4 * Λ * M0 ^ 2) N r := by
    have h1 := decay_mono hD le_rfl N (norm_nonneg _) hr
    have h2 := decay_nonneg hD N (norm_nonneg (φ x))
    rw [mul_assoc (n : ℝ) (1 + 2 * M0)]
    have : 0 ≤ 1 + 2 * M0 := by linarith
    refine mul_le_mul_of_nonneg_left (mul_le_mul (by linarith) h1 h2 this) (by positivity)
  unfold newton
  rw [hk]
  refine newtonLoop_quick hC hsp h hD (fun x dx h1 h2 => (h.step_square hΛ hq h1 h2).trans ?_) k 0 s x (by omega) hI hx
    (hle.trans_lt hN1) (hle.trans_lt hN2)
  gcongr

end TrussPy
