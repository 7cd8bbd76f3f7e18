import Verif.Props.LoadPath
import Verif.Props.TwoBarFree
/-!
# Property C104 for a concrete structure: small loads on the two-bar truss
-/

set_option linter.unusedSectionVars false

namespace TrussPy

theorem tbStiff {w H E A : ℝ} (hw : 0 < w) (hE : 0 < E) (hA : 0 < A) : StiffElems (tbInput w H) (tbElems E A) where
  length := by
    intro e he nA hA nE hE hc hcoord
    simp only [tbElems, List.mem_cons, List.not_mem_nil, or_false] at he
    simp only [tbInput, List.mem_cons, List.not_mem_nil, or_false] at hA hE
    rcases he with rfl | rfl <;> rcases hA with rfl | rfl | rfl <;> rcases hE with rfl | rfl | rfl <;> simp at hc hcoord <;> linarith
  area := by
    intro e he
    simp only [tbElems, List.mem_cons, List.not_mem_nil, or_false] at he
    rcases he with rfl | rfl <;> exact ⟨A, [], rfl, hA⟩
  elastic := by
    intro e he _
    simp only [tbElems, List.mem_cons, List.not_mem_nil, or_false] at he
    rcases he with rfl | rfl <;> exact ⟨E, [], rfl, hE⟩
  plastic := by
    intro e he h
    simp only [tbElems, List.mem_cons, List.not_mem_nil, or_false] at he
    rcases he with rfl | rfl <;> cases h

theorem tbAllowed {w H : ℝ} {v : Int → V3 ℝ} (hv : AllowedVelocity (tbInput w H) v) :
    (∀ d, v 1 d = 0) ∧ (∀ d, v 3 d = 0) ∧ ∀ d, v 2 d = tbMove (-v 2 2) 2 d := by
  have h1 := hv ⟨1, [-w, 0, 0]⟩ (by simp [tbInput])
  have h2 := hv ⟨2, [0, 0, H]⟩ (by simp [tbInput])
  have h3 := hv ⟨3, [w, 0, 0]⟩ (by simp [tbInput])
  refine ⟨fun d => h1 d ?_, fun d => h3 d ?_, fun d => ?_⟩
  · fin_cases d <;> simp [tbInput, supportOf]
  · fin_cases d <;> simp [tbInput, supportOf]
  · by_cases hd : d = 2
    · subst hd
      simp [tbMove]
    · rw [h2 d (by fin_cases d <;> simp [tbInput, supportOf] at hd ⊢)]
      simp [tbMove, hd]

/-- With its apex above the supports the truss is no mechanism. -/
theorem tbStable {w H E A : ℝ} (hH : 0 < H) : KinematicallyStable (tbInput w H) (tbElems E A) := by
  intro v hadm hin n hn d
  obtain ⟨h1, h3, h2⟩ := tbAllowed hadm
  have hx := hin ⟨1, [1, 2], 1, 1, ⟨false, [E]⟩, ⟨false, [A]⟩⟩ (by simp [tbElems]) ⟨1, [-w, 0, 0]⟩ (by simp [tbInput])
    ⟨2, [0, 0, H]⟩ (by simp [tbInput]) rfl
  have h20 : v 2 0 = 0 := by rw [h2]; simp [tbMove]
  have h21 : v 2 1 = 0 := by rw [h2]; simp [tbMove]
  have hz : v 2 2 = 0 := by
    simp [inner3, h1, h20, h21] at hx
    rcases hx with hx | hx
    · linarith
    · exact hx
  simp only [tbInput, List.mem_cons, List.not_mem_nil, or_false] at hn
  rcases hn with rfl | rfl | rfl
  · rw [h2, hz]
    simp [tbMove]
  · exact h1 d
  · exact h3 d

/-- Linear truss theory: the apex moves down by `L³ / (2 E A H²)`, with `L` the length of the bars. -/
theorem tbLinear {w H E A : ℝ} (hw : 0 < w) (hH : 0 < H) (hE : 0 < E) (hA : 0 < A) :
    LinearSolution (tbInput w H) (tbElems E A) (tbMove (√(w ^ 2 + H ^ 2) ^ 3 / (2 * E * A * H ^ 2))) where
  supports := by
    intro n hn d hd
    simp only [tbInput, List.mem_cons, List.not_mem_nil, or_false] at hn
    rcases hn with rfl | rfl | rfl <;> fin_cases d <;> simp [tbInput, supportOf, tbMove] at hd ⊢
  equilibrium := by
    intro lab d hf
    rw [tbFreeAt] at hf
    cases hf
    have z : ∀ l d, (0 : Int → V3 ℝ) l d = tbMove 0 l d := by
      intro l d
      simp [tbMove]
    have hL : √(w ^ 2 + H ^ 2) ≠ 0 := (Real.sqrt_pos.2 (by positivity)).ne'
    unfold linearPull tbElems
    simp only [List.map_cons, List.map_nil, List.sum_cons, List.sum_nil, add_zero, linearElementPull]
    rw [tbSpan1 (s := 0) (fun _ => rfl) (z 2), tbSpan2 (s := 0) (fun _ => rfl) (z 2), vmLen, vmLen, neg_sq, sub_zero]
    simp [inner3, tbMove, firstLoad, loadOf, tbInput]
    field_simp
    ring

/-! In a run in the default mode whose increments are small enough the apex moves down by `L³ / (2 E A H²)` times the load factor, up to a
part `ε` of the load factor and any `δ`. -/

example {w H E A : ℝ} (hw : 0 < w) (hH : 0 < H) (hE : 0 < E) (hA : 0 < A) {ε δ : ℝ} (hε : 0 < ε) (hδ : 0 < δ)
    (argsort : List Int → List Nat) (has : IsArgsort argsort) :
    ∃ s m1 m2 nt res r lpf, s.jFixed = false ∧ (tbModel w H E A s).build argsort = .ok m1 ∧ m1.run exactEnv 1 = .ok m2 ∧
      m1.nodes = some nt ∧ m2.results = some res ∧ res.R[1]? = some r ∧ r.lpf = some lpf ∧
      ∀ k, nt.labels[k]? = some 2 → |row3 r.U k 2 + lpf * (√(w ^ 2 + H ^ 2) ^ 3 / (2 * E * A * H ^ 2))| ≤ ε * |lpf| + δ := by
  obtain ⟨S, hS, t0, ht0, φ0, hφ0, L, C, key⟩ := C104_small_load_run (tbValid w H E A) le_rfl (tbStiff hw hE hA)
    (tbStable hH) (tbEntered w H E A rbSettings) (tbEnteredElems w H E A rbSettings) (tbFree w H) (tbLinear hw hH hE hA) one_pos one_pos
    (exactEnv_solves 2) exactEnv_argmax (η := 1 / 4) (W := 1) (by norm_num) le_rfl hε rbSettings.nstatev
  set t := min (t0 / 2) (S / 2) with ht
  have htpos : 0 < t := lt_min (by positivity) (by positivity)
  have htlt : t < t0 := (min_le_left _ _).trans_lt (by linarith)
  have htS : t ≤ S / 2 := min_le_right _ _
  obtain ⟨k, hk⟩ := exists_pow_lt_of_lt_one (show 0 < min (min (φ0 * t) t) (δ / (|L| + 1)) by positivity)
    (show (10 : ℝ)⁻¹ < 1 by norm_num)
  have hp10 : (10 : ℝ)⁻¹ ^ k = (10 : ℝ) ^ (-(k : Int)) := by rw [zpow_neg, zpow_natCast, inv_pow]
  rw [hp10] at hk
  have hfpos : (0 : ℝ) < (10 : ℝ) ^ (-(k : Int)) := by positivity
  generalize hfe : (10 : ℝ) ^ (-(k : Int)) = f at hk hfpos
  have hf1 : f ≤ φ0 * t := hk.le.trans ((min_le_left _ _).trans (min_le_left _ _))
  have hf2 : f ≤ t := hk.le.trans ((min_le_left _ _).trans (min_le_right _ _))
  have hfL : L * f ≤ δ := by
    have h1 : f * (|L| + 1) ≤ δ := by
      rw [← le_div_iff₀ (by positivity)]
      exact hk.le.trans (min_le_right _ _)
    have h2 : L * f ≤ |L| * f := mul_le_mul_of_nonneg_right (le_abs_self L) hfpos.le
    linarith
  obtain ⟨N, hN⟩ := pow_unbounded_of_one_lt (C * t / f) (by norm_num : (1 : ℝ) < 2)
  rw [div_lt_iff₀ hfpos, mul_comm (2 ^ N)] at hN
  have hf10 : ∀ {b : ℝ}, f ≤ b → (10 : ℝ) ^ (-(k : Int)) ≤ b := fun h => hfe.le.trans h
  have hN10 : C * t < (10 : ℝ) ^ (-(k : Int)) * 2 ^ N := by rw [hfe]; exact hN
  obtain ⟨m1, m2, nt, res, q, g1, g2, g3, g4, -, g6, g7⟩ := key argsort has (tbModel w H E A { rbSettings with
      jFixed := false, j0 := none, du := t, dlpf := t, incs := .const 1, xlimit := .const 1 1, xtol := k, ftol := k,
      nfev := N + 2, nsteps := 1, dxtol := 5 / 4 }) (tbEntered _ _ _ _ _) (tbEnteredElems _ _ _ _ _)
    rfl rfl rfl (by show (0 : Int) ≤ 1; decide) t htpos htlt
    ⟨rfl, rfl, (mul_one t).symm, (mul_one t).symm, by norm_num [tbModel], (fun h => by cases h), hf10 (by rw [mul_one]; exact hf2),
      hf10 (by rw [mul_one]; exact hf2)⟩
    (hf10 hf1) 1 (1, 1) rfl rfl le_rfl one_le_two (by push_cast; linarith) ⟨N, .inl hN10, .inl hN10, le_rfl⟩ 1 le_rfl
  have hq : 0 < q := by
    rcases g7 with g7 | g7
    · omega
    · exact g7.1
  obtain ⟨r, lpf, p1, p2, p3⟩ := g6 0 hq
  refine ⟨_, m1, m2, nt, res, r, lpf, ?_, g1, g2, g3, g4, p1, p2, fun i hi => ?_⟩
  · rfl
  · have h1 := p3 i 2 hi 2
    have h2 : L * (10 : ℝ) ^ (-(k : Int)) ≤ δ := by rw [hfe]; exact hfL
    have h3 : row3 r.U i 2 - lpf * tbMove (√(w ^ 2 + H ^ 2) ^ 3 / (2 * E * A * H ^ 2)) 2 2 =
        row3 r.U i 2 + lpf * (√(w ^ 2 + H ^ 2) ^ 3 / (2 * E * A * H ^ 2)) := by
      simp only [tbMove, and_self, if_true]
      ring
    rw [h3] at h1
    exact h1.trans (add_le_add_right h2 _)

/-! Controlled by the load factor, a run with one small increment records the load factor exactly and equilibrium displacements up to
any `δ`. -/

example {w H E A : ℝ} (hw : 0 < w) (hH : 0 < H) (hE : 0 < E) (hA : 0 < A) {δ : ℝ} (hδ : 0 < δ) (argsort : List Int → List Nat)
    (has : IsArgsort argsort) :
    ∃ s h m1 m2 nt res r V, 0 < h ∧ (tbModel w H E A s).build argsort = .ok m1 ∧ m1.run exactEnv 1 = .ok m2 ∧
      m1.nodes = some nt ∧ m2.results = some res ∧ res.R[1]? = some r ∧ r.Vred[1]? = some h ∧
      pull (tbInput w H) (tbElems E A) V 2 2 = -h ∧ ∀ k lab, nt.labels[k]? = some lab → ∀ d, |row3 r.U k d - V lab d| ≤ δ := by
  obtain ⟨S, hS, U, hU, -, h0, hh0, f0, hf0, L, C, key⟩ := C104_load_control_run (tbValid w H E A) le_rfl
    (tbStiff hw hE hA) (tbStable hH) (tbEntered w H E A rbSettings) (tbEnteredElems w H E A rbSettings) (tbFree w H)
    (exactEnv_solves 2) exactEnv_argmax rbSettings.nstatev
  set h := min (h0 / 2) S with hh
  have hpos : 0 < h := lt_min (by positivity) hS
  have hlt : h < h0 := (min_le_left _ _).trans_lt (by linarith)
  obtain ⟨k, hk⟩ := exists_pow_lt_of_lt_one (show 0 < min f0 (δ / (|L| + 1)) by positivity) (show (10 : ℝ)⁻¹ < 1 by norm_num)
  have hp10 : (10 : ℝ)⁻¹ ^ k = (10 : ℝ) ^ (-(k : Int)) := by rw [zpow_neg, zpow_natCast, inv_pow]
  rw [hp10] at hk
  have hfpos : (0 : ℝ) < (10 : ℝ) ^ (-(k : Int)) := by positivity
  have hfL : L * (10 : ℝ) ^ (-(k : Int)) ≤ δ := by
    have h1 : (10 : ℝ) ^ (-(k : Int)) * (|L| + 1) ≤ δ := by
      rw [← le_div_iff₀ (by positivity)]
      exact hk.le.trans (min_le_right _ _)
    have h2 : L * (10 : ℝ) ^ (-(k : Int)) ≤ |L| * (10 : ℝ) ^ (-(k : Int)) := mul_le_mul_of_nonneg_right (le_abs_self L) hfpos.le
    linarith
  obtain ⟨N, hN⟩ := pow_unbounded_of_one_lt (C * (h + (10 : ℝ) ^ (-(k : Int))) / (10 : ℝ) ^ (-(k : Int))) (by norm_num : (1 : ℝ) < 2)
  rw [div_lt_iff₀ hfpos, mul_comm (2 ^ N)] at hN
  obtain ⟨m1, m2, nt, res, q, g1, g2, g3, g4, -, g6, g7⟩ := key argsort has (tbModel w H E A { rbSettings with
      jFixed := true, j0 := some 2, dlpf := h, incs := .const 1, xlimit := .const 1 1, xtol := k, ftol := k, stepcontrol := false,
      nfev := N + 1, nsteps := 1, dxtol := 1 }) (tbEntered _ _ _ _ _) (tbEnteredElems _ _ _ _ _)
    rfl rfl rfl (by show (0 : Int) ≤ 1; decide) h hpos hlt ⟨rfl, rfl, rfl, le_rfl, rfl⟩ (hk.le.trans (min_le_left _ _)) 1 (1, 1) rfl rfl
    le_rfl one_le_two (by rw [Nat.cast_one, one_mul]; exact min_le_right _ _) ⟨N, .inl hN, .inl hN, le_rfl⟩ 1 le_rfl
  have hq : 0 < q := by
    rcases g7 with g7 | g7
    · omega
    · exact g7.1
  obtain ⟨r, lpf, p1, p2, p3, p4⟩ := g6 0 hq
  have h1 : ((0 : Nat) + 1 : ℝ) * h = h := by push_cast; ring
  rw [h1] at p3 p4
  subst p3
  refine ⟨_, h, m1, m2, nt, res, r, U h, hpos, g1, g2, g3, g4, p1, p2, ?_, fun i lab hi d => (p4 i lab hi d).trans hfL⟩
  rw [(hU h ⟨hpos.le, min_le_right _ _⟩).2 2 2 ((tbFreeAt w H 2 2).2 rfl)]
  simp [firstLoad, loadOf, tbInput]

end TrussPy
