import Verif.Lemmas.RoundEval
import Verif.ExamplesRound
import Verif.ExamplesFix
/-!
# Property C110: evaluation of a truss in rounded arithmetic
-/

set_option linter.unusedSectionVars false

namespace TrussPy

/-- **C110.** For all numbers `C` and `B` there is a constant `Λ` such that the following holds in every number format with rounding error
`δ ≤ 1/Λ`, for all structures of at most `B` elastic bars whose data are at most `C`, and for all displacements at which no deformed
length is below `1/√C`: the residual forces, stretches, stresses and normal forces that `equilibrium` returns and stores differ by at
most `Λ δ` from those of the same evaluation in real numbers. -/
theorem C110_residual_rounded {C : ℝ} (hC : 1 ≤ C) (B : Nat) : ∃ Λ : ℝ, 1 ≤ Λ ∧
    ∀ (F : Type) [Zero F] [One F] [Add F] [Sub F] [Mul F] [Div F] [Neg F] [Flt F] (val : F → ℝ) (δ : ℝ), Rounds val δ → δ * Λ ≤ 1 →
    ∀ (c : Ctx F) (bars : List (Bar F)) (a : Analysis F) (ef : StepForces F) (c' : Ctx ℝ) (a' : Analysis ℝ), Evaluable c bars a ef →
    Evaluable c' (bars.map (Bar.image val)) a' (ef.image val) → Twin val c a c' a' → bars.length ≤ B → (∀ b ∈ bars, b.law = .el) →
    Moderate C (bars.map (Bar.image val)) (ef.image val) →
    ∀ (v : List F) (lpf : F) (W : List ℝ), v.length = c.ndof1 → |val lpf| ≤ C → Placed a'.U a'.DOF1 (v.map val) W →
    Clear C (bars.map (Bar.image val)) W →
    ∀ (V0 : List F) (V0' : List ℝ), V0.length = c.ndof1 + 1 → V0'.length = c.ndof1 + 1 → ∀ w w' : Bool,
    ∃ a1 g a1' g', equilibrium c a (v ++ [lpf]) V0 .G w = .ok (a1, g) ∧
      equilibrium c' a' (v.map val ++ [val lpf]) V0' .G w' = .ok (a1', g') ∧ NearList val (Λ * δ) g g' ∧
      NearList val (Λ * δ) a1.stretch a1'.stretch ∧ NearList val (Λ * δ) a1.elementStress a1'.elementStress ∧
      NearList val (Λ * δ) a1.elementForce a1'.elementForce := by
  refine ⟨lev C (13 + B), lev_ge hC _, ?_⟩
  intro F _ _ _ _ _ _ _ _ val δ hR hδ c bars a ef c' a' E E' T hB hel hM v lpf W hv hl hP hW V0 V0' hV0 hV0' w w'
  obtain ⟨a1, g, a1', g', h1, h2, h3⟩ := equil_close ⟨hR, hC, hδ⟩ (by omega) E E' T hel hM hv hl hP hW hV0 hV0' w w'
  exact ⟨a1, g, a1', g', h1, h2, h3.g, h3.stretch, h3.stress, h3.force⟩

/-- **C110.** In the same way, the entries of the stiffness matrix returned by `stiffness` differ by at most `Λ δ` from those in real
numbers. -/
theorem C110_stiffness_rounded {C : ℝ} (hC : 1 ≤ C) (B : Nat) : ∃ Λ : ℝ, 1 ≤ Λ ∧
    ∀ (F : Type) [Zero F] [One F] [Add F] [Sub F] [Mul F] [Div F] [Neg F] [Flt F] (val : F → ℝ) (δ : ℝ), Rounds val δ → δ * Λ ≤ 1 →
    ∀ (c : Ctx F) (bars : List (Bar F)) (a : Analysis F) (ef : StepForces F) (c' : Ctx ℝ) (a' : Analysis ℝ), Evaluable c bars a ef →
    Evaluable c' (bars.map (Bar.image val)) a' (ef.image val) → Twin val c a c' a' → bars.length ≤ B → (∀ b ∈ bars, b.law = .el) →
    Moderate C (bars.map (Bar.image val)) (ef.image val) → a.lpf.isSome = true → a'.lpf.isSome = true →
    ∀ (v : List F) (W : List ℝ), v.length = c.ndof1 → Placed a'.U a'.DOF1 (v.map val) W → Clear C (bars.map (Bar.image val)) W →
    ∃ a1 K a1' K', stiffness c a v = .ok (a1, K) ∧ stiffness c' a' (v.map val) = .ok (a1', K') ∧ K.length = c.ndof1 ∧
      (∀ row ∈ K, row.length = c.ndof1) ∧ NearMatrix val (Λ * δ) K K' := by
  refine ⟨lev C (14 + 4 * B), lev_ge hC _, ?_⟩
  intro F _ _ _ _ _ _ _ _ val δ hR hδ c bars a ef c' a' E E' T hB hel hM hl hl' v W hv hP hW
  exact stiff_close ⟨hR, hC, hδ⟩ (by omega) E E' T hel hM hv hP hW hl hl'

/-! ## The hypotheses are met -/

/-- The unit bar in fixed-point arithmetic with enough binary places: at displacement `u ∈ [0, 1]` and load factor 1, the residual is
`1 - u` up to a multiple of the spacing of the numbers. -/
example : ∃ (Λ : ℝ) (p0 : Nat), ∀ p, p0 ≤ p → ∀ u : Fix p, 0 ≤ Fix.val u → Fix.val u ≤ 1 → ∃ a1 r,
    equilibrium fmCtx fmA ([u] ++ [1]) [0, 0] .G false = .ok (a1, [r]) ∧ |Fix.val r - (1 - Fix.val u)| ≤ Λ * (1 / 2 ^ p) := by
  obtain ⟨Λ, hΛ, H⟩ := C110_residual_rounded (C := 1) le_rfl 1
  obtain ⟨p0, hp0⟩ := exists_pow_lt_of_lt_one (show 0 < 1 / Λ by positivity) (by norm_num : (1 / 2 : ℝ) < 1)
  refine ⟨Λ, p0, fun p hp u h0 h1 => ?_⟩
  have hR := Fix.rounds p
  have hδ : (1 : ℝ) / 2 ^ p * Λ ≤ 1 := by
    have h1 : ((1 : ℝ) / 2) ^ p ≤ (1 / 2) ^ p0 := pow_le_pow_of_le_one (by norm_num) (by norm_num) hp
    rw [div_pow, one_pow] at h1
    have := h1.trans hp0.le
    rwa [le_div_iff₀ (by linarith)] at this
  obtain ⟨a1, g, a1', g', e1, e2, e3, -⟩ := H (Fix p) Fix.val (1 / 2 ^ p) hR hδ fmCtx [fmBar] fmA fmLoad sbCtx sbA fmEvaluable
    (by rw [fmBar_image hR.zero hR.one, fmLoad_image hR.zero hR.one]; exact sbEvaluable) (fmTwin hR.zero) le_rfl
    (by intro b hb; rw [List.mem_singleton.1 hb]; rfl) (by rw [fmBar_image hR.zero hR.one, fmLoad_image hR.zero hR.one]; exact sbModerate)
    [u] 1 _ rfl (by rw [hR.one, abs_one]) (sbPlaced (Fix.val u)) (by rw [fmBar_image hR.zero hR.one]; exact sbClear h0 h1) [0, 0] [0, 0] rfl rfl
    false false
  obtain ⟨a2, h2⟩ := sbResidual h0 (Fix.val (1 : Fix p)) (V0 := [0, 0]) rfl
  have h2' : equilibrium sbCtx sbA ([u].map Fix.val ++ [Fix.val (1 : Fix p)]) [0, 0] .G false = .ok (a2, [Fix.val (1 : Fix p) - Fix.val u]) := h2
  rw [h2'] at e2
  cases e2
  match g, e3.1 with
  | [r], _ =>
    refine ⟨a1, r, e1, ?_⟩
    have := e3.2 0 r _ rfl rfl
    rwa [hR.one] at this

/-- The stiffness of the unit bar is 1 up to a multiple of the spacing. -/
example : ∃ (Λ : ℝ) (p0 : Nat), ∀ p, p0 ≤ p → ∀ u : Fix p, 0 ≤ Fix.val u → Fix.val u ≤ 1 → ∃ a1 a1' k k',
    stiffness fmCtx fmA [u] = .ok (a1, [[k]]) ∧ stiffness sbCtx sbA [Fix.val u] = .ok (a1', [[k']]) ∧ |Fix.val k - k'| ≤ Λ * (1 / 2 ^ p) := by
  obtain ⟨Λ, hΛ, H⟩ := C110_stiffness_rounded (C := 1) le_rfl 1
  obtain ⟨p0, hp0⟩ := exists_pow_lt_of_lt_one (show 0 < 1 / Λ by positivity) (by norm_num : (1 / 2 : ℝ) < 1)
  refine ⟨Λ, p0, fun p hp u h0 h1 => ?_⟩
  have hR := Fix.rounds p
  have hδ : (1 : ℝ) / 2 ^ p * Λ ≤ 1 := by
    have h1 : ((1 : ℝ) / 2) ^ p ≤ (1 / 2) ^ p0 := pow_le_pow_of_le_one (by norm_num) (by norm_num) hp
    rw [div_pow, one_pow] at h1
    have := h1.trans hp0.le
    rwa [le_div_iff₀ (by linarith)] at this
  obtain ⟨a1, K, a1', K', e1, e2, e3, e4, e5⟩ := H (Fix p) Fix.val (1 / 2 ^ p) hR hδ fmCtx [fmBar] fmA fmLoad sbCtx sbA fmEvaluable
    (by rw [fmBar_image hR.zero hR.one, fmLoad_image hR.zero hR.one]; exact sbEvaluable) (fmTwin hR.zero) le_rfl
    (by intro b hb; rw [List.mem_singleton.1 hb]; rfl) (by rw [fmBar_image hR.zero hR.one, fmLoad_image hR.zero hR.one]; exact sbModerate)
    rfl rfl [u] _ rfl (sbPlaced (Fix.val u)) (by rw [fmBar_image hR.zero hR.one]; exact sbClear h0 h1)
  match K, K', e3, e4, e5 with
  | [r], [r'], _, e4, e5 =>
    have hr := e4 r (by simp)
    have h := e5.2 0 r r' rfl rfl
    match r, r', hr, h with
    | [k], [k'], _, h => exact ⟨a1, a1', k, k', e1, e2, h.2 0 k k' rfl rfl⟩
    | [k], [], _, h => exact absurd h.1 (by simp)
    | [k], _ :: _ :: _, _, h => exact absurd h.1 (by simp)
  | [r], [], _, _, e5 => exact absurd e5.1 (by simp)
  | [r], _ :: _ :: _, _, _, e5 => exact absurd e5.1 (by simp)

end TrussPy
