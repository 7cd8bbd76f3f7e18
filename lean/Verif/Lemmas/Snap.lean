import Verif.Lemmas.Follow
/-!
# Trusses with one degree of freedom
-/

namespace TrussPy

section
variable {c : Ctx ℝ} {bars : List (Bar ℝ)} {a : Analysis ℝ} {ef : StepForces ℝ}

theorem scatter_one {U : List ℝ} {p : Nat} (u : ℝ) : scatter U [p] [u] = .ok (U.set p u) := by
  simp [scatter]

theorem ofFn_two (u l : ℝ) : List.ofFn ![u, l] = [u] ++ [l] := by simp [List.ofFn_succ]

theorem castSucc_one (u l : ℝ) : (List.ofFn fun i : Fin 1 => (![u, l] : Fin 2 → ℝ) i.castSucc) = [u] := by
  simp [List.ofFn_succ]

/-- Load factor that balances a truss with the single degree of freedom `p` at displacement `u`. -/
noncomputable def oneDofLoad (c : Ctx ℝ) (bars : List (Bar ℝ)) (a : Analysis ℝ) (ef : StepForces ℝ) (p : Nat) (u : ℝ) : ℝ :=
  (forceFn c a.statev bars (a.U.set p u) (p / 3) (comp p) - ef.forcesConst.getD p 0) / ef.forces.getD p 0

theorem one_dof_path (he : Evaluable c bars a ef) (hl : a.lpf.isSome = true)
    (hf0 : a.f0red = a.DOF1.map fun p => ef.forces.getD p 0) {p : Nat} (hp : a.DOF1 = [p]) (hf : ef.forces.getD p 0 ≠ 0)
    {j : Int} (hj : j.natAbs = 1) {u0 S : ℝ} (hs : ∀ s ∈ Set.Icc 0 S, CalmAt (n := 1) c bars a ![u0 + s * (j.sign : ℝ), 0]) :
    EquilPath (n := 1) c bars a j 0 S fun s => ![u0 + s * (j.sign : ℝ), oneDofLoad c bars a ef p (u0 + s * (j.sign : ℝ))] := by
  have hn : c.ndof1 = 1 := by rw [← he.dofs, hp]; rfl
  have hpl : p < a.U.length := by rw [he.fits.U]; exact he.fits.dof p (by rw [hp]; simp)
  have hsm : ∀ s ∈ Set.Icc 0 S, ∀ l, CalmAt (n := 1) c bars a ![u0 + s * (j.sign : ℝ), l] := by
    intro s h l U hU
    rw [castSucc_one] at hU
    exact hs s h U (by rw [castSucc_one]; exact hU)
  have hU : ∀ u : ℝ, scatter a.U a.DOF1 [u] = .ok (a.U.set p u) := fun u => by rw [hp, scatter_one]
  refine ⟨?_, ?_, ?_, fun s h => hsm s h _, ?_⟩
  · intro s h
    have hU' := hs s h (a.U.set p (u0 + s * (j.sign : ℝ))) (by rw [castSucc_one]; exact hU _)
    have hD : ∀ q, ContDiffAt ℝ 2 (fun s : ℝ => (a.U.set p (u0 + s * (j.sign : ℝ))).getD q 0) s := by
      intro q
      by_cases hq : p = q
      · subst hq
        have : (fun s : ℝ => (a.U.set p (u0 + s * (j.sign : ℝ))).getD p 0) = fun s => u0 + s * (j.sign : ℝ) := by
          funext s
          simp [List.getD_eq_getElem?_getD, hpl]
        rw [this]
        fun_prop
      · have : (fun s : ℝ => (a.U.set p (u0 + s * (j.sign : ℝ))).getD q 0) = fun _ => a.U.getD q 0 := by
          funext s
          simp [List.getD_eq_getElem?_getD, List.getElem?_set_ne hq]
        rw [this]
        fun_prop
    have hF := forceFn_contDiff (c := c) (sv := a.statev) (bars := bars) (U := fun s : ℝ => a.U.set p (u0 + s * (j.sign : ℝ))) (x0 := s) hD (fun b hb => (he.complete b hb).mat)
      (fun k b hb => (hU' k b hb).smooth) (p / 3) (comp p)
    refine ContinuousAt.continuousWithinAt (continuousAt_pi.2 fun i => ?_)
    fin_cases i
    · show ContinuousAt (fun s : ℝ => u0 + s * (j.sign : ℝ)) s
      fun_prop
    · show ContinuousAt (fun s : ℝ => oneDofLoad c bars a ef p (u0 + s * (j.sign : ℝ))) s
      unfold oneDofLoad
      exact (hF.continuousAt.sub continuousAt_const).div_const _
  · intro s h
    obtain ⟨a1, h1, -⟩ := equilibrium_closed he (u := [u0 + s * (j.sign : ℝ)])
      (V0 := List.ofFn ![u0 + s * (j.sign : ℝ), oneDofLoad c bars a ef p (u0 + s * (j.sign : ℝ))]) (by simp [hn]) (by simp [hn])
      (oneDofLoad c bars a ef p (u0 + s * (j.sign : ℝ))) false (hU _)
    refine ⟨a1, ?_⟩
    rw [← ofFn_two] at h1
    rw [h1, hp]
    simp only [List.map_cons, List.map_nil, List.replicate_one]
    congr 3
    unfold oneDofLoad
    field_simp
    ring
  · intro s _
    simp
  · intro s h
    obtain ⟨a', K0, K, h1, -, h2, h3, -, h5, -⟩ := extDf_model he hl hf0 hn (k := (0 : Fin 2)) (by simpa using hj)
      ![u0 + s * (j.sign : ℝ), oneDofLoad c bars a ef p (u0 + s * (j.sign : ℝ))]
    refine ⟨a', K, h1, ?_⟩
    rw [hf0, hp] at h5
    simp only [List.map_cons, List.map_nil] at h5
    cases K0 with
    | nil => rw [h5] at h2; simp at h2
    | cons r rest =>
      simp only [List.zipWith_cons_cons, List.zipWith_nil_right] at h5
      have hr := h3 (r ++ [-ef.forces.getD p 0]) (by rw [h5]; simp)
      obtain ⟨κ, rfl⟩ : ∃ κ, r = [κ] := List.length_eq_one_iff.1 (by simpa using hr)
      rw [h5, isUnit_iff_ne_zero, Matrix.det_fin_two]
      simpa [matOf, List.replicate] using hf

end

end TrussPy
