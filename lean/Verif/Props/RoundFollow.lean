import Verif.Spec.RoundedPath
import Verif.Lemmas.RoundFollow
import Verif.ExamplesRound
import Verif.ExamplesFix
import Verif.Props.Follow
/-!
# Property C111: path following in rounded arithmetic
-/

set_option linter.unusedSectionVars false

namespace TrussPy

theorem StandsFor.f0 {F : Type} [Zero F] [One F] {val : F → ℝ} (h0 : val 0 = 0) {c : Ctx F} {bars : List (Bar F)} {a : Analysis F} {ef : StepForces F}
    {c' : Ctx ℝ} {bars' : List (Bar ℝ)} {a' : Analysis ℝ} {ef' : StepForces ℝ} (h : StandsFor val c bars a ef c' bars' a' ef')
    (hf0 : a'.f0red = a'.DOF1.map fun p => ef'.forces.getD p 0) : a'.f0red = a.f0red.map val := by
  rw [hf0, h.loads, h.twin.dof1, List.map_map]
  refine List.map_congr_left fun p _ => ?_
  rw [← h.forces]
  show (ef.forces.map val).getD p 0 = val (ef.forces.getD p 0)
  rw [List.getD_eq_getElem?_getD, List.getD_eq_getElem?_getD, List.getElem?_map]
  cases ef.forces[p]? with
  | none => exact h0.symm
  | some v => rfl

section
variable {c' : Ctx ℝ} {bars' : List (Bar ℝ)} {a' : Analysis ℝ} {ef' : StepForces ℝ}

/-- **C111.** Given an elastic structure in real numbers and a path of regular equilibria, there are a step width `h0`, a bound `η0` on the errors and constants `κ`,
`L`, `Γ` such that the following holds for every number format with rounding error `δ ≤ η/Γ`, every linear solver with relative error up to `1/32` and
absolute error up to `η ≤ η0`, every structure in this format that stands for the given one, and all step widths below `h0`:
path following in this format, with fixed control component, returns; every increment is accepted; the `m`-th recorded vector
stands for a vector within `L * ftol` of a point of the path, whose parameter is `m h` up to `6 m ftol`; and all increments are
recorded, unless the limit was exceeded. -/
theorem C111_follows_path_rounded (he : Evaluable c' bars' a' ef') (hl : a'.lpf.isSome = true)
    (hf0 : a'.f0red = a'.DOF1.map fun p => ef'.forces.getD p 0) (hel : ∀ b ∈ bars', b.law = .el) (hlen0 : ∀ b ∈ bars', len b.ref ≠ 0)
    {n : Nat} (hn : c'.ndof1 = n) (hn1 : 1 ≤ n) {j : Int} {k : Fin (n + 1)} (hj : j.natAbs = k + 1) {S : ℝ} (hS : 0 ≤ S) {γ : ℝ → Fin (n + 1) → ℝ}
    (hP : EquilPath c' bars' a' j k S γ) :
    ∃ h0 > 0, ∃ η0 > 0, ∃ κ L Γ : ℝ, 0 ≤ κ ∧ 1 ≤ Γ ∧
      ∀ (F : Type) [Zero F] [One F] [Add F] [Sub F] [Mul F] [Div F] [Neg F] [Flt F] (val : F → ℝ) (δ η θ τ : ℝ), Rounds val δ → Γ * δ ≤ η →
      η ≤ η0 → 0 ≤ θ → θ ≤ 1 / 32 → 0 ≤ τ → τ ≤ η →
      ∀ (c : Ctx F) (bars : List (Bar F)) (a : Analysis F) (ef : StepForces F), StandsFor val c bars a ef c' bars' a' ef' →
      ∀ env : Env F, SolvesNear val env.spsolve (n + 1) κ θ τ →
      (∀ l : List F, l ≠ [] → ∃ i, (env.argsortF l).getLast? = some i ∧ i < l.length) →
      ∀ h : F, 0 < val h → val h < h0 → ∀ cfg : PFCfg F, cfg.jFixed = true → cfg.j = some j → cfg.stepcontrol = false →
      0 < val cfg.ftol → 6 * val cfg.ftol ≤ val h → val h + 8 * val cfg.ftol ≤ val cfg.dxtol * val h → |val cfg.xtol| ≤ 1 / δ → |val cfg.dxtol| ≤ 1 / δ →
      ∀ x : List F, (x ++ [0]).map val = List.ofFn (γ 0) →
      (initDxmax (x ++ [0]) cfg.dxmax).length = n + 1 → (initDxmax (x ++ [0]) cfg.dxmax)[(k : Nat)]? = some h →
      (∀ p, cfg.xlimit = some p → 1 ≤ p.1 ∧ p.1 ≤ n + 1 ∧ |val p.2| ≤ 1 / δ) → cfg.incs * (val h + 6 * val cfg.ftol) ≤ S →
      ∀ N : Nat, Γ * ((val h + val cfg.ftol) * (3 / 4) ^ N + η) < val cfg.ftol → Γ * ((val h + val cfg.ftol) * (3 / 4) ^ N + η) < val cfg.xtol →
      (N : Int) + 1 ≤ cfg.nfev →
      ∀ fuel : Nat, 1 ≤ fuel → ∃ o, pathfollow env (modelProblem c) cfg fuel x a = .ok o ∧
        (∀ (m : Nat) r, o.recs[m]? = some r → r.out = .accepted ∧ ∃ (y : Fin (n + 1) → F) (t : ℝ), r.x = List.ofFn y ∧
          t ∈ Set.Icc 0 S ∧ |t - (m + 1) * val h| ≤ (m + 1) * (6 * val cfg.ftol) ∧ |val (y k) - γ t k| ≤ 5 * val cfg.ftol ∧
          ∀ i, |val (y i) - γ t i| ≤ L * val cfg.ftol) ∧
        (o.recs.length = cfg.incs ∨ ∃ r v p, o.recs.getLast? = some r ∧ cfg.xlimit = some p ∧
          r.x[(p.1 - 1).toNat]? = some v ∧ val p.2 < |val v|) := by
  obtain ⟨ρ, hρ, M0, hM0, B, hB, C1, hC1, hT⟩ := path_reach he hl hf0 hn hj hP (V0 := List.replicate (n + 1) 0) (by simp)
  obtain ⟨C2, hC2, hmod⟩ := exists_moderate (ef := ef') hlen0
  set C := max C1 C2 with hC
  have hC1C : C1 ≤ C := le_max_left _ _
  have hC2C : C2 ≤ C := le_max_right _ _
  have hC1' : 1 ≤ C := hC1.trans hC1C
  -- uniform continuity of the path
  obtain ⟨ω, hω0, hω⟩ := Metric.uniformContinuousOn_iff.1 (isCompact_Icc.uniformContinuousOn_of_continuous hP.cont) (ρ / 2)
    (by positivity)
  obtain ⟨η1, hη1, κ, R, hR0, hfine⟩ := fine_of_small (n + 1) hM0 hB (show 0 ≤ C + ρ by linarith) hρ
  set Λ := lev C (15 + 4 * bars'.length) with hΛ
  have hΛ1 : 1 ≤ Λ := lev_ge hC1' _
  set I := iterConst (n + 1) M0 B with hI
  have hI0 : 0 ≤ I := by rw [hI]; unfold iterConst; positivity
  set Γ := R + Λ + 9 + 5 * I with hΓ
  refine ⟨min (min (ω / 3) (ρ / (20 * M0))) 1, by positivity, min η1 1, by positivity, max κ 0, 2 * M0 * 5, Γ, le_max_right _ _, by linarith, ?_⟩
  intro F _ _ _ _ _ _ _ _ val δ η θ τ hR hδη hηη hθ0 hθ hτ0 hτ c bars a ef hSF env hsp hsort h hh hlt cfg hjf hcj hsc hf0' hfh hdx hxr hdr x hx hlen hdk
    hlim hinc N hN1 hN2 hN fuel hfuel
  have hδ := hR.pos
  have hhω : val h ≤ ω / 3 := (hlt.trans_le ((min_le_left _ _).trans (min_le_left _ _))).le
  have hhρ : val h ≤ ρ / (20 * M0) := (hlt.trans_le ((min_le_left _ _).trans (min_le_right _ _))).le
  have hh1 : val h ≤ 1 := (hlt.trans_le (min_le_right _ _)).le
  rw [le_div_iff₀ (by positivity)] at hhρ
  have hle : ∀ t, t ≤ Γ → t * δ ≤ η := fun t ht => (mul_le_mul_of_nonneg_right ht hδ.le).trans hδη
  have hF := hfine δ η θ τ hδ (hle R (by linarith)) (hηη.trans (min_le_left _ _)) hθ0 hθ hτ0 hτ
  have hη0 := hF.eta0
  have hη1' : η ≤ 1 := hηη.trans (min_le_right _ _)
  have hκ : κ = max κ 0 := by
    rw [max_eq_left]
    have := hF.kappa2
    linarith
  rw [← hκ] at hsp
  have hbl : bars.length = bars'.length := by rw [← hSF.bars, List.length_map]
  have hpow : (0 : ℝ) ≤ (3 / 4) ^ N := by positivity
  set f := val cfg.ftol with hf
  have hηf : η ≤ f := by
    have h1 : 0 ≤ (val h + f) * (3 / 4) ^ N := by positivity
    have h2 : 1 * ((val h + f) * (3 / 4) ^ N + η) ≤ Γ * ((val h + f) * (3 / 4) ^ N + η) := mul_le_mul_of_nonneg_right (by linarith) (by linarith)
    linarith
  have hNN : ∀ t, Γ * ((val h + f) * (3 / 4) ^ N + η) < t → I * (val h + 5 * f) * (3 / 4) ^ N + I * η < t := by
    intro t ht
    refine lt_of_le_of_lt ?_ ht
    have h1 : 0 ≤ (R + Λ + 9) * ((val h + f) * (3 / 4) ^ N + η) := by positivity
    have h2 : 0 ≤ I * val h * (3 / 4) ^ N := by positivity
    have h3 : 0 ≤ I * η := by positivity
    have e1 : Γ * ((val h + f) * (3 / 4) ^ N + η) =
        (R + Λ + 9) * ((val h + f) * (3 / 4) ^ N + η) + 4 * (I * val h * (3 / 4) ^ N) + 4 * (I * η) + (I * (val h + 5 * f) * (3 / 4) ^ N + I * η) := by
      rw [hΓ]; ring
    linarith
  have hSet : Setting val δ C c bars a ef c' a' n j k S γ ρ M0 B := by
    refine ⟨⟨hR, hC1', ?_⟩, ?_, hSF.twin, ?_, ?_, hSF.twin.ndof1.symm.trans hn, hn1, hj, hl, hSF.f0 hR.zero hf0, ?_, ?_, hρ, hM0, ?_⟩
    · rw [hbl, mul_comm]
      exact (hle Λ (by linarith)).trans hη1'
    · rw [hSF.bars, hSF.forces]; exact he
    · intro b hb
      exact hel (b.image val) (by rw [← hSF.bars]; exact List.mem_map_of_mem hb)
    · rw [hSF.bars, hSF.forces]; exact hmod.mono hC2C
    · intro v hv
      rw [hf0] at hv
      obtain ⟨p, -, rfl⟩ := List.mem_map.1 hv
      rw [List.getD_eq_getElem?_getD]
      cases hp : ef'.forces[p]? with
      | none => show |(0 : ℝ)| ≤ C; rw [abs_zero]; linarith
      | some w => exact (hmod.forces w (List.mem_of_getElem? hp)).trans hC2C
    · rw [hSF.bars]; exact hP
    · intro s hs
      rw [hSF.bars]
      exact ⟨(hT s hs).1, fun y hy => ((hT s hs).2 y hy).mono hC1C⟩
  have hxl : (x ++ [(0 : F)]).length = n + 1 := by
    have := congrArg List.length hx
    simpa using this
  obtain ⟨x0, hx0⟩ := exists_ofFn' hxl
  have hval0 : (fun i => val (x0 i)) = γ 0 := by
    rw [hx0, List.map_ofFn] at hx
    exact List.ofFn_injective hx
  obtain ⟨d, hd⟩ := exists_ofFn' hlen
  have hdk' : d k = h := by
    rw [hd, List.getElem?_ofFn, dif_pos k.isLt] at hdk
    exact Option.some.inj hdk
  have htrack : NearTrack c' a' j k γ (2 * M0) (5 * f) 0 fun i => val (x0 i) := by
    rw [hval0]
    refine ⟨by rw [sub_self, norm_zero]; positivity, by rw [sub_self, abs_zero]; positivity, fun m => ?_⟩
    rw [path_zero he hn hj hP ⟨le_rfl, hS⟩ (by simp) 0 m, abs_zero]
    positivity
  obtain ⟨s', recs, e1, e2, e3⟩ := round_loop hSet (η := η) (by rw [hbl]; exact hle Λ (by linarith)) (hle 9 (by linarith)) hF hsp hsort hjf hsc rfl hηf hfh hh1
    hxr hdr hdx (d := d) (by rw [hdk']) (by linarith) (hNN _ hN1) (hNN _ hN2) hN
    (fun s hs t ht hst => by
      have := hω s hs t ht (by
        rw [dist_comm, Real.dist_eq]
        linarith)
      rw [dist_eq_norm] at this
      exact this.le)
    (fun p hp => by
      have := hlim p hp
      unfold IndexOK
      omega)
    (dxmax0 := List.ofFn d) hfuel cfg.incs 0 x0 a (if cfg.jPre then 1 else 0) 4 le_rfl
    (by rw [zero_add]; exact hinc) htrack ⟨hSF.eval, hSF.ready, rfl, rfl, fun _ _ => rfl⟩
  refine ⟨⟨x ++ [0], a, recs, s'.a⟩, ?_, ?_, ?_⟩
  · unfold pathfollow
    have hsj : startJ cfg (x ++ [0]) = .ok j := by
      unfold startJ
      rw [if_pos hjf, hcj]
    simp only [hsj, py_bind_ok]
    rw [if_neg (by rw [hlen, hxl]; simp), hd, hx0, e1]
    rfl
  · intro m r hm
    obtain ⟨p1, y, t, p2, p3, p4, p5⟩ := e2 m r hm
    rw [zero_add] at p4
    refine ⟨p1, y, t, p2, p3, p4, p5.control, fun i => ?_⟩
    have := norm_le_pi_norm ((fun i => val (y i)) - γ t) i
    rw [Real.norm_eq_abs] at this
    have h2 := this.trans p5.close
    have e : 2 * M0 * (5 * f) = 2 * M0 * 5 * f := by ring
    rwa [e] at h2
  · rcases e3 with e3 | ⟨r, e3, e4⟩
    · exact Or.inl e3
    · right
      cases hxl : cfg.xlimit with
      | none => rw [hxl] at e4; cases e4
      | some p =>
        rw [hxl] at e4
        unfold limitReached at e4
        obtain ⟨v, e5, e6⟩ := py_bind_eq_ok.1 e4
        have hp := hlim p hxl
        have hp1 : p.1 - 1 = (((p.1 - 1).toNat : Nat) : Int) := by omega
        rw [hp1] at e5
        have e7 := pyGet_ok_nat.1 e5
        refine ⟨r, v, p, e3, rfl, e7, ?_⟩
        rw [List.getLast?_eq_getElem?] at e3
        obtain ⟨-, y, t, p2, p3, -, p5⟩ := e2 _ r e3
        have hC' : |val v| ≤ C := by
          have hv : v ∈ r.x := List.mem_of_getElem? e7
          rw [p2] at hv
          obtain ⟨i, rfl⟩ := List.mem_ofFn.1 hv
          have hM0f : M0 * (6 * f) ≤ M0 * val h := mul_le_mul_of_nonneg_left hfh hM0.le
          have hM0f' : 0 ≤ M0 * f := by positivity
          exact ((hSet.tame t p3).2 _ (p5.close.trans (by linarith))).size i
        have hvδ : |val v| ≤ 1 / δ := by
          refine hC'.trans ?_
          rw [le_div_iff₀ hδ]
          have h1 : lev C 0 ≤ Λ := lev_mono hC1' (Nat.zero_le _)
          exact (hle C ((show C ≤ Λ from h1).trans (by linarith))).trans hη1'
        have habs := hR.abs v hvδ
        have := (hR.lt _ _ hp.2.2 (by rw [habs, abs_abs]; exact hvδ)).1 (Except.ok.inj e6)
        rwa [habs] at this

end

/-! ## The hypotheses are met -/

/-- The unit bar in any number format with small enough rounding error that has a number near every number up to 4: path following makes five accepted
increments, and at each of them the displacement is the load factor up to any given accuracy. -/
theorem fm_follows (ε : ℝ) (hε : 0 < ε) : ∃ κ : ℝ, 0 ≤ κ ∧ ∀ K : ℝ, 0 ≤ K → ∃ σ > 0, ∀ (F : Type) [Zero F] [One F] [Add F] [Sub F] [Mul F] [Div F] [Neg F]
    [Flt F] (val : F → ℝ) (δ : ℝ), Rounds val δ → δ ≤ σ → (∀ t : ℝ, |t| ≤ 4 → ∃ x : F, |val x - t| ≤ δ) →
    ∀ sp : List (List F) → List F → Py (List F), SolvesNear val sp 2 κ 0 (K * δ) →
    ∃ (cfg : PFCfg F) (o : PFOut F), cfg.incs = 5 ∧
    pathfollow ⟨sp, fun l => List.range l.length⟩ (modelProblem fmCtx) cfg 1 [0] fmA = .ok o ∧ o.recs.length = 5 ∧
    ∀ r ∈ o.recs, r.out = .accepted ∧ ∃ u l : F, r.x = [u, l] ∧ |val u - val l| ≤ ε := by
  obtain ⟨h0, hh0, η0, hη0, κ, L, Γ, hκ, hΓ, H⟩ := C111_follows_path_rounded sbEvaluable rfl rfl
    (by intro b hb; rw [List.mem_singleton.1 hb]; rfl)
    (by intro b hb; rw [List.mem_singleton.1 hb]; simp [len, sbBar, Bar.ref])
    (n := 1) rfl le_rfl (k := 1) rfl (by norm_num : (0 : ℝ) ≤ 10) (sbPath 10)
  refine ⟨κ, hκ, fun K hK => ?_⟩
  set T := min h0 1 / 4 with hT
  have hT0 : 0 < T := by positivity
  have hTh : 4 * T ≤ h0 := by have := min_le_left h0 1; linarith
  have hT1 : 4 * T ≤ 1 := by have := min_le_right h0 1; linarith
  set t := min (T / 40) (ε / (4 * (|L| + 1))) with ht
  have ht0 : 0 < t := by positivity
  have htT : t ≤ T / 40 := min_le_left _ _
  have htL : (|L| + 1) * (4 * t) ≤ ε := by
    have h1 : t ≤ ε / (4 * (|L| + 1)) := min_le_right _ _
    rw [le_div_iff₀ (by positivity)] at h1
    linarith
  set Λ := Γ + K + 2 with hΛ
  have hΛ1 : 1 ≤ Λ := by linarith
  set σ := min (min (η0 / Λ) (t / 4 / (Γ * Λ))) (min (t / 4) (1 / 4)) with hσ
  have hσ0 : 0 < σ := by positivity
  obtain ⟨N, hN⟩ := exists_pow_lt_of_lt_one (show 0 < t / 4 / Γ by positivity) (by norm_num : (3 / 4 : ℝ) < 1)
  refine ⟨σ, hσ0, ?_⟩
  intro F _ _ _ _ _ _ _ _ val δ hR hδσ hdense sp hsol
  have hδ0 := hR.pos
  have d1 : Λ * δ ≤ η0 := by
    have := hδσ.trans ((min_le_left _ _).trans (min_le_left _ _))
    rw [le_div_iff₀ (by linarith)] at this
    linarith
  have d2 : Γ * (Λ * δ) ≤ t / 4 := by
    have := hδσ.trans ((min_le_left _ _).trans (min_le_right _ _))
    rw [le_div_iff₀ (by positivity)] at this
    linarith
  have d3 : δ ≤ t / 4 := hδσ.trans ((min_le_right _ _).trans (min_le_left _ _))
  have d4 : δ ≤ 1 / 4 := hδσ.trans ((min_le_right _ _).trans (min_le_right _ _))
  obtain ⟨f, hft⟩ := hdense t (by rw [abs_of_pos ht0]; linarith)
  obtain ⟨h, hhT⟩ := hdense T (by rw [abs_of_pos hT0]; linarith)
  obtain ⟨D, hd2⟩ := hdense 3 (by norm_num)
  replace hft := abs_le.1 hft
  replace hhT := abs_le.1 hhT
  replace hd2 := abs_le.1 hd2
  have hbig : (4 : ℝ) ≤ 1 / δ := by
    rw [le_div_iff₀ hδ0]
    linarith
  have hf1 : val f ≤ 2 * t := by linarith
  have hf2 : t * (3 / 4) ≤ val f := by linarith
  have hh2 : T / 2 ≤ val h := by linarith
  have hh3 : val h ≤ 2 * T := by linarith
  have hNf : Γ * ((val h + val f) * (3 / 4) ^ N + Λ * δ) < val f := by
    rw [lt_div_iff₀ (by linarith)] at hN
    have h1 : (0 : ℝ) ≤ (3 / 4) ^ N * Γ := by positivity
    have h2 : (val h + val f) * ((3 / 4) ^ N * Γ) ≤ 1 * ((3 / 4) ^ N * Γ) := mul_le_mul_of_nonneg_right (by linarith) h1
    have e : Γ * ((val h + val f) * (3 / 4) ^ N + Λ * δ) = (val h + val f) * ((3 / 4) ^ N * Γ) + Γ * (Λ * δ) := by ring
    rw [e]
    linarith
  obtain ⟨o, g1, g2, g3⟩ := H F val δ (Λ * δ) 0 (K * δ) hR
    (mul_le_mul_of_nonneg_right (by linarith) hδ0.le) d1 le_rfl (by norm_num) (by positivity)
    (mul_le_mul_of_nonneg_right (by linarith) hδ0.le) fmCtx [fmBar] fmA fmLoad
    ⟨fmEvaluable, ⟨⟨fmEvaluable.fits, fmEvaluable.statev, rfl, rfl, rfl⟩, ⟨_, rfl, rfl, rfl⟩, rfl⟩, rfl, fmBar_image hR.zero hR.one,
      fmLoad_image hR.zero hR.one, fmTwin hR.zero⟩
    ⟨sp, fun l => List.range l.length⟩ hsol
    (fun l hl => ⟨l.length - 1, by
      have := List.length_pos_iff.2 hl
      exact ⟨by show (List.range l.length).getLast? = _; rw [List.getLast?_range, if_neg (by omega)], by omega⟩⟩)
    h (by linarith) (by linarith)
    { dxmax := .vec [h, h], j := some 2, jFixed := true, jPre := true, xlimit := none, incs := 5, nfev := N + 1, cycl := 1, ftol := f, xtol := f,
      stepcontrol := false, maxfac := 1, minfac := 1, reduce := 1, increase := 1, dxtol := D } rfl rfl rfl
    (by show 0 < val f; linarith) (by show 6 * val f ≤ _; linarith)
    (by
      show val h + 8 * val f ≤ val D * val h
      have : 2 * val h ≤ val D * val h := mul_le_mul_of_nonneg_right (by linarith) (by linarith)
      linarith)
    (by show |val f| ≤ _; rw [abs_le]; constructor <;> linarith)
    (by show |val D| ≤ _; rw [abs_le]; constructor <;> linarith)
    [0] (by simp [hR.zero, List.ofFn_succ]) rfl rfl (fun q hq => by cases hq)
    (by show ((5 : Nat) : ℝ) * (val h + 6 * val f) ≤ 10; push_cast; linarith) N hNf hNf le_rfl 1 le_rfl
  refine ⟨_, o, rfl, g1, ?_, ?_⟩
  · rcases g3 with g3 | ⟨r, v, q, -, g3, -⟩
    · exact g3
    · cases g3
  · intro r hr
    obtain ⟨m, hm⟩ := List.getElem?_of_mem hr
    obtain ⟨p1, y, s, p2, -, -, -, p3⟩ := g2 m r hm
    refine ⟨p1, y 0, y 1, by rw [p2]; simp [List.ofFn_succ], ?_⟩
    have h3 : |val (y 0) - s| ≤ L * val f := p3 0
    have h4 : |val (y 1) - s| ≤ L * val f := p3 1
    have h5 : L * val f ≤ |L| * val f := mul_le_mul_of_nonneg_right (le_abs_self L) (by linarith)
    have h6 : |L| * val f ≤ |L| * (2 * t) := mul_le_mul_of_nonneg_left hf1 (abs_nonneg L)
    have h7 := abs_le.1 h3
    have h8 := abs_le.1 h4
    rw [abs_le]
    constructor <;> linarith

/-- In fixed-point arithmetic with enough binary places. -/
example (ε : ℝ) (hε : 0 < ε) : ∃ p0 : Nat, ∀ p, p0 ≤ p → ∃ (cfg : PFCfg (Fix p)) (o : PFOut (Fix p)), cfg.incs = 5 ∧
    pathfollow ⟨Fix.solve, fun l => List.range l.length⟩ (modelProblem fmCtx) cfg 1 [0] fmA = .ok o ∧ o.recs.length = 5 ∧
    ∀ r ∈ o.recs, r.out = .accepted ∧ ∃ u l : Fix p, r.x = [u, l] ∧ |Fix.val u - Fix.val l| ≤ ε := by
  obtain ⟨κ, hκ, H⟩ := fm_follows ε hε
  obtain ⟨σ, hσ, H⟩ := H (2 * κ) (by positivity)
  obtain ⟨p0, hp0⟩ := exists_pow_lt_of_lt_one hσ (by norm_num : (1 / 2 : ℝ) < 1)
  refine ⟨p0, fun p hp => H (Fix p) Fix.val _ (Fix.rounds p) ?_ (fun t _ => ⟨Fix.round t, Fix.round_le t⟩) Fix.solve (by simpa using Fix.solve_near (p := p) 2 hκ)⟩
  have h1 : ((1 : ℝ) / 2) ^ p ≤ (1 / 2) ^ p0 := pow_le_pow_of_le_one (by norm_num) (by norm_num) hp
  rw [div_pow, one_pow] at h1
  exact h1.trans hp0.le

end TrussPy
