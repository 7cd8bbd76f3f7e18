import Verif.Lemmas.Follow
import Verif.ExamplesExact
/-!
# Property C99: small steps follow the equilibrium path
-/

set_option linter.unusedSectionVars false

namespace TrussPy

section
variable {c : Ctx ℝ} {bars : List (Bar ℝ)} {a : Analysis ℝ} {ef : StepForces ℝ}

/-- **C99.** Let `γ` be an equilibrium path of a truss below yield, parametrised by the component `k`, and let the linear solver
be exact.  Then there are `h0 > 0`, `f0 > 0` and constants `L`, `C` such that `pathfollow` with that component fixed as control
component and without step control, started at `γ 0` with step width `h < h0` for this component and tolerance
`ftol ≤ f0`, and with enough iterations allowed, returns; every increment is accepted; the `m`-th recorded vector has the
control component of `γ (m h)` exactly and lies within `L * ftol` of `γ (m h)` - the error does not grow with the number
of increments; and all increments are recorded unless the limit `xlimit` is passed. -/
theorem C99_follows_path (he : Evaluable c bars a ef) (hr : a.Ready c)
    (hf0 : a.f0red = a.DOF1.map fun p => ef.forces.getD p 0) {n : Nat} (hn : c.ndof1 = n)
    (hn1 : 1 ≤ n) {j : Int} {k : Fin (n + 1)} (hj : j.natAbs = k + 1) {S : ℝ} (hS : 0 ≤ S) {γ : ℝ → Fin (n + 1) → ℝ}
    (hP : EquilPath c bars a j k S γ) {x : List ℝ} (hx : List.ofFn (γ 0) = x ++ [0])
    {env : Env ℝ} (hsp : SolvesRegular env.spsolve (n + 1)) (hA : ArgMax env) :
    ∃ h0 > 0, ∃ f0 > 0, ∃ L C : ℝ, ∀ (h : ℝ), 0 < h → h < h0 → ∀ (cfg : PFCfg ℝ), cfg.jFixed = true → cfg.j = some j →
      cfg.stepcontrol = false → 1 ≤ cfg.dxtol → 0 < cfg.ftol → cfg.ftol ≤ f0 →
      (initDxmax (x ++ [0]) cfg.dxmax).length = n + 1 → (initDxmax (x ++ [0]) cfg.dxmax)[(k : Nat)]? = some h →
      (∀ p, cfg.xlimit = some p → 1 ≤ p.1 ∧ p.1 ≤ n + 1) → cfg.incs * h ≤ S →
      ∀ N : Nat, Shrinks C (h + cfg.ftol) cfg.ftol N → Shrinks C (h + cfg.ftol) cfg.xtol N → (N : Int) + 1 ≤ cfg.nfev →
      ∀ fuel : Nat, 1 ≤ fuel → ∃ o, pathfollow env (modelProblem c) cfg fuel x a = .ok o ∧
        (∀ (m : Nat) r, o.recs[m]? = some r → r.out = .accepted ∧ ∃ y : Fin (n + 1) → ℝ, r.x = List.ofFn y ∧
          y k = γ ((m + 1) * h) k ∧ ∀ i, |y i - γ ((m + 1) * h) i| ≤ L * cfg.ftol) ∧
        (o.recs.length = cfg.incs ∨ ∃ r v p, o.recs.getLast? = some r ∧ cfg.xlimit = some p ∧
          r.x[(p.1 - 1).toNat]? = some v ∧ p.2 < |v|) := by
  have hl : a.lpf.isSome = true := hr.base.lpf
  obtain ⟨ρ, hρ, M0, hM0, Λ, hΛ, hT, hQ⟩ := path_both he hl hf0 hn hj hP (V0 := List.replicate (n + 1) 0) (by simp)
  -- uniform continuity of the path
  obtain ⟨δ, hδ, hω⟩ := Metric.uniformContinuousOn_iff.1 (isCompact_Icc.uniformContinuousOn_of_continuous hP.cont) (ρ / 2)
    (by positivity)
  refine ⟨min δ (ρ / (16 * M0)), by positivity, ρ / (24 * M0), by positivity, 2 * M0,
    max (((n : ℝ) + 1) * (1 + 2 * M0)) (4 * Λ * M0 ^ 2), ?_⟩
  intro h hh hlt cfg hjf hcj hsc hdx hft hftle hlen hdk hlim hinc N hN1 hN2 hN fuel hfuel
  have hhδ : h < δ := hlt.trans_le (min_le_left _ _)
  have hhρ : h ≤ ρ / (16 * M0) := (hlt.trans_le (min_le_right _ _)).le
  rw [le_div_iff₀ (by positivity)] at hhρ hftle
  obtain ⟨d, hd⟩ := exists_ofFn hlen
  have hdk' : d k = h := by
    rw [hd, List.getElem?_ofFn, dif_pos k.isLt] at hdk
    exact Option.some.inj hdk
  have htrack : OnTrack c a j k γ (2 * M0) cfg.ftol 0 (γ 0) := by
    refine ⟨by rw [sub_self, norm_zero]; positivity, rfl, fun m => ?_⟩
    rw [path_zero he hn hj hP ⟨le_rfl, hS⟩ (by simp) 0 m, abs_zero]
    exact hft.le
  have hcar : Carried c bars ef a a := ⟨he, hr, rfl, rfl, fun _ _ => rfl, rfl,
    fun _ _ hb => (hP.calm 0 ⟨le_rfl, hS⟩).alike he hn hb⟩
  obtain ⟨s', recs, e1, e2, e3⟩ := follow_loop he hl hf0 hn hn1 hj hP hρ hM0 hT hΛ hQ hsp hA hjf hsc hdx hft hdk' hh
    (by linarith) (hN1.enough hN2 hN (by positivity) (le_max_right _ _) (le_max_left _ _) (by linarith))
    (fun s hs hs' => by
      have := hω s hs (s + h) hs' (by
        rw [Real.dist_eq, sub_add_cancel_left, abs_neg, abs_of_pos hh]
        exact hhδ)
      rw [dist_eq_norm] at this
      exact this.le)
    (fun p hp => by
      have := hlim p hp
      unfold IndexOK
      omega)
    (dxmax0 := List.ofFn d) (by simp [List.ofFn_succ]) hfuel cfg.incs 0 (γ 0) a (if cfg.jPre then 1 else 0) 4 le_rfl
    (by rw [zero_add]; exact hinc) htrack hcar
  refine ⟨⟨x ++ [0], a, recs, s'.a⟩, ?_, ?_, ?_⟩
  · unfold pathfollow
    have hsj : startJ cfg (x ++ [0]) = .ok j := by
      unfold startJ
      rw [if_pos hjf, hcj]
    have hxl : (x ++ [(0 : ℝ)]).length = n + 1 := by rw [← hx]; simp
    simp only [hsj, py_bind_ok]
    rw [if_neg (by rw [hlen, hxl]; simp), hd, ← hx, e1]
    rfl
  · intro m r hm
    obtain ⟨p1, y, p2, p3⟩ := e2 m r hm
    rw [zero_add] at p3
    refine ⟨p1, y, p2, p3.control, fun i => ?_⟩
    have := norm_le_pi_norm (y - γ ((m + 1) * h)) i
    rw [Real.norm_eq_abs] at this
    exact this.trans p3.close
  · rcases e3 with e3 | ⟨r, e3, e4⟩
    · exact Or.inl e3
    · right
      cases hxl : cfg.xlimit with
      | none => rw [hxl] at e4; cases e4
      | some p =>
        rw [hxl] at e4
        unfold limitReached at e4
        obtain ⟨v, e5, e6⟩ := py_bind_eq_ok.1 e4
        have hp := hlim p hxl
        have : p.1 - 1 = (((p.1 - 1).toNat : Nat) : Int) := by omega
        rw [this] at e5
        exact ⟨r, v, p, e3, rfl, pyGet_ok_nat.1 e5, of_decide_eq_true (Except.ok.inj e6)⟩

end

/-! ## The hypotheses are met

The bar under load control; the two-bar truss with snap-through under displacement control follows in `Props/Snap.lean`. -/

theorem sbPath (S : ℝ) : EquilPath (n := 1) sbCtx [sbBar] sbA 2 1 S fun s => ![s, s] where
  cont := by
    refine continuousOn_pi.2 fun i => ?_
    fin_cases i <;> exact continuousOn_id
  equilibrium s hs := sbEquilibrium hs.1 (by simp)
  control s _ := by simp [show Int.sign 2 = 1 from rfl]
  calm s hs := (sbSmooth hs.1 s).calm (by intro b hb; rw [List.mem_singleton.1 hb]; rfl)
  regular s hs := sbMatrix hs.1 s

example : ∃ h0 > 0, ∃ f0 > 0, ∃ L C : ℝ, ∀ (h : ℝ), 0 < h → h < h0 → ∀ (cfg : PFCfg ℝ), cfg.jFixed = true → cfg.j = some 2 →
      cfg.stepcontrol = false → 1 ≤ cfg.dxtol → 0 < cfg.ftol → cfg.ftol ≤ f0 →
      (initDxmax ([0] ++ [0]) cfg.dxmax).length = 1 + 1 → (initDxmax ([0] ++ [0]) cfg.dxmax)[((1 : Fin 2) : Nat)]? = some h →
      (∀ p, cfg.xlimit = some p → 1 ≤ p.1 ∧ p.1 ≤ (1 : Nat) + 1) → cfg.incs * h ≤ 10 →
      ∀ N : Nat, Shrinks C (h + cfg.ftol) cfg.ftol N → Shrinks C (h + cfg.ftol) cfg.xtol N → (N : Int) + 1 ≤ cfg.nfev →
      ∀ fuel : Nat, 1 ≤ fuel → ∃ o, pathfollow exactEnv (modelProblem sbCtx) cfg fuel [0] sbA = .ok o ∧
        (∀ (m : Nat) r, o.recs[m]? = some r → r.out = .accepted ∧ ∃ y : Fin 2 → ℝ, r.x = List.ofFn y ∧
          y 1 = (m + 1) * h ∧ ∀ i, |y i - ![(m + 1) * h, (m + 1) * h] i| ≤ L * cfg.ftol) ∧
        (o.recs.length = cfg.incs ∨ ∃ r v p, o.recs.getLast? = some r ∧ cfg.xlimit = some p ∧
          r.x[(p.1 - 1).toNat]? = some v ∧ p.2 < |v|) :=
  C99_follows_path sbEvaluable ⟨⟨sbEvaluable.fits, sbEvaluable.statev, rfl, rfl, rfl⟩, ⟨_, rfl, rfl, rfl⟩, rfl⟩ rfl
    (n := 1) rfl le_rfl (k := 1) rfl (by norm_num : (0 : ℝ) ≤ 10) (sbPath 10)
    (by simp [List.ofFn_succ]) (exactEnv_solves 2) exactEnv_argmax

end TrussPy
