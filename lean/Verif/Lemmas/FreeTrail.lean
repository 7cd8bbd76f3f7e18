import Verif.Spec.FreeTrail
import Verif.Lemmas.TrailRun
import Verif.Props.Auto
import Mathlib.Analysis.Calculus.Deriv.Prod
/-!
# Free equilibrium paths of the entered structure are free equilibrium paths of the built model
-/

set_option linter.unusedSectionVars false

namespace TrussPy

section
variable {u : UserInput ℝ} {es : List (Elem ℝ)} {c : Ctx ℝ} {bars : List (Bar ℝ)} {a : Analysis ℝ} {ef : StepForces ℝ}

theorem FreeTrail.allowed {du dl S : ℝ} (hS : 0 < S) {U U' : ℝ → Int → V3 ℝ} {l l' : ℝ → ℝ} (ht : FreeTrail u es du dl S U U' l l')
    {s : ℝ} (hs : s ∈ Set.Icc 0 S) : AllowedVelocity u (U' s) := by
  intro n hn d hd
  have h1 := ht.deriv s hs n hn d
  have h2 : HasDerivWithinAt (fun s => U s n.label d) 0 (Set.Icc 0 S) s :=
    (hasDerivWithinAt_const s (Set.Icc 0 S) (0 : ℝ)).congr (fun r hr => ht.supports r hr n hn d hd) (ht.supports s hs n hn d hd)
  exact (uniqueDiffOn_Icc hS s hs).eq_deriv _ h1 h2

/-- Widths in the order of the tables. -/
def widths (n : Nat) (du dl : ℝ) : Fin (n + 1) → ℝ := Fin.snoc (α := fun _ => ℝ) (fun _ => du) dl

theorem widths_castSucc {n : Nat} (du dl : ℝ) (q : Fin n) : widths n du dl q.castSucc = du := by
  unfold widths
  rw [Fin.snoc_castSucc]

theorem widths_last {n : Nat} (du dl : ℝ) : widths n du dl (Fin.last n) = dl := by
  unfold widths
  rw [Fin.snoc_last]

theorem LaidStep.freePath (h : LaidStep u es c bars a ef) {du dl S : ℝ} (hdu : 0 < du) (hdl : 0 < dl) (hS : 0 < S)
    {U U' : ℝ → Int → V3 ℝ} {l l' : ℝ → ℝ} (ht : FreeTrail u es du dl S U U' l l') :
    FreePath c bars a (widths a.DOF1.length du dl) S (fun s => fieldVec c a.DOF1 (U s) (l s))
      fun s => fieldVec c a.DOF1 (U' s) (l' s) := by
  have hn : c.ndof1 = a.DOF1.length := h.eval.dofs.symm
  have hnode : ∀ q : Fin a.DOF1.length, ∃ n ∈ u.nodes, n.label = dofLabel c a.DOF1[q] := fun q =>
    h.laid.node (h.laid.dofLabel (List.getElem_mem q.isLt))
  have hspeed : ∀ s ∈ Set.Icc 0 S, ∃ i, widths a.DOF1.length du dl i ≤ |fieldVec c a.DOF1 (U' s) (l' s) i| := by
    intro s hs
    rcases ht.speed s hs with h1 | ⟨n, hn', d, h1⟩
    · exact ⟨Fin.last _, by rw [widths_last, fieldVec_last]; exact h1⟩
    · have hfree : FreeAt u n.label d := by
        refine ⟨⟨n, hn', rfl⟩, ?_⟩
        by_contra hc
        rw [ht.allowed hS hs n hn' d hc, abs_zero] at h1
        linarith
      obtain ⟨p, hp, e1, e2⟩ := h.laid.freeDof hfree
      obtain ⟨q, hq, rfl⟩ := List.getElem_of_mem hp
      refine ⟨(⟨q, hq⟩ : Fin a.DOF1.length).castSucc, ?_⟩
      rw [widths_castSucc, fieldVec_castSucc]
      simp only [Fin.getElem_fin, e1, e2]
      exact h1
  refine ⟨?_, ?_, hspeed, ?_, ?_, fun s hs => h.calm (ht.supports s hs) _ (ht.length s hs) (ht.below s hs), ?_⟩
  · intro s hs
    refine hasDerivWithinAt_pi.2 fun i => ?_
    refine Fin.lastCases ?_ (fun q => ?_) i
    · simp only [fieldVec_last]
      exact ht.derivLoad s hs
    · simp only [fieldVec_castSucc]
      obtain ⟨n, hn', hl⟩ := hnode q
      rw [← hl]
      exact ht.deriv s hs n hn' _
  · refine continuousOn_pi.2 fun i => ?_
    refine Fin.lastCases ?_ (fun q => ?_) i
    · simp only [fieldVec_last]
      exact ht.contLoad
    · simp only [fieldVec_castSucc]
      obtain ⟨n, hn', hl⟩ := hnode q
      rw [← hl]
      exact ht.cont n hn' _
  · rw [fieldVec_last]
    exact ht.grows
  · intro s hs
    exact h.balance (ht.supports s hs) (ht.below s hs) (ht.equilibrium s hs)
  · intro s hs
    obtain ⟨k, hk⟩ := hspeed s hs
    have hk0 : fieldVec c a.DOF1 (U' s) (l' s) k ≠ 0 := by
      intro h0
      rw [h0, abs_zero] at hk
      have : 0 < widths a.DOF1.length du dl k := by
        refine Fin.lastCases ?_ (fun q => ?_) k
        · rwa [widths_last]
        · rwa [widths_castSucc]
      linarith
    have hj := num_natAbs k
    obtain ⟨a', K0, K, e1, -⟩ := extDf_model h.eval h.lpf h.f0 hn hj (fieldVec c a.DOF1 (U s) (l s))
    have hmat : sysMat c a a.DOF1.length (num k) (fieldVec c a.DOF1 (U s) (l s)) = matOf (a.DOF1.length + 1) K := by
      unfold sysMat
      rw [e1]
    refine ⟨num k, a', K, ?_, ?_, e1, ?_⟩
    · unfold num; omega
    · have := k.isLt
      unfold num; omega
    rw [← hmat, regular_iff_injective]
    intro w hw
    obtain ⟨v, hva, hvw, hvd⟩ := h.kernel hj (ht.supports s hs) (ht.length s hs) (ht.below s hs) hw
    obtain ⟨r, r1, r2⟩ := ht.regular s hs v (w (Fin.last _)) hva hvd
    have hall : ∀ i, w i = r * fieldVec c a.DOF1 (U' s) (l' s) i := by
      intro i
      rw [← hvw]
      refine Fin.lastCases ?_ (fun q => ?_) i
      · rw [fieldVec_last, fieldVec_last]
        exact r2
      · rw [fieldVec_castSucc, fieldVec_castSucc]
        obtain ⟨n, hn', hl⟩ := hnode q
        rw [← hl]
        exact r1 n hn' _
    have hwk : w k = 0 := by
      have := (sysMat_rows h.eval h.lpf h.f0 hn hj hj (fieldVec c a.DOF1 (U s) (l s))).2 w
      rw [← this, hw]
      rfl
    have hr : r = 0 := by
      have := hall k
      rw [hwk] at this
      rcases mul_eq_zero.1 this.symm with h1 | h1
      · exact h1
      · exact absurd h1 hk0
    funext i
    rw [hall i, hr, zero_mul]
    rfl

end

/-- Path following in the default mode in the first step of a run. -/
theorem free_ready {u : UserInput ℝ} {es : List (Elem ℝ)} {nsteps : Nat} (hv : ValidInput u es nsteps) (hns : 1 ≤ nsteps)
    (hus : UsualPlastic es) {P : List (Int × Fin 3)} (hP : FreeList u P) {du dl S : ℝ} (hdu : 0 < du) (hdl : 0 < dl)
    (hS : 0 < S) {U U' : ℝ → Int → V3 ℝ} {l l' : ℝ → ℝ} (ht : FreeTrail u es du dl S U U' l l')
    {env : Env ℝ} (hsp : SolvesRegular env.spsolve (P.length + 1)) (hA : ArgMax env) {η W : ℝ} (hη : 0 < η) (hW : 1 ≤ W) (nst : Nat) :
    ∃ t0 > 0, ∃ φ0 > 0, ∃ L C : ℝ, ∀ (argsort : List Int → List Nat), IsArgsort argsort → ∀ m : Model ℝ,
      Entered u m → EnteredElems es m → m.settings.ndim = 3 → m.settings.nstatev = nst →
      ∃ m1 c d bars a r0 ft A1, m.build argsort = .ok m1 ∧ m1.ctx = some c ∧ m1.dims = some d ∧ Laid u es c bars d.dof1 ∧
        m1.analysis = some a ∧
        m1.results = some ⟨[r0], []⟩ ∧ r0.lpf = some 0 ∧ m1.forces = some ft ∧
        m1.settings = { m.settings with nstatev := c.nstatev } ∧
        setStep ft.forces.rows [] 0 { a with Vred := a.Ured ++ [0], lpf := some 0 } = .ok A1 ∧
        ∀ t, 0 < t → t < t0 → FreeControl m.settings du dl η W t → (10 : ℝ) ^ (-m.settings.ftol) ≤ φ0 * t →
        ∀ (K : Nat) (xl : Int × ℝ), 1 ≤ xl.1 → xl.1 ≤ P.length + 1 → K * ((1 + η) * (W * t)) ≤ S →
        IterationsFor m.settings C t →
        ∀ fuel, 1 ≤ fuel → ∃ o, pathfollow env (modelProblem c) (stepCfg m1.settings K xl) fuel A1.Ured A1 = .ok o ∧
          (∃ p : Nat → ℝ, p 0 = 0 ∧ ∀ (q : Nat) (r : Rec ℝ), o.recs[q]? = some r → r.out = .accepted ∧ r.x.length = P.length + 1 ∧
            0 ≤ p q ∧ p q < p (q + 1) ∧ p (q + 1) ≤ S ∧ p (q + 1) ≤ p q + (1 + η) * (W * t) ∧
            (∀ G, (∀ s ∈ Set.Icc 0 S, |l' s| ≤ G * dl ∧ ∀ n ∈ u.nodes, ∀ d, |U' s n.label d| ≤ G * du) →
              (1 - η) * t ≤ G * (p (q + 1) - p q)) ∧
            (∀ i ≤ P.length, |r.x.getD i 0 - component P (U (p (q + 1))) (l (p (q + 1))) i| ≤ L * (10 : ℝ) ^ (-m.settings.ftol)) ∧
            (∀ n ∈ u.nodes, ∀ d, |U (p (q + 1)) n.label d - U (p q) n.label d| ≤ (1 + η) * (W * t) * du) ∧
            |l (p (q + 1)) - l (p q)| ≤ (1 + η) * (W * t) * dl ∧
            ((1 - η) * t * dl ≤ |l (p (q + 1)) - l (p q)| ∨
              ∃ n ∈ u.nodes, ∃ d, (1 - η) * t * du ≤ |U (p (q + 1)) n.label d - U (p q) n.label d|)) ∧
          o.recs.length ≤ K ∧ (o.recs.length = K ∨ ∃ r v, o.recs.getLast? = some r ∧ r.x[(xl.1 - 1).toNat]? = some v ∧ xl.2 < |v|) := by
  by_cases hex : ∃ (as : List Int → List Nat) (m0 : Model ℝ), IsArgsort as ∧ Entered u m0 ∧ EnteredElems es m0 ∧
      m0.settings.ndim = 3 ∧ m0.settings.nstatev = nst
  swap
  · refine ⟨1, one_pos, 1, one_pos, 0, 0, ?_⟩
    intro as has m hu he hd hn
    exact absurd ⟨as, m, has, hu, he, hd, hn⟩ hex
  obtain ⟨c, d, bars, A1, ef, hlaid, hstep, hready, hDA, hUr, hfree, hall⟩ := step_ready hv hns hus nst hex
  have hPd := hlaid.freeList hP
  have hPl : P.length = A1.DOF1.length := by rw [hPd, List.length_map, hDA]
  have hpath := hstep.freePath hdu hdl hS ht
  have hU0 := undeformed hstep hDA hUr ht.start ht.startLoad
  have hwpos : ∀ i, 0 < widths A1.DOF1.length du dl i := by
    intro i
    refine Fin.lastCases ?_ (fun q => ?_) i
    · rwa [widths_last]
    · rwa [widths_castSucc]
  obtain ⟨t0, ht0, φ0, hφ0, L, C, key⟩ := C102_follows_free_path hstep.eval hready hstep.f0 (n := A1.DOF1.length)
    (by rw [hstep.eval.dofs]) hfree hwpos hS hpath hU0 (by rw [← hPl]; exact hsp) hA hη hW
  refine ⟨t0, ht0, φ0, hφ0, L, C, ?_⟩
  intro as has m hu he hd hn
  obtain ⟨m1, a, r, ft1, g1, g2, gd, g5, g7, g9, g11, g13, hset⟩ := hall as has m hu he hd hn
  refine ⟨m1, c, d, bars, a, r, ft1, A1, g1, g2, gd, hlaid, g5, g7, g9, g11, g13, hset, ?_⟩
  rintro t htp htlt hfc hf K xl hx1 hx2 hKS ⟨N, hN1, hN2, hN3⟩ fuel hfuel
  have hcfg : stepCfg m1.settings K xl = stepCfg m.settings K xl := by rw [g13]; rfl
  have hw := initDxmax_width (x := A1.Ured) (n := A1.DOF1.length) (by rw [hUr, hDA]; simp) (du := m.settings.du)
    (dl := m.settings.dlpf)
  rw [hcfg]
  obtain ⟨o, o1, ⟨p, p0, o2⟩, o3⟩ := key t htp htlt (stepCfg m.settings K xl) hfc.free hfc.predict hfc.enlarge hfc.overshoot
    (by show (0 : ℝ) < 10 ^ (-m.settings.ftol); positivity) hf (by
      intro i
      show (10 : ℝ) ^ (-m.settings.xtol) ≤ _
      refine Fin.lastCases ?_ (fun q => ?_) i
      · rw [widths_last]
        exact hfc.tolLoad
      · rw [widths_castSucc]
        exact hfc.tolDisp) (by
      show initDxmax (A1.Ured ++ [0]) (.vec [m.settings.du, m.settings.dlpf]) = _
      rw [hw, ofFn_split, widths_last, hfc.widthDisp, hfc.widthLoad, ← List.ofFn_const]
      refine congrArg (· ++ [t * dl]) (congrArg List.ofFn (funext fun q => ?_))
      rw [widths_castSucc]) (by
      intro q hq
      have hq : some xl = some q := hq
      cases hq
      rw [← hPl]
      exact ⟨hx1, hx2⟩) hKS N hN1 hN2 hN3 fuel hfuel
  have hlen : o.recs.length ≤ K := (C38_limit_stop _ _ _ _ _ _ o o1).2.1
  have hPd' : P = A1.DOF1.map fun p => (dofLabel c p, comp p) := by rw [hDA]; exact hPd
  refine ⟨o, o1, ⟨p, p0, ?_⟩, hlen, ?_⟩
  · intro q r hr
    obtain ⟨r1, r2, r3, r4, r5, r6, ⟨y, r7, r8⟩, r9, i0, r10⟩ := o2 q r hr
    have hqS : p q ∈ Set.Icc 0 S := ⟨r2, by linarith⟩
    have hqS' : p (q + 1) ∈ Set.Icc 0 S := ⟨by linarith, r4⟩
    have hget : ∀ i : Fin (A1.DOF1.length + 1), r.x.getD i 0 = y i := by
      intro i
      rw [r7, List.getD_eq_getElem?_getD, List.getElem?_ofFn, dif_pos i.isLt]
      rfl
    have hη0 : 0 ≤ (1 + η) * (W * t) := by positivity
    refine ⟨r1, by rw [r7, hPl]; simp, r2, r3, r4, r5, ?_, ?_, ?_, ?_, ?_⟩
    · intro G hG
      refine r6 G fun s hs i => ?_
      refine Fin.lastCases ?_ (fun q => ?_) i
      · rw [widths_last, fieldVec_last]
        exact (hG s hs).1
      · rw [widths_castSucc, fieldVec_castSucc]
        obtain ⟨n, hn', hl⟩ := hstep.laid.node (hstep.laid.dofLabel (p := A1.DOF1[q]) (List.getElem_mem q.isLt))
        rw [← hl]
        exact (hG s hs).2 n hn' _
    · intro i hi
      rw [hPl] at hi
      have h5 := hget ⟨i, by omega⟩
      have h6 := r8 ⟨i, by omega⟩
      rw [← component_eq hPd', ← h5] at h6
      exact h6
    · intro n hn' e
      by_cases hfr : FreeAt u n.label e
      · obtain ⟨b, hb, e1, e2⟩ := hstep.laid.freeDof hfr
        obtain ⟨k, hk, rfl⟩ := List.getElem_of_mem hb
        have := r9 (⟨k, hk⟩ : Fin A1.DOF1.length).castSucc
        rw [widths_castSucc, fieldVec_castSucc, fieldVec_castSucc] at this
        simp only [Fin.getElem_fin, e1, e2] at this
        refine this.trans (le_of_eq ?_)
        ring
      · have hns : (supportOf u.bounds n.label)[e.val]? ≠ some 1 := fun hc => hfr ⟨⟨n, hn', rfl⟩, hc⟩
        rw [ht.supports _ hqS n hn' e hns, ht.supports _ hqS' n hn' e hns, sub_zero, abs_zero]
        positivity
    · have := r9 (Fin.last _)
      rw [widths_last, fieldVec_last, fieldVec_last] at this
      refine this.trans (le_of_eq ?_)
      ring
    · revert r10
      refine Fin.lastCases ?_ (fun k => ?_) i0
      · rw [widths_last, fieldVec_last, fieldVec_last]
        intro h1
        left
        rw [mul_assoc]
        exact h1
      · rw [widths_castSucc, fieldVec_castSucc, fieldVec_castSucc]
        intro h1
        right
        obtain ⟨n, hn', hl⟩ := hstep.laid.node (hstep.laid.dofLabel (p := A1.DOF1[k]) (List.getElem_mem k.isLt))
        refine ⟨n, hn', comp A1.DOF1[k], ?_⟩
        rw [hl, mul_assoc]
        exact h1
  · rcases o3 with o3 | ⟨r, v, q, o4, o5, o6, o7⟩
    · exact Or.inl o3
    · right
      have o5 : some xl = some q := o5
      cases o5
      exact ⟨r, v, o4, o6, o7⟩

end TrussPy
