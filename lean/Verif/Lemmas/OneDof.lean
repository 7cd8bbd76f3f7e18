import Verif.Spec.Drive
import Verif.Lemmas.StagesRun
import Verif.Props.Yield
/-!
# One free direction, driven by its displacement
-/

set_option linter.unusedSectionVars false

namespace TrussPy

/-! ## The Newton loop -/

/-- One pass of the Newton loop at a regular matrix. -/
theorem newtonLoop_pass {S : Type} {n : Nat} {I : S → Prop} {f : S → List ℝ → Py (S × List ℝ)}
    {df : S → List ℝ → Py (S × List (List ℝ))} {sp : List (List ℝ) → List ℝ → Py (List ℝ)}
    {φ : (Fin n → ℝ) → Fin n → ℝ} {J : (Fin n → ℝ) → Matrix (Fin n) (Fin n) ℝ} (hC : Computes n I f df φ J)
    (hsp : SolvesRegular sp n) {ftol xtol : ℝ} (k : Nat) (m : Int) {s : S} {x : Fin n → ℝ} (hI : I s) (hJ : IsUnit (J x).det) :
    ∃ s' d, I s' ∧ (J x).mulVec d = -φ x ∧ newtonLoop f df sp ftol xtol (k + 1) m s (List.ofFn x) =
        if (Flt.lt (Flt.vnorm (List.ofFn (φ (x + d)))) ftol && Flt.lt (Flt.vnorm (List.ofFn d)) xtol) = true then
          .ok (s', ⟨List.ofFn (x + d), true, m + 1, Flt.vnorm (List.ofFn (φ (x + d))), Flt.vnorm (List.ofFn d)⟩)
        else if k = 0 then
          .ok (s', ⟨List.ofFn (x + d), false, m + 1, Flt.vnorm (List.ofFn (φ (x + d))), Flt.vnorm (List.ofFn d)⟩)
        else newtonLoop f df sp ftol xtol k (m + 1) s' (List.ofFn (x + d)) := by
  obtain ⟨s1, K, e1, i1, l1, l2, l3⟩ := hC.matrix s x hI
  obtain ⟨s2, e2, i2⟩ := hC.value s1 x i1
  obtain ⟨dx, e3, l4, e4⟩ := hsp K ((List.ofFn (φ x)).map fun v => -v) l1 l2 (by rw [l3]; exact hJ) (by simp)
  obtain ⟨d, rfl⟩ := exists_ofFn l4
  rw [matVec_ofFn l1 l2, l3, List.map_ofFn] at e4
  have hdx : (J x).mulVec d = -φ x := List.ofFn_injective e4
  obtain ⟨s3, e5, i3⟩ := hC.value s2 (x + d) i2
  refine ⟨s3, d, i3, hdx, ?_⟩
  rw [newtonLoop]
  simp only [e1, py_bind_ok, e2, e3, List.length_ofFn, ne_eq, not_true_eq_false, if_false, vadd_ofFn, e5]
  split
  · rfl
  · cases k <;> rfl

/-- One unknown `x 0` and its load factor `x 1`; the last equation prescribes `x 0 = V`. -/
structure Prescribed (φ : (Fin 2 → ℝ) → Fin 2 → ℝ) (J : (Fin 2 → ℝ) → Matrix (Fin 2) (Fin 2) ℝ) (f V : ℝ) : Prop where
  load : f ≠ 0
  force : ∃ g : ℝ → ℝ, ∀ x, φ x 0 = g (x 0) - f * x 1
  control : ∀ x, φ x 1 = x 0 - V
  stiff : ∃ κ : (Fin 2 → ℝ) → ℝ, ∀ x d, (J x).mulVec d 0 = κ x * d 0 - f * d 1
  last : ∀ x d, (J x).mulVec d 1 = d 0

theorem Prescribed.regular {φ : (Fin 2 → ℝ) → Fin 2 → ℝ} {J : (Fin 2 → ℝ) → Matrix (Fin 2) (Fin 2) ℝ} {f V : ℝ}
    (h : Prescribed φ J f V) (x : Fin 2 → ℝ) : IsUnit (J x).det := by
  rw [isUnit_iff_ne_zero]
  intro h0
  obtain ⟨v, hv, hv0⟩ := Matrix.exists_mulVec_eq_zero_iff.2 h0
  obtain ⟨κ, hκ⟩ := h.stiff
  have e1 := h.last x v
  have e0 := hκ x v
  rw [hv0] at e0 e1
  have z0 : v 0 = 0 := e1.symm
  rw [z0] at e0
  have e0 : (0 : ℝ) = κ x * 0 - f * v 1 := e0
  have z1 : v 1 = 0 := by
    rcases mul_eq_zero.1 (show f * v 1 = 0 by linarith) with h1 | h1
    · exact absurd h1 h.load
    · exact h1
  apply hv
  funext i
  fin_cases i
  · exact z0
  · exact z1

/-- Three iterations are enough, whatever the width of the step: the first one gets the unknown right, the second one the
load factor, the third one notices. -/
theorem newton_prescribed {S : Type} {I : S → Prop} {f : S → List ℝ → Py (S × List ℝ)}
    {df : S → List ℝ → Py (S × List (List ℝ))} {sp : List (List ℝ) → List ℝ → Py (List ℝ)}
    {φ : (Fin 2 → ℝ) → Fin 2 → ℝ} {J : (Fin 2 → ℝ) → Matrix (Fin 2) (Fin 2) ℝ} (hC : Computes 2 I f df φ J)
    (hsp : SolvesRegular sp 2) {q V : ℝ} (hp : Prescribed φ J q V) {ftol xtol : ℝ} (hft : 0 < ftol) (hxt : 0 < xtol) {nfev : Int}
    (hN : 3 ≤ nfev) {s : S} {x : Fin 2 → ℝ} (hI : I s) :
      ∃ s' o y, newton f df sp s (List.ofFn x) nfev ftol xtol = .ok (s', o) ∧ I s' ∧ o.success = true ∧
        o.x = List.ofFn y ∧ y 0 = V ∧ Flt.vnorm (List.ofFn (φ y)) < ftol := by
  obtain ⟨g, hg⟩ := hp.force
  obtain ⟨κ, hκ⟩ := hp.stiff
  -- what a pass does
  have hd : ∀ x d : Fin 2 → ℝ, (J x).mulVec d = -φ x → (x + d) 0 = V ∧ (x 0 = V → d 0 = 0 ∧ φ (x + d) = 0) ∧
      (x 0 = V → φ x = 0 → d = 0) := by
    intro x d h
    have e1 := congrFun h 1
    have e0 := congrFun h 0
    rw [hp.last, Pi.neg_apply, hp.control] at e1
    rw [hκ, Pi.neg_apply, hg] at e0
    have hV : (x + d) 0 = V := by rw [Pi.add_apply, e1]; ring
    have hz : x 0 = V → d 0 = 0 := fun hx => by rw [e1, hx]; ring
    refine ⟨hV, fun hx => ⟨hz hx, ?_⟩, fun hx hφ => ?_⟩
    · funext i
      fin_cases i
      · show φ (x + d) 0 = 0
        rw [hg, hV, Pi.add_apply]
        rw [hz hx, hx] at e0
        linarith
      · show φ (x + d) 1 = 0
        rw [hp.control, hV, sub_self]
    · have h2 := congrFun hφ 0
      rw [hg] at h2
      have h2 : g (x 0) - q * x 1 = 0 := h2
      rw [h2, hz hx] at e0
      funext i
      fin_cases i
      · exact hz hx
      · show d 1 = 0
        rcases mul_eq_zero.1 (show q * d 1 = 0 by linarith) with h1 | h1
        · exact absurd h1 hp.load
        · exact h1
  have hv0 : Flt.vnorm (List.ofFn (0 : Fin 2 → ℝ)) = 0 := by
    refine le_antisymm ?_ (Real.sqrt_nonneg _)
    have := vnorm_ofFn_le (0 : Fin 2 → ℝ)
    rwa [norm_zero, mul_zero] at this
  have exit : ∀ {x d : Fin 2 → ℝ}, (Flt.lt (Flt.vnorm (List.ofFn (φ (x + d)))) ftol && Flt.lt (Flt.vnorm (List.ofFn d)) xtol) = true →
      Flt.vnorm (List.ofFn (φ (x + d))) < ftol := fun h => of_decide_eq_true (Bool.and_eq_true _ _ ▸ h).1
  -- third pass
  have p3 : ∀ (k : Nat) (m : Int) (s : S) (x : Fin 2 → ℝ), I s → x 0 = V → φ x = 0 →
      ∃ s' o y, newtonLoop f df sp ftol xtol (k + 1) m s (List.ofFn x) = .ok (s', o) ∧ I s' ∧ o.success = true ∧
        o.x = List.ofFn y ∧ y 0 = V ∧ Flt.vnorm (List.ofFn (φ y)) < ftol := by
    intro k m s x hI hx hφ
    obtain ⟨s', d, i1, h1, h2⟩ := newtonLoop_pass hC hsp (ftol := ftol) (xtol := xtol) k m hI (hp.regular x)
    obtain ⟨g1, -, g3⟩ := hd x d h1
    have hd0 := g3 hx hφ
    subst hd0
    rw [add_zero] at h2 g1
    have hc : (Flt.lt (Flt.vnorm (List.ofFn (φ x))) ftol && Flt.lt (Flt.vnorm (List.ofFn (0 : Fin 2 → ℝ))) xtol) = true := by
      rw [hφ, hv0, Bool.and_eq_true]
      exact ⟨decide_eq_true hft, decide_eq_true hxt⟩
    rw [if_pos hc] at h2
    exact ⟨s', _, x, h2, i1, rfl, rfl, hx, by rw [hφ, hv0]; exact hft⟩
  have p2 : ∀ (k : Nat) (m : Int) (s : S) (x : Fin 2 → ℝ), I s → x 0 = V →
      ∃ s' o y, newtonLoop f df sp ftol xtol (k + 2) m s (List.ofFn x) = .ok (s', o) ∧ I s' ∧ o.success = true ∧
        o.x = List.ofFn y ∧ y 0 = V ∧ Flt.vnorm (List.ofFn (φ y)) < ftol := by
    intro k m s x hI hx
    obtain ⟨s', d, i1, h1, h2⟩ := newtonLoop_pass hC hsp (ftol := ftol) (xtol := xtol) (k + 1) m hI (hp.regular x)
    obtain ⟨g1, g2, -⟩ := hd x d h1
    rw [h2]
    split
    · next hc => exact ⟨s', _, x + d, rfl, i1, rfl, rfl, g1, exit hc⟩
    · rw [if_neg (Nat.succ_ne_zero k)]
      exact p3 k (m + 1) s' (x + d) i1 g1 (g2 hx).2
  obtain ⟨k, hk⟩ : ∃ k : Nat, nfev.toNat = k + 3 := ⟨nfev.toNat - 3, by omega⟩
  unfold newton
  rw [hk]
  obtain ⟨s', d, i1, h1, h2⟩ := newtonLoop_pass hC hsp (ftol := ftol) (xtol := xtol) (k + 2) 0 hI (hp.regular x)
  obtain ⟨g1, -, -⟩ := hd x d h1
  rw [h2]
  split
  · next hc => exact ⟨s', _, x + d, rfl, i1, rfl, rfl, g1, exit hc⟩
  · rw [if_neg (Nat.succ_ne_zero (k + 1))]
    exact p2 k (0 + 1) s' (x + d) i1 g1

/-! ## The system of a truss with one free direction -/

section
variable {c : Ctx ℝ} {bars : List (Bar ℝ)} {a b : Analysis ℝ} {ef : StepForces ℝ}

theorem ofFn_one (x : Fin 2 → ℝ) : (List.ofFn fun i : Fin 1 => x i.castSucc) = [x 0] := by simp

theorem model_prescribed (he : Evaluable c bars b ef) (hl : b.lpf.isSome = true)
    (hf0 : b.f0red = b.DOF1.map fun p => ef.forces.getD p 0) (hn : c.ndof1 = 1) {V0 : List ℝ} (hV0 : V0.length = 2)
    {j : Int} (hj : j.natAbs = 1) {q : Nat} (hq : b.DOF1 = [q]) (hload : ef.forces.getD q 0 ≠ 0) (V : ℝ) :
    Prescribed (sysRes c b 1 V0 j V) (sysMat c b 1 j) (ef.forces.getD q 0) V where
  load := hload
  force := by
    have hsc : ∀ s : ℝ, ∃ W, scatter b.U b.DOF1 [s] = .ok W := fun s => scatter_ok (by rw [hq]; rfl)
    choose W hW using hsc
    refine ⟨fun s => forceFn c b.statev bars (W s) (q / 3) (comp q) - ef.forcesConst.getD q 0, fun x => ?_⟩
    rw [sysRes_closed he hn hV0 (k := 0) (by simpa using hj) V x (U := W (x 0)) (by rw [ofFn_one]; exact hW _)]
    have := Fin.snoc_castSucc (α := fun _ => ℝ) (x 0 - V) (fun m : Fin 1 => forceFn c b.statev bars (W (x 0)) (b.DOF1.getD m 0 / 3) (comp (b.DOF1.getD m 0)) -
      (ef.forcesConst.getD (b.DOF1.getD m 0) 0 + x (Fin.last 1) * ef.forces.getD (b.DOF1.getD m 0) 0)) 0
    refine this.trans ?_
    rw [hq]
    show forceFn c b.statev bars (W (x 0)) (q / 3) (comp q) - (ef.forcesConst.getD q 0 + x 1 * ef.forces.getD q 0) = _
    ring
  control x := sysRes_last he hn hV0 (k := 0) (by simpa using hj) V x
  stiff := by
    refine ⟨fun x => sysMat c b 1 j x 0 0, fun x d => ?_⟩
    obtain ⟨a1, K0, K, h1, -, h2, h3, h4, h5, -⟩ := extDf_model he hl hf0 hn (k := 0) (by simpa using hj) x
    have hf : b.f0red = [ef.forces.getD q 0] := by rw [hf0, hq]; rfl
    have e1 : sysMat c b 1 j x 0 1 = -ef.forces.getD q 0 := by
      unfold sysMat
      simp only [h1]
      rw [hf] at h5
      cases K0 with
      | nil => rw [h5] at h2; simp at h2
      | cons r K0 =>
        rw [List.zipWith_cons_cons] at h5
        have hr := h3 (r ++ [-ef.forces.getD q 0]) (by rw [h5]; simp)
        rw [List.length_append] at hr
        have hr1 : r.length = 1 := by simpa using hr
        obtain ⟨v, rfl⟩ := List.length_eq_one_iff.1 hr1
        rw [h5]
        rfl
    show ∑ i : Fin 2, sysMat c b 1 j x 0 i * d i = _
    rw [Fin.sum_univ_two, e1]
    ring
  last x d := (sysMat_rows he hl hf0 hn (k := 0) (k' := 0) (by simpa using hj) (by simpa using hj) x).2 d

/-! ## Bars along a strain history -/

/-- Stress of a bar after the strains `ε 1`, …, `ε t`. -/
noncomputable def barStress (bar : Bar ℝ) (ε : Nat → ℝ) (t : Nat) : ℝ :=
  bar.mat.headD 0 * (ε t - if bar.law = .elplast then
    (hardened ⟨bar.mat.headD 0, bar.mat.getD 1 0, bar.mat.getD 2 0⟩ ε t).2 else 0)

/-- The state variables of the plastic bars are those of the strain histories `ε` after `t` strains. -/
def Histories (c : Ctx ℝ) (bars : List (Bar ℝ)) (ε : Bar ℝ → Nat → ℝ) (t : Nat) (sv : Option (List (List ℝ))) : Prop :=
  ∀ (k : Nat) (bar : Bar ℝ), bars[k]? = some bar → bar.law = .elplast →
    ∃ (m : Spec.Plastic) (rest : List ℝ) (y : ℝ) (more : List ℝ), m.Valid ∧ bar.mat = m.E :: m.K :: m.Sy :: rest ∧
      stateRow c sv k = some (y :: (hardened m (ε bar) t).2 :: more) ∧
      (if y = 0 then m.Sy else y) = (hardened m (ε bar) t).1

theorem hardened_ge {m : Spec.Plastic} (hm : m.Valid) (ε : Nat → ℝ) : ∀ t, m.Sy ≤ (hardened m ε t).1
  | 0 => le_rfl
  | t + 1 => (hardened_ge hm ε t).trans (newY_ge hm _ _ _)

theorem Histories.stress {ε : Bar ℝ → Nat → ℝ} {t : Nat} {sv : Option (List (List ℝ))} (h : Histories c bars ε t sv) {k : Nat}
    {bar : Bar ℝ} (hk : bars[k]? = some bar) :
    bar.stressAt (stateRow c sv k) (ε bar (t + 1)) = barStress bar (ε bar) (t + 1) := by
  unfold Bar.stressAt TrussPy.stressAt barStress
  cases hl : bar.law with
  | el =>
    cases bar.mat with
    | nil => simp [Umat.call, umatEl]; rfl
    | cons E rest => simp [Umat.call, umatEl]; rfl
  | elplast =>
    obtain ⟨m, rest, y, more, hm, hv, hrow, hy⟩ := h k bar hk hl
    have h1 := umat_real hm rest (ε bar (t + 1)) 0 y (hardened m (ε bar) t).2 hy.symm (hm.Sy.le.trans (hardened_ge hm _ _)) more
    rw [hrow, hv]
    simp only [Umat.call, h1]
    rfl

theorem Histories.force {ε : Bar ℝ → Nat → ℝ} {t : Nat} {sv : Option (List (List ℝ))} (h : Histories c bars ε t sv) {W : List ℝ}
    (hW : ∀ bar ∈ bars, bar.stretch W - 1 = ε bar (t + 1)) (i : Nat) (d : Fin 3) :
    forceFn c sv bars W i d = (bars.map fun bar => bar.sgn i * (barStress bar (ε bar) (t + 1) * bar.geo.getD 0 0 * bar.dir W d)).sum := by
  unfold forceFn
  congr 1
  conv_rhs => rw [← List.zipIdx_map_fst 0 bars, List.map_map]
  refine List.map_congr_left fun p hp => ?_
  obtain ⟨bar, q⟩ := p
  have hb := List.mem_zipIdx_iff_getElem?.1 hp
  simp only [Function.comp]
  rw [hW bar (List.mem_of_getElem? hb), h.stress hb]

/-! ## One increment -/

/-- The analysis object `b` has the loads, supports and sizes of `a`, and the state variables of the histories `ε` after `t` strains. -/
structure Driven (c : Ctx ℝ) (bars : List (Bar ℝ)) (ef : StepForces ℝ) (a : Analysis ℝ) (ε : Bar ℝ → Nat → ℝ) (t : Nat)
    (b : Analysis ℝ) : Prop where
  eval : Evaluable c bars b ef
  ready : b.Ready c
  f0red : b.f0red = a.f0red
  dof1 : b.DOF1 = a.DOF1
  U : ∀ i, i ∉ a.DOF1 → b.U[i]? = a.U[i]?
  Ulen : b.U.length = a.U.length
  rows : Histories c bars ε t b.statev

theorem Driven.scatter {ε : Bar ℝ → Nat → ℝ} {t : Nat} (h : Driven c bars ef a ε t b) (v : List ℝ) :
    scatter b.U b.DOF1 v = scatter a.U a.DOF1 v := by
  rw [h.dof1]
  exact scatter_congr h.Ulen h.U

theorem Driven.next {ε : Bar ℝ → Nat → ℝ} {t : Nat} (h : Driven c bars ef a ε t b) {n : Nat} (hn : c.ndof1 = n) {env : Env ℝ} {cfg : PFCfg ℝ} {dxmax0 : List ℝ}
    {s s' : PState ℝ} (hi : IsInc env (modelProblem c) cfg dxmax0 s s' .accepted) (hsa : s.a = b) (hx : s.x.length = n + 1)
    {y : Fin (n + 1) → ℝ} (hy : s'.x = List.ofFn y)
    (hε : ∀ W, TrussPy.scatter a.U a.DOF1 (List.ofFn fun i : Fin n => y i.castSucc) = .ok W →
      ∀ bar ∈ bars, bar.stretch W - 1 = ε bar (t + 1)) : Driven c bars ef a ε (t + 1) s'.a := by
  subst hn hsa
  have hx' : s'.x.length = c.ndof1 + 1 := by rw [hy, List.length_ofFn]
  obtain ⟨h1, -⟩ | ⟨-, ⟨b1, b', g, dV, lpf, t1, hev, -, hA⟩⟩ := hi.model
  · cases h1
  have hR := modelProblem_runs h.eval.tables h.eval.complete
  have hb1 : b1.Ready c := by
    refine ⟨⟨t1.fits h.ready.base.fits, by rw [t1.statev]; exact h.ready.base.statev, by rw [t1.dof1]; exact h.ready.base.dofs,
      by rw [t1.lpf]; exact h.ready.base.lpf, by rw [t1.Ured]; exact h.ready.base.Ured⟩, by rw [t1.ext]; exact h.ready.ext, by rw [t1.f0red]; exact h.ready.f0⟩
  have hb' : b'.Ready c := by
    obtain ⟨a', g', e1, e2, -⟩ := hR.g b1 s'.x s.x true hb1 hx' hx
    have e1 : TrussPy.equilibrium c b1 s'.x s.x .G true = .ok (a', g') := e1
    have hev : TrussPy.equilibrium c b1 s'.x s.x .G true = .ok (b', g) := hev
    rw [hev] at e1
    cases e1
    exact e2
  have hf := (equilibrium_frame hev).1
  have hsave : s'.a.Ready c := by
    rw [hA]
    exact hR.save { b' with dVmax := dV } s'.x s'.x.dropLast lpf (hR.book b' b'.j b'.Kmod dV hb') (by simp [hx'])
  have e1 : s'.a.DOF1 = s.a.DOF1 := by rw [hA]; exact hf.dof1.trans t1.dof1
  have e2 : s'.a.f0red = s.a.f0red := by rw [hA]; exact hf.f0red.trans t1.f0red
  have e3 : s'.a.extForces = s.a.extForces := by rw [hA]; exact hf.ext.trans t1.ext
  refine ⟨⟨h.eval.tables, hsave.base.fits, h.eval.complete, hsave.base.statev, by rw [e3]; exact h.eval.ext, h.eval.forces,
    h.eval.forcesConst, hsave.base.dofs⟩, hsave, e2.trans h.f0red, e1.trans h.dof1, ?_, ?_, ?_⟩
  · intro i hi
    rw [hA]
    have hi1 : i ∉ s.a.DOF1 := by rw [h.dof1]; exact hi
    have hi2 : i ∉ b1.DOF1 := by rw [t1.dof1]; exact hi1
    exact (hf.Uout i hi2).trans ((t1.Uout i hi1).trans (h.U i hi))
  · rw [hA]
    exact hf.Ulen.trans (t1.Ulen.trans h.Ulen)
  · intro q bar hbar hp
    obtain ⟨m, rest, z, more, hm, hv, hrow0, hz⟩ := h.rows q bar hbar hp
    obtain ⟨lpf', u, u0, U, U0, outs, ef', gg, p1, p2, p3, p4, p5, p6, p7, p8⟩ :=
      equilibrium_G h.eval.tables (t1.fits h.eval.fits) hev
    have hn : 0 < c.nstatev := by
      have := ((h.eval.complete bar (List.mem_of_getElem? hbar)).plastic hp).2
      omega
    have hne : bars.isEmpty = false := by
      cases hbars : bars with
      | nil => rw [hbars] at hbar; cases hbar
      | cons => rfl
    have hU : b'.U = U ∧ b'.U0 = U0 ∧ b'.statev = some (outs.map fun o => o.statev.getD []) := by
      rw [p8]; unfold afterG
      simp [hn, hne]
    obtain ⟨o, ho1, ho2⟩ := evalAll_get p4 hbar
    rw [Nat.zero_add, t1.statev, hrow0] at ho2
    obtain ⟨new, hnew, out, hup1, hup2⟩ := eval_update ho2
    have hrow : stateRow c s'.a.statev q = some new := by
      unfold stateRow
      rw [if_pos hn, hA]
      show b'.statev.bind (·[q]?) = some new
      rw [hU.2.2]
      show (outs.map fun o => o.statev.getD [])[q]? = some new
      rw [List.getElem?_map, ho1, Option.map_some, hnew]
      rfl
    have hu : u = List.ofFn fun i : Fin c.ndof1 => y i.castSucc := by
      have := (splitV_ext (by rw [hy, List.length_ofFn]) hx p1).2.1
      rw [this, hy, ofFn_split, List.dropLast_concat]
    have hsc : TrussPy.scatter s.a.U s.a.DOF1 u = .ok U := by
      rw [← p2, t1.dof1]
      exact (scatter_congr t1.Ulen fun i hi => t1.Uout i hi).symm
    rw [h.scatter, hu] at hsc
    have hstrain := hε U hsc bar (List.mem_of_getElem? hbar)
    rw [hp, hv, Bar.strainAt, stretchAt_real, hstrain] at hup1
    have h2 := umat_real hm rest (ε bar (t + 1)) (bar.stretch U - bar.stretchAt U0) z (hardened m (ε bar) t).2 hz.symm
      (hm.Sy.le.trans (hardened_ge hm _ _)) more
    simp only [Umat.call, h2] at hup1
    have hout := Except.ok.inj hup1
    rw [← hout] at hup2
    have hnew' := Option.some.inj hup2
    refine ⟨m, rest, (hardened m (ε bar) (t + 1)).1, more, hm, hv, by rw [hrow, ← hnew']; rfl, ?_⟩
    rw [if_neg (lt_of_lt_of_le hm.Sy (hardened_ge hm (ε bar) (t + 1))).ne']

theorem drive_increment (hf0 : a.f0red = a.DOF1.map fun p => ef.forces.getD p 0) (hn : c.ndof1 = 1) {q : Nat} (hq : a.DOF1 = [q])
    (hload : ef.forces.getD q 0 ≠ 0) {j : Int} (hj : j.natAbs = 1) {env : Env ℝ} (hsp : SolvesRegular env.spsolve 2)
    (hA : ArgMax env) {cfg : PFCfg ℝ} (hjf : cfg.jFixed = true) (hsc : cfg.stepcontrol = false) (hdx : 1 ≤ cfg.dxtol)
    (hft : 0 < cfg.ftol) (hxt : 0 < cfg.xtol) (hN : 3 ≤ cfg.nfev) {d : Fin 2 → ℝ} {h : ℝ} (hd : d 0 = h) (hh : 0 < h)
    {ε : Bar ℝ → Nat → ℝ} {t : Nat} (hb : Driven c bars ef a ε t b) {x : Fin 2 → ℝ}
    {W : List ℝ} (hW : scatter a.U a.DOF1 [x 0 + h * (j.sign : ℝ)] = .ok W)
    (hε : ∀ bar ∈ bars, bar.stretch W - 1 = ε bar (t + 1))
    {dxmax0 : List ℝ} (hdx0 : dxmax0 ≠ []) {fuel : Nat} (hfuel : 1 ≤ fuel) (jPre i : Int) :
    ∃ s', increment env (modelProblem c) cfg dxmax0 fuel ⟨List.ofFn x, List.ofFn d, j, jPre, i, b⟩ = .ok (s', .accepted) ∧
      s'.dxmax = List.ofFn d ∧ s'.j = j ∧ Driven c bars ef a ε (t + 1) s'.a ∧
      ∃ y : Fin 2 → ℝ, s'.x = List.ofFn y ∧ y 0 = x 0 + h * (j.sign : ℝ) ∧
        |(bars.map fun bar => bar.sgn (q / 3) * (barStress bar (ε bar) (t + 1) * bar.geo.getD 0 0 * bar.dir W (comp q))).sum -
          (ef.forcesConst.getD q 0 + y 1 * ef.forces.getD q 0)| < cfg.ftol := by
  have hxl : (List.ofFn x).length = 2 := by simp
  have hjk : j.natAbs = ((0 : Fin 2) : Nat) + 1 := by simpa using hj
  have hblpf : b.lpf.isSome = true := hb.ready.base.lpf
  have hbf0 : b.f0red = b.DOF1.map fun p => ef.forces.getD p 0 := by rw [hb.f0red, hb.dof1]; exact hf0
  have hbq : b.DOF1 = [q] := hb.dof1.trans hq
  set σ : ℝ := (j.sign : ℝ) with hσ
  have hσ1 : |σ| = 1 := by
    rw [hσ, ← Int.cast_abs, Int.abs_sign_of_ne_zero (by omega)]
    simp
  set Vmax := x 0 + d 0 * Flt.ofInt j.sign with hVmax
  have hV : Vmax = x 0 + h * σ := by rw [hVmax, hd]; rfl
  obtain ⟨a3, o, y, g1, g2, g3, g4, g5, g6⟩ := newton_prescribed (model_computes hb.eval hblpf hbf0 hn hxl hjk Vmax) hsp
    (model_prescribed hb.eval hblpf hbf0 hn hxl hj hbq hload Vmax) hft hxt (nfev := cfg.nfev - 0) (x := x) (by omega) (Trial.refl b)
  have hpre : predictor env (modelProblem c) cfg ⟨List.ofFn x, List.ofFn d, j, jPre, i, b⟩ =
      .ok ⟨false, 0, j, jPre, [], 0, b⟩ := by
    unfold predictor
    rw [if_neg (by rw [hjf]; simp)]
    rfl
  have hst : (if (0 : Int) = 0 ∧ jPre ≠ 0 ∧ cfg.jFixed = false then
      vadd (List.ofFn x) (([] : List ℝ).map fun u => u / Flt.abs (0 : ℝ)) else List.ofFn x) = List.ofFn x := by
    rw [if_neg (by rw [hjf]; simp)]
  obtain ⟨st', hat, hy⟩ := attempt_accepts hb.eval hn le_rfl hA (cfg := cfg)
    (rc := ⟨List.ofFn x, dxmax0, jPre, [], 0⟩) (st := ⟨List.ofFn x, 0, 0, List.ofFn d, j, i, b⟩)
    (x := x) (y := y) (d := d) (k := 0) rfl rfl hdx0 hjk hst g1 g2 g3 g4
    (Or.inl ⟨hjf, by
      rw [Pi.sub_apply, g5, hVmax, add_sub_cancel_left, hd, mul_div_right_comm, div_self hh.ne', one_mul]
      show |σ| ≤ _
      rw [hσ1]
      exact hdx⟩)
  obtain ⟨s', hs1, hs2⟩ := increment_accepts hpre rfl hat hy hfuel
  have hinc := increment_ok hs1
  have hy0 : (List.ofFn fun i : Fin 1 => y i.castSucc) = [x 0 + h * σ] := by rw [ofFn_one, g5, hV]
  refine ⟨s', hs1, hinc.dxmax_fixed hsc, hinc.j_fixed hjf, hb.next hn hinc rfl (by simp) hs2 ?_, y, hs2, g5.trans hV, ?_⟩
  · intro W' hW'
    rw [hy0, hW] at hW'
    cases hW'
    exact hε
  · have hr := norm_le_vnorm (sysRes c b 1 (List.ofFn x) j Vmax y)
    have hr0 := (norm_le_pi_norm (sysRes c b 1 (List.ofFn x) j Vmax y) 0).trans_lt (hr.trans_lt g6)
    rw [Real.norm_eq_abs, sysRes_closed hb.eval hn hxl hjk Vmax y (U := W) (by rw [hb.scatter, hy0]; exact hW)] at hr0
    have hs := Fin.snoc_castSucc (α := fun _ => ℝ) (y 0 - Vmax) (fun m : Fin 1 => forceFn c b.statev bars W (b.DOF1.getD m 0 / 3) (comp (b.DOF1.getD m 0)) -
      (ef.forcesConst.getD (b.DOF1.getD m 0) 0 + y (Fin.last 1) * ef.forces.getD (b.DOF1.getD m 0) 0)) 0
    have hs : closedRes c bars ef b 0 Vmax W y 0 = _ := hs
    rw [hs, hbq] at hr0
    have hr0 : |forceFn c b.statev bars W (q / 3) (comp q) - (ef.forcesConst.getD q 0 + y 1 * ef.forces.getD q 0)| < cfg.ftol := hr0
    rwa [hb.rows.force hε] at hr0

/-- What is known about the record number `t` of a driven truss: displacement and load factor `y`. -/
structure DrivenRec (c : Ctx ℝ) (bars : List (Bar ℝ)) (ef : StepForces ℝ) (a : Analysis ℝ) (ε : Bar ℝ → Nat → ℝ) (q : Nat)
    (f v : ℝ) (W : Nat → List ℝ) (t : Nat) (r : Rec ℝ) : Prop where
  accepted : r.out = .accepted
  driven : Driven c bars ef a ε t r.a
  balance : ∃ l, r.x = [t * v, l] ∧
    |(bars.map fun bar => bar.sgn (q / 3) * (barStress bar (ε bar) t * bar.geo.getD 0 0 * bar.dir (W t) (comp q))).sum -
          (ef.forcesConst.getD q 0 + l * ef.forces.getD q 0)| < f

theorem drive_loop (hf0 : a.f0red = a.DOF1.map fun p => ef.forces.getD p 0) (hn : c.ndof1 = 1) {q : Nat} (hq : a.DOF1 = [q])
    (hload : ef.forces.getD q 0 ≠ 0) {j : Int} (hj : j.natAbs = 1) {env : Env ℝ} (hsp : SolvesRegular env.spsolve 2)
    (hA : ArgMax env) {cfg : PFCfg ℝ} (hjf : cfg.jFixed = true) (hsc : cfg.stepcontrol = false) (hdx : 1 ≤ cfg.dxtol)
    (hft : 0 < cfg.ftol) (hxt : 0 < cfg.xtol) (hN : 3 ≤ cfg.nfev) {d : Fin 2 → ℝ} {h : ℝ} (hd : d 0 = h) (hh : 0 < h)
    {ε : Bar ℝ → Nat → ℝ} {W : Nat → List ℝ} (hW : ∀ t : Nat, scatter a.U a.DOF1 [t * (h * (j.sign : ℝ))] = .ok (W t))
    (hε : ∀ t, ∀ bar ∈ bars, bar.stretch (W (t + 1)) - 1 = ε bar (t + 1)) {lim : ℝ} (hlim : cfg.xlimit = some (1, lim))
    {dxmax0 : List ℝ} (hdx0 : dxmax0 ≠ []) {fuel : Nat} (hfuel : 1 ≤ fuel) :
    ∀ (n t : Nat) (x : Fin 2 → ℝ) (b : Analysis ℝ) (jPre i : Int), x 0 = t * (h * (j.sign : ℝ)) →
      ((t + n : Nat) : ℝ) * h ≤ lim → Driven c bars ef a ε t b →
      ∃ s' recs, incrLoop env (modelProblem c) cfg dxmax0 fuel n ⟨List.ofFn x, List.ofFn d, j, jPre, i, b⟩ = .ok (s', recs) ∧
        recs.length = n ∧ ∀ (m : Nat) (r : Rec ℝ), recs[m]? = some r →
          DrivenRec c bars ef a ε q cfg.ftol (h * (j.sign : ℝ)) W (t + m + 1) r := by
  intro n
  induction n with
  | zero =>
    intro t x b jPre i _ _ _
    exact ⟨_, [], rfl, rfl, fun m r hm => by simp at hm⟩
  | succ n ih =>
    intro t x b jPre i hx hl hb
    have hxn : x 0 + h * (j.sign : ℝ) = ((t + 1 : Nat) : ℝ) * (h * (j.sign : ℝ)) := by rw [hx]; push_cast; ring
    obtain ⟨s1, e1, e2, e3, e4, y, e5, e6, e7⟩ := drive_increment hf0 hn hq hload hj hsp hA hjf hsc hdx hft hxt hN hd hh hb (x := x)
      (by rw [hxn]; exact hW (t + 1)) (hε t) hdx0 hfuel jPre i
    have hy0 : y 0 = ((t + 1 : Nat) : ℝ) * (h * (j.sign : ℝ)) := e6.trans hxn
    have hσ1 : |(j.sign : ℝ)| = 1 := by
      rw [← Int.cast_abs, Int.abs_sign_of_ne_zero (by omega)]
      simp
    have hy2 : List.ofFn y = [y 0, y 1] := by simp
    have hlm : limitReached s1.x cfg.xlimit = .ok false := by
      rw [e5, hy2, hlim]
      show Except.ok (Flt.lt lim (Flt.abs (y 0))) = .ok false
      congr 1
      refine decide_eq_false (not_lt.2 ?_)
      show |y 0| ≤ lim
      rw [hy0, abs_mul, abs_mul, hσ1, mul_one, abs_of_pos hh, Nat.abs_cast]
      refine le_trans (mul_le_mul_of_nonneg_right ?_ hh.le) hl
      exact_mod_cast (by omega : t + 1 ≤ t + (n + 1))
    have hrec : DrivenRec c bars ef a ε q cfg.ftol (h * (j.sign : ℝ)) W (t + 1) ⟨s1.x, s1.a, .accepted⟩ :=
      ⟨rfl, e4, y 1, by show s1.x = _; rw [e5, hy2, hy0], e7⟩
    obtain ⟨sx, sd, sj, sp, sb, sa⟩ := s1
    simp only at e2 e3 e4 e5 hlm hrec
    subst e2 e3 e5
    obtain ⟨s2, recs, g1, g2, g3⟩ := ih (t + 1) y sa sp sb hy0 (by rw [show t + 1 + n = t + (n + 1) by omega]; exact hl) e4
    refine ⟨s2, ⟨List.ofFn y, sa, .accepted⟩ :: recs, ?_, by simp [g2], ?_⟩
    · rw [incrLoop]
      simp only [e1, py_bind_ok, Outcome.isStop, hlm, g1]
      rfl
    · intro m r hm
      cases m with
      | zero =>
        cases hm
        exact hrec
      | succ m =>
        have := g3 m r (by simpa using hm)
        rwa [show t + 1 + m + 1 = t + (m + 1) + 1 by omega] at this

theorem drive_pathfollow (hf0 : a.f0red = a.DOF1.map fun p => ef.forces.getD p 0) (hn : c.ndof1 = 1) {q : Nat} (hq : a.DOF1 = [q])
    (hload : ef.forces.getD q 0 ≠ 0) {j : Int} (hj : j.natAbs = 1) {env : Env ℝ} (hsp : SolvesRegular env.spsolve 2)
    (hA : ArgMax env) {cfg : PFCfg ℝ} (hjf : cfg.jFixed = true) (hcj : cfg.j = some j) (hsc : cfg.stepcontrol = false)
    (hdx : 1 ≤ cfg.dxtol) (hft : 0 < cfg.ftol) (hxt : 0 < cfg.xtol) (hN : 3 ≤ cfg.nfev) {h : ℝ} (hh : 0 < h)
    {ε : Bar ℝ → Nat → ℝ} {W : Nat → List ℝ} (hW : ∀ t : Nat, scatter a.U a.DOF1 [t * (h * (j.sign : ℝ))] = .ok (W t))
    (hε : ∀ t, ∀ bar ∈ bars, bar.stretch (W (t + 1)) - 1 = ε bar (t + 1)) {lim : ℝ} (hlim : cfg.xlimit = some (1, lim))
    {fuel : Nat} (hfuel : 1 ≤ fuel) {x : List ℝ} {t : Nat} (hx : x = [t * (h * (j.sign : ℝ))])
    (hlen : (initDxmax (x ++ [0]) cfg.dxmax).length = 2)
    (hdk : (initDxmax (x ++ [0]) cfg.dxmax)[0]? = some h) (hl : ((t + cfg.incs : Nat) : ℝ) * h ≤ lim)
    (hb : Driven c bars ef a ε t b) :
    ∃ o, pathfollow env (modelProblem c) cfg fuel x b = .ok o ∧ o.recs.length = cfg.incs ∧
      ∀ (m : Nat) (r : Rec ℝ), o.recs[m]? = some r →
          DrivenRec c bars ef a ε q cfg.ftol (h * (j.sign : ℝ)) W (t + m + 1) r := by
  obtain ⟨d, hd⟩ := exists_ofFn hlen
  have hdk' : d 0 = h := by
    rw [hd, List.getElem?_ofFn, dif_pos (by decide)] at hdk
    exact Option.some.inj hdk
  have hx0 : List.ofFn ![(t : ℝ) * (h * (j.sign : ℝ)), 0] = x ++ [0] := by rw [hx]; simp
  obtain ⟨s', recs, e1, e2, e3⟩ := drive_loop hf0 hn hq hload hj hsp hA hjf hsc hdx hft hxt hN hdk' hh hW hε hlim
    (dxmax0 := List.ofFn d) (by simp [List.ofFn_succ]) hfuel cfg.incs t ![(t : ℝ) * (h * (j.sign : ℝ)), 0] b
    (if cfg.jPre then 1 else 0) 4 rfl hl hb
  refine ⟨⟨x ++ [0], b, recs, s'.a⟩, ?_, e2, e3⟩
  unfold pathfollow
  have hsj : startJ cfg (x ++ [0]) = .ok j := by
    unfold startJ
    rw [if_pos hjf, hcj]
  have hxl : (x ++ [(0 : ℝ)]).length = 2 := by rw [hx]; rfl
  simp only [hsj, py_bind_ok]
  rw [if_neg (by rw [hlen, hxl]; simp), hd, ← hx0, e1]
  rfl

end

end TrussPy
