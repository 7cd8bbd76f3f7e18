import Verif.Lemmas.Smooth
import Verif.Lemmas.Control
import Verif.Lemmas.Total
/-!
# Increments with small step widths
-/

namespace TrussPy

/-- A Newton run with a single iteration. -/
theorem newton_one {S : Type} {n : Nat} {I : S → Prop} {f : S → List ℝ → Py (S × List ℝ)}
    {df : S → List ℝ → Py (S × List (List ℝ))} {sp : List (List ℝ) → List ℝ → Py (List ℝ)}
    {φ : (Fin n → ℝ) → Fin n → ℝ} {J : (Fin n → ℝ) → Matrix (Fin n) (Fin n) ℝ} (hC : Computes n I f df φ J)
    (hsp : SolvesRegular sp n) {s : S} (hI : I s) {x : Fin n → ℝ} (hreg : IsUnit (J x).det) (ftol xtol : ℝ) :
    ∃ s' o d, newton f df sp s (List.ofFn x) 1 ftol xtol = .ok (s', o) ∧ I s' ∧ o.x = List.ofFn (x + d) ∧ o.n = 1 ∧
      (J x).mulVec d = -φ x ∧ (o.success = true → Flt.vnorm (List.ofFn d) < xtol) := by
  obtain ⟨s1, K, e1, i1, l1, l2, l3⟩ := hC.matrix s x hI
  obtain ⟨s2, e2, i2⟩ := hC.value s1 x i1
  obtain ⟨dx, e3, l4, e4⟩ := hsp K ((List.ofFn (φ x)).map fun v => -v) l1 l2 (by rw [l3]; exact hreg) (by simp)
  obtain ⟨d, rfl⟩ := exists_ofFn l4
  rw [matVec_ofFn l1 l2, l3, List.map_ofFn] at e4
  have hdx : (J x).mulVec d = -φ x := List.ofFn_injective e4
  obtain ⟨s3, e5, i3⟩ := hC.value s2 (x + d) i2
  by_cases hc : (Flt.lt (Flt.vnorm (List.ofFn (φ (x + d)))) ftol && Flt.lt (Flt.vnorm (List.ofFn d)) xtol) = true
  · refine ⟨s3, ⟨List.ofFn (x + d), true, 1, Flt.vnorm (List.ofFn (φ (x + d))), Flt.vnorm (List.ofFn d)⟩, d, ?_, i3, rfl, rfl,
      hdx, fun _ => ?_⟩
    · unfold newton
      show newtonLoop f df sp ftol xtol 1 0 s (List.ofFn x) = _
      rw [newtonLoop]
      simp only [e1, py_bind_ok, e2, e3, List.length_ofFn, ne_eq, not_true_eq_false, if_false, vadd_ofFn, e5, hc, if_true]
      rfl
    · rw [Bool.and_eq_true] at hc
      exact of_decide_eq_true hc.2
  · refine ⟨s3, ⟨List.ofFn (x + d), false, 1, Flt.vnorm (List.ofFn (φ (x + d))), Flt.vnorm (List.ofFn d)⟩, d, ?_, i3, rfl, rfl,
      hdx, fun h => by cases h⟩
    unfold newton
    show newtonLoop f df sp ftol xtol 1 0 s (List.ofFn x) = _
    rw [newtonLoop]
    simp only [e1, py_bind_ok, e2, e3, List.length_ofFn, ne_eq, not_true_eq_false, if_false, vadd_ofFn, e5, hc]
    rfl

theorem vsub_ofFn {n : Nat} (x y : Fin n → ℝ) : vsub (List.ofFn x) (List.ofFn y) = List.ofFn (x - y) := by
  apply List.ext_getElem (by simp [vsub])
  intro i h1 h2
  simp [vsub]

theorem vdiv_ofFn {n : Nat} (x y : Fin n → ℝ) : vdiv (List.ofFn x) (List.ofFn y) = List.ofFn fun i => x i / y i := by
  apply List.ext_getElem (by simp [vdiv])
  intro i h1 h2
  simp [vdiv]

theorem abs_npSign (v : ℝ) : |v| * npSign v = v := by
  unfold npSign
  show |v| * (match (some (if v < 0 then (-1 : Int) else if v = 0 then 0 else 1)) with
          | some k => (Flt.ofInt k : ℝ)
          | none => Flt.nan) = v
  rcases lt_trichotomy v 0 with h | h | h
  · rw [if_pos h]
    show |v| * ((-1 : Int) : ℝ) = v
    rw [abs_of_neg h]; push_cast; ring
  · subst h; simp
  · rw [if_neg (not_lt.2 h.le), if_neg h.ne']
    show |v| * ((1 : Int) : ℝ) = v
    rw [abs_of_pos h]; push_cast; ring

/-- The biggest component of a vector. -/
theorem maxComp_ofFn {env : Env ℝ} (hA : ArgMax env) {n : Nat} (r : Fin (n + 1) → ℝ) :
    ∃ i : Fin (n + 1), maxComp env (List.ofFn r) = .ok (((i : Nat) : Int) + 1, r i) ∧ ∀ m, |r m| ≤ |r i| := by
  obtain ⟨i, v, h1, h2, h3⟩ := hA ((List.ofFn r).map Flt.abs) (by simp [List.ofFn_succ])
  rw [List.getElem?_map] at h2
  have hi : i < n + 1 := by
    by_contra hne
    rw [List.getElem?_eq_none_iff.2 (by simp; omega)] at h2
    cases h2
  have hget : (List.ofFn r)[i]? = some (r ⟨i, hi⟩) := by rw [List.getElem?_ofFn, dif_pos hi]
  rw [hget] at h2
  have hv : |r ⟨i, hi⟩| = v := Option.some.inj h2
  refine ⟨⟨i, hi⟩, ?_, fun m => ?_⟩
  · unfold maxComp
    rw [h1]
    simp only [hget]
    rw [show (Flt.abs (r ⟨i, hi⟩) : ℝ) = |r ⟨i, hi⟩| from rfl, abs_npSign]
  · rw [hv]
    refine h3 _ ?_
    exact List.mem_map_of_mem (f := Flt.abs) ((List.mem_ofFn' _ _).2 ⟨m, rfl⟩)

theorem signedIdx_pos {i : Int} {v : ℝ} (h : v ≠ 0) (hi : 0 < i) : ∃ j : Int, signedIdx i v = .ok j ∧ j.natAbs = i.natAbs ∧
    (Flt.ofInt j.sign : ℝ) * |v| = v := by
  unfold signedIdx
  rcases lt_or_gt_of_ne h with h | h
  · have : (Flt.sgn v : Option Int) = some (-1) := congrArg some (if_pos h)
    rw [this]
    refine ⟨_, rfl, by simp, ?_⟩
    have : (i * -1).sign = -1 := Int.sign_eq_neg_one_of_neg (by omega)
    rw [this]
    show ((-1 : Int) : ℝ) * |v| = v
    rw [abs_of_neg h]; push_cast; ring
  · have : (Flt.sgn v : Option Int) = some 1 := by
      show some _ = some _
      rw [if_neg (not_lt.2 h.le), if_neg h.ne']
    rw [this]
    refine ⟨_, rfl, by simp, ?_⟩
    have : (i * 1).sign = 1 := Int.sign_eq_one_of_pos (by omega)
    rw [this]
    show ((1 : Int) : ℝ) * |v| = v
    rw [abs_of_pos h]; push_cast; ring

theorem signedIdx_any (i : Int) (v : ℝ) : ∃ j, signedIdx i v = .ok j := ⟨_, rfl⟩

theorem target_ofFn {n : Nat} (x d : Fin (n + 1) → ℝ) {j : Int} {k : Fin (n + 1)} (hj : j.natAbs = k + 1) :
    target (List.ofFn x) (List.ofFn d) j = .ok (x k + d k * Flt.ofInt j.sign) := by
  have hg : ∀ f : Fin (n + 1) → ℝ, pyGet (List.ofFn f) ((j.natAbs : Int) - 1) = .ok (f k) := by
    intro f
    have : ((j.natAbs : Int) - 1) = ((k : Nat) : Int) := by omega
    rw [this]
    exact pyGet_ok_nat.2 (by rw [List.getElem?_ofFn, dif_pos k.isLt])
  unfold target
  simp only [hg, py_bind_ok]
  rfl

section
variable {c : Ctx ℝ} {bars : List (Bar ℝ)} {a : Analysis ℝ} {ef : StepForces ℝ}

/-- Only the last row of the extended matrix depends on the control component. -/
theorem sysMat_rows (he : Evaluable c bars a ef) (hl : a.lpf.isSome = true)
    (hf0 : a.f0red = a.DOF1.map fun p => ef.forces.getD p 0) {n : Nat} (hn : c.ndof1 = n)
    {j j' : Int} {k k' : Fin (n + 1)} (hj : j.natAbs = k + 1) (hj' : j'.natAbs = k' + 1) (x : Fin (n + 1) → ℝ) :
    (∀ m : Fin n, sysMat c a n j x m.castSucc = sysMat c a n j' x m.castSucc) ∧
    ∀ v : Fin (n + 1) → ℝ, (sysMat c a n j x).mulVec v (Fin.last n) = v k := by
  obtain ⟨a1, K0, K, h1, -, h2, -, h4, h5, -⟩ := extDf_model he hl hf0 hn hj x
  obtain ⟨a2, L0, L, g1, -, g2, -, g4, g5, -⟩ := extDf_model he hl hf0 hn hj' x
  rw [h4] at g4
  cases g4
  have hlen : (List.zipWith (fun row f0 => row ++ [-f0]) K0 a.f0red).length = n := by
    rw [h5] at h2
    simpa using h2
  constructor
  · intro m
    funext i
    unfold sysMat
    simp only [h1, g1, matOf, h5, g5, Fin.val_castSucc]
    congr 1
    rw [List.getD_eq_getElem?_getD, List.getD_eq_getElem?_getD, List.getElem?_append_left (by rw [hlen]; exact m.isLt),
      List.getElem?_append_left (by rw [hlen]; exact m.isLt)]
  · intro v
    have hrow : ∀ i : Fin (n + 1), sysMat c a n j x (Fin.last n) i = if i = k then 1 else 0 := by
      intro i
      unfold sysMat
      simp only [h1, matOf, h5, Fin.val_last]
      have e1 : (List.zipWith (fun row f0 => row ++ [-f0]) K0 a.f0red ++ [(List.replicate (n + 1) (0 : ℝ)).set k 1]).getD n [] =
          (List.replicate (n + 1) (0 : ℝ)).set k 1 := by
        rw [List.getD_eq_getElem?_getD, List.getElem?_append_right (by rw [hlen]), hlen]
        simp
      rw [e1, List.getD_eq_getElem?_getD, List.getElem?_set]
      by_cases hik : i = k
      · subst hik
        simp [Nat.lt_succ_iff.1 i.isLt]
      · have : ¬ (k : Nat) = i := fun h => hik (Fin.ext h.symm)
        simp [this, hik, Nat.lt_succ_iff.1 i.isLt]
    unfold Matrix.mulVec dotProduct
    simp only [hrow]
    simp

theorem sysRes_last (he : Evaluable c bars a ef) {n : Nat} (hn : c.ndof1 = n) {V0 : List ℝ} (hV0 : V0.length = n + 1)
    {j : Int} {k : Fin (n + 1)} (hj : j.natAbs = k + 1) (Vmax : ℝ) (y : Fin (n + 1) → ℝ) :
    sysRes c a n V0 j Vmax y (Fin.last n) = y k - Vmax := by
  obtain ⟨U, hU⟩ := exists_disp he hn
  rw [sysRes_closed he hn hV0 hj Vmax y (hU y)]
  simp only [closedRes, Fin.snoc_last]

theorem sysRes_first (he : Evaluable c bars a ef) {n : Nat} (hn : c.ndof1 = n) {V0 V0' : List ℝ} (hV0 : V0.length = n + 1)
    (hV0' : V0'.length = n + 1) {j j' : Int} {k k' : Fin (n + 1)} (hj : j.natAbs = k + 1) (hj' : j'.natAbs = k' + 1)
    (Vmax Vmax' : ℝ) (y : Fin (n + 1) → ℝ) (m : Fin n) :
    sysRes c a n V0 j Vmax y m.castSucc = sysRes c a n V0' j' Vmax' y m.castSucc := by
  obtain ⟨U, hU⟩ := exists_disp he hn
  rw [sysRes_closed he hn hV0 hj Vmax y (hU y), sysRes_closed he hn hV0' hj' Vmax' y (hU y)]
  simp only [closedRes, Fin.snoc_castSucc]

/-- Where the equilibrium equations hold, only the control equation is left. -/
theorem sysRes_zero (he : Evaluable c bars a ef) {n : Nat} (hn : c.ndof1 = n) {x : Fin (n + 1) → ℝ} {j : Int} {k : Fin (n + 1)}
    (hj : j.natAbs = k + 1) (Vmax : ℝ) {a1 : Analysis ℝ}
    (heq : equilibrium c a (List.ofFn x) (List.ofFn x) .G false = .ok (a1, List.replicate n 0)) (m : Fin n) :
    sysRes c a n (List.ofFn x) j Vmax x m.castSucc = 0 := by
  obtain ⟨U, hU⟩ := exists_disp he hn
  rw [sysRes_closed he hn (by simp) hj Vmax x (hU x)]
  subst hn
  obtain ⟨a2, h2, h3⟩ := equilibrium_closed he (u := List.ofFn fun i : Fin c.ndof1 => x i.castSucc) (V0 := List.ofFn x)
    (by simp) (by simp) (x (Fin.last _)) false (hU x)
  rw [← ofFn_split, heq] at h2
  have h4 := congrArg (fun r => r.2[(m : Nat)]?) (Except.ok.inj h2)
  simp only at h4
  rw [List.getElem?_replicate, if_pos m.isLt, List.getElem?_map] at h4
  have hm : (m : Nat) < a.DOF1.length := by rw [he.dofs]; exact m.isLt
  rw [List.getElem?_eq_getElem hm, Option.map_some, Option.some.injEq] at h4
  simp only [closedRes, Fin.snoc_castSucc]
  rw [List.getD_eq_getElem?_getD, List.getElem?_eq_getElem hm, Option.getD_some]
  linarith

/-- The target of the control equation only shifts the system. -/
theorem sysRes_shift (he : Evaluable c bars a ef) {n : Nat} (hn : c.ndof1 = n) {V0 : List ℝ} (hV0 : V0.length = n + 1)
    {j : Int} {k : Fin (n + 1)} (hj : j.natAbs = k + 1) (Vmax Vmax' : ℝ) (x y : Fin (n + 1) → ℝ) :
    sysRes c a n V0 j Vmax x - sysRes c a n V0 j Vmax y = sysRes c a n V0 j Vmax' x - sysRes c a n V0 j Vmax' y := by
  funext m
  refine Fin.lastCases ?_ (fun m => ?_) m
  · simp only [Pi.sub_apply, sysRes_last he hn hV0 hj]
    ring
  · simp only [Pi.sub_apply]
    rw [sysRes_first he hn hV0 hV0 hj hj Vmax Vmax' x m, sysRes_first he hn hV0 hV0 hj hj Vmax Vmax' y m]

theorem Tame.shift {n : Nat} {φ φ' : (Fin n → ℝ) → Fin n → ℝ} {J : (Fin n → ℝ) → Matrix (Fin n) (Fin n) ℝ}
    {A : (Fin n → ℝ) →L[ℝ] Fin n → ℝ} {x0 : Fin n → ℝ} {ρ ε M : ℝ} (h : Tame φ J A x0 ρ ε M)
    (hs : ∀ x y, φ' x - φ' y = φ x - φ y) : Tame φ' J A x0 ρ ε M :=
  ⟨fun x y hx hy => by rw [hs]; exact h.diff x y hx hy, h.matrix, h.below, h.pos, h.eps, h.small⟩

/-- The extended matrix stays regular if a component of the tangent that does not vanish is controlled instead. -/
theorem sysMat_switch (he : Evaluable c bars a ef) (hl : a.lpf.isSome = true)
    (hf0 : a.f0red = a.DOF1.map fun p => ef.forces.getD p 0) {n : Nat} (hn : c.ndof1 = n)
    {j j' : Int} {k k' : Fin (n + 1)} (hj : j.natAbs = k + 1) (hj' : j'.natAbs = k' + 1) (x : Fin (n + 1) → ℝ)
    (hreg : IsUnit (sysMat c a n j x).det) {τ : Fin (n + 1) → ℝ}
    (hτ : ∀ m : Fin n, (sysMat c a n j x).mulVec τ m.castSucc = 0) (hk : τ k ≠ 0) (hk' : τ k' ≠ 0) :
    IsUnit (sysMat c a n j' x).det := by
  rw [isUnit_iff_ne_zero]
  intro h0
  obtain ⟨v, hv, hv0⟩ := Matrix.exists_mulVec_eq_zero_iff.2 h0
  obtain ⟨r1, r2⟩ := sysMat_rows he hl hf0 hn hj hj' x
  obtain ⟨-, r3⟩ := sysMat_rows he hl hf0 hn hj' hj x
  have hvk' : v k' = 0 := by rw [← r3 v, hv0]; rfl
  -- the combination `τ k * v - v k * τ` is in the kernel of the matrix for `j`
  have hz : (sysMat c a n j x).mulVec (τ k • v - v k • τ) = 0 := by
    funext m
    refine Fin.lastCases ?_ (fun m => ?_) m
    · rw [r2]
      simp only [Pi.sub_apply, Pi.smul_apply, smul_eq_mul, Pi.zero_apply]
      ring
    · rw [Matrix.mulVec_sub, Matrix.mulVec_smul, Matrix.mulVec_smul]
      simp only [Pi.sub_apply, Pi.smul_apply, smul_eq_mul, hτ, Pi.zero_apply]
      have : (sysMat c a n j x).mulVec v m.castSucc = (sysMat c a n j' x).mulVec v m.castSucc := by
        show dotProduct (sysMat c a n j x m.castSucc) v = dotProduct (sysMat c a n j' x m.castSucc) v
        rw [r1 m]
      rw [this, hv0]
      simp
  have hzero : τ k • v - v k • τ = 0 := by
    by_contra hne
    exact (isUnit_iff_ne_zero.1 hreg) (Matrix.exists_mulVec_eq_zero_iff.1 ⟨_, hne, hz⟩)
  have hvk : v k = 0 := by
    have := congrFun hzero k'
    simp only [Pi.sub_apply, Pi.smul_apply, smul_eq_mul, hvk', mul_zero, Pi.zero_apply, zero_sub, neg_eq_zero] at this
    exact (mul_eq_zero.1 this).resolve_right hk'
  rw [hvk, zero_smul, sub_zero] at hzero
  exact hv ((smul_eq_zero.1 hzero).resolve_left hk)

end

/-- The last part of an attempt whose Newton run succeeded with a valid solution, with the next control component and step
width. -/
theorem attempt_accepts_full {c : Ctx ℝ} {bars : List (Bar ℝ)} {a : Analysis ℝ} {ef : StepForces ℝ} (he : Evaluable c bars a ef)
    {n : Nat} (hn : c.ndof1 = n) (hn1 : 1 ≤ n) {env : Env ℝ} (hA : ArgMax env) {cfg : PFCfg ℝ} {rc : RCtx ℝ} {st : RState ℝ}
    {x y d : Fin (n + 1) → ℝ} (hx : rc.x0 = List.ofFn x) (hd : st.dxmax = List.ofFn d) (hd0 : rc.dxmax0 ≠ [])
    {k : Fin (n + 1)} (hj : st.j.natAbs = k + 1) {a1 : Analysis ℝ} {nr : NewtonOut ℝ} {start : List ℝ}
    (hstart : (if st.z = 0 ∧ rc.jPre ≠ 0 ∧ cfg.jFixed = false then vadd rc.x0 (rc.DxPre.map fun v => v / Flt.abs rc.vPre)
      else rc.x0) = start)
    (hnew : newton (extF (modelProblem c) rc.x0 st.j (x k + d k * Flt.ofInt st.j.sign) false) (extDf (modelProblem c) st.j)
      env.spsolve st.a start (cfg.nfev - st.nPre) cfg.ftol cfg.xtol = .ok (a1, nr)) (ha1 : Trial a a1)
    (hsucc : nr.success = true) (hy : nr.x = List.ofFn y)
    (hvalid : (cfg.jFixed = true ∧ |(y - x) k / d k| ≤ cfg.dxtol) ∨
      (cfg.jFixed = false ∧ ∀ i, |(y - x) i / d i| ≤ cfg.dxtol)) :
    ∃ st', attempt env (modelProblem c) cfg rc st = .ok (st', some .accepted) ∧ st'.x = List.ofFn y ∧
      (∃ i1 : Fin (n + 1), (∀ m, |(y - x) m / d m| ≤ |(y - x) i1 / d i1|) ∧
        nextJ cfg st.j (((i1 : Nat) : Int) + 1) ((y - x) i1 / d i1) = .ok st'.j) ∧
      ∃ dc, nextWidth cfg rc st st'.j nr = .ok dc ∧ st'.dxmax = dc.dxmax := by
  obtain ⟨i1, hmax, hbig⟩ := maxComp_ofFn hA fun i => (y - x) i / d i
  obtain ⟨j1, hj1⟩ : ∃ j1, nextJ cfg st.j (((i1 : Nat) : Int) + 1) ((y - x) i1 / d i1) = .ok j1 ∧
      (cfg.jFixed = true → j1 = st.j) := by
    unfold nextJ
    split
    · exact ⟨_, rfl, fun _ => rfl⟩
    next hf =>
      obtain ⟨j1, h⟩ := signedIdx_any (((i1 : Nat) : Int) + 1) ((y - x) i1 / d i1)
      exact ⟨j1, h, fun h => absurd h hf⟩
  have hg : ∀ f : Fin (n + 1) → ℝ, pyGet (List.ofFn f) ((st.j.natAbs : Int) - 1) = .ok (f k) := by
    intro f
    have : ((st.j.natAbs : Int) - 1) = ((k : Nat) : Int) := by omega
    rw [this]
    exact pyGet_ok_nat.2 (by rw [List.getElem?_ofFn, dif_pos k.isLt])
  have hv : solutionValid cfg (List.ofFn (y - x)) (List.ofFn d) j1 = .ok true := by
    unfold solutionValid
    rcases hvalid with ⟨h1, h2⟩ | ⟨h1, h2⟩
    · rw [if_pos h1, hj1.2 h1]
      simp only [hg, py_bind_ok]
      exact congrArg Except.ok (decide_eq_true h2)
    · rw [if_neg (by rw [h1]; simp), vdiv_ofFn]
      refine congrArg Except.ok (List.all_eq_true.2 fun v hv => ?_)
      obtain ⟨i, rfl⟩ := (List.mem_ofFn' _ _).1 hv
      exact decide_eq_true (h2 i)
  obtain ⟨dc, hdc⟩ : ∃ dc, nextWidth cfg rc st j1 nr = .ok dc := by
    have h1 : 1 ≤ rc.dxmax0.length := List.length_pos_iff.2 hd0
    unfold nextWidth
    split
    · unfold dxmaxControl
      obtain ⟨v, hv⟩ := pyGet_total (l := st.dxmax) (i := 0) (by omega) (by rw [hd]; simp)
      obtain ⟨v0, hv0⟩ := pyGet_total (l := rc.dxmax0) (i := 0) (by omega) (by omega)
      simp only [hv, hv0, py_bind_ok]
      repeat' split
      all_goals exact ⟨_, rfl⟩
    · exact ⟨_, rfl⟩
  have hb : Trial a { a1 with dVmax := some st.dxmax } := ha1.trans (Trial.book a1 a1.j a1.Kmod _)
  obtain ⟨U, hU⟩ := exists_disp (he.trial hb) hn
  obtain ⟨a2, h2⟩ := extF_closed (he.trial hb) hn (V0 := List.ofFn x) (by simp) hj (x k + d k * Flt.ofInt st.j.sign) true y (hU y)
  refine ⟨⟨List.ofFn y, dc.z, st.nPre, dc.dxmax, j1, dc.b + 1, a2⟩, ?_, rfl, ⟨i1, hbig, hj1.1⟩, dc, hdc, rfl⟩
  unfold attempt
  have ht : target rc.x0 st.dxmax st.j = .ok (x k + d k * Flt.ofInt st.j.sign) := by rw [hx, hd]; exact target_ofFn x d hj
  have hmax' : maxComp env (vdiv (vsub nr.x rc.x0) st.dxmax) = .ok (((i1 : Nat) : Int) + 1, (y - x) i1 / d i1) := by
    rw [hy, hx, hd, vsub_ofFn, vdiv_ofFn]; exact hmax
  have hlen : ¬ (vdiv (vsub nr.x rc.x0) st.dxmax).length < 2 := by
    rw [hy, hx, hd, vsub_ofFn, vdiv_ofFn, List.length_ofFn]
    omega
  have hv' : solutionValid cfg (vsub nr.x rc.x0) st.dxmax j1 = .ok true := by
    rw [hy, hx, hd, vsub_ofFn]; exact hv
  rw [← hx, ← hy] at h2
  simp only [ht, py_bind_ok, hstart, hnew, hmax', if_neg hlen, hj1.1, hv', hdc, hsucc, Bool.and_self, if_true, h2]
  rw [← hy]
  rfl

/-- The last part of an attempt whose Newton run succeeded with a valid solution. -/
theorem attempt_accepts {c : Ctx ℝ} {bars : List (Bar ℝ)} {a : Analysis ℝ} {ef : StepForces ℝ} (he : Evaluable c bars a ef)
    {n : Nat} (hn : c.ndof1 = n) (hn1 : 1 ≤ n) {env : Env ℝ} (hA : ArgMax env) {cfg : PFCfg ℝ} {rc : RCtx ℝ} {st : RState ℝ}
    {x y d : Fin (n + 1) → ℝ} (hx : rc.x0 = List.ofFn x) (hd : st.dxmax = List.ofFn d) (hd0 : rc.dxmax0 ≠ [])
    {k : Fin (n + 1)} (hj : st.j.natAbs = k + 1) {a1 : Analysis ℝ} {nr : NewtonOut ℝ} {start : List ℝ}
    (hstart : (if st.z = 0 ∧ rc.jPre ≠ 0 ∧ cfg.jFixed = false then vadd rc.x0 (rc.DxPre.map fun v => v / Flt.abs rc.vPre)
      else rc.x0) = start)
    (hnew : newton (extF (modelProblem c) rc.x0 st.j (x k + d k * Flt.ofInt st.j.sign) false) (extDf (modelProblem c) st.j)
      env.spsolve st.a start (cfg.nfev - st.nPre) cfg.ftol cfg.xtol = .ok (a1, nr)) (ha1 : Trial a a1)
    (hsucc : nr.success = true) (hy : nr.x = List.ofFn y)
    (hvalid : (cfg.jFixed = true ∧ |(y - x) k / d k| ≤ cfg.dxtol) ∨
      (cfg.jFixed = false ∧ ∀ i, |(y - x) i / d i| ≤ cfg.dxtol)) :
    ∃ st', attempt env (modelProblem c) cfg rc st = .ok (st', some .accepted) ∧ st'.x = List.ofFn y := by
  obtain ⟨st', h1, h2, -⟩ := attempt_accepts_full he hn hn1 hA hx hd hd0 hj hstart hnew ha1 hsucc hy hvalid
  exact ⟨st', h1, h2⟩

theorem increment_accepts_full {env : Env ℝ} {P : Problem ℝ} {cfg : PFCfg ℝ} {dxmax0 : List ℝ} {fuel : Nat} {s : PState ℝ}
    {pre : PreOut ℝ} (hp : predictor env P cfg s = .ok pre) (hps : pre.success = false) {st' : RState ℝ}
    (hat : attempt env P cfg ⟨s.x, dxmax0, pre.jPre, pre.DxPre, pre.vPre⟩ ⟨s.x, 0, pre.nPre, s.dxmax, pre.j, s.b, pre.a⟩ =
      .ok (st', some .accepted)) {n : Nat} {y : Fin (n + 1) → ℝ} (hy : st'.x = List.ofFn y) (hfuel : 1 ≤ fuel) :
    ∃ s', increment env P cfg dxmax0 fuel s = .ok (s', .accepted) ∧ s'.x = List.ofFn y ∧ s'.j = st'.j ∧
      s'.dxmax = st'.dxmax ∧ s'.jPre = pre.jPre := by
  obtain ⟨k, rfl⟩ : ∃ k, fuel = k + 1 := ⟨fuel - 1, by omega⟩
  obtain ⟨l, hl⟩ : ∃ l, st'.x.getLast? = some l := by
    rw [hy, ofFn_split, List.getLast?_concat]
    exact ⟨_, rfl⟩
  refine ⟨⟨st'.x, st'.dxmax, st'.j, pre.jPre, st'.b, { st'.a with Vred := st'.x, Ured := st'.x.dropLast, lpf := some l }⟩, ?_, hy, rfl, rfl, rfl⟩
  have hrec : recycle env P cfg ⟨s.x, dxmax0, pre.jPre, pre.DxPre, pre.vPre⟩ (k + 1)
      ⟨s.x, 0, pre.nPre, s.dxmax, pre.j, s.b, pre.a⟩ = .ok (st', .accepted) := by
    rw [recycle]
    simp only [hat, py_bind_ok]
    rfl
  have hsol : solveInc env P cfg dxmax0 (k + 1) s = .ok (pre.jPre, st', .accepted) := by
    unfold solveInc
    simp only [hp, py_bind_ok, hps, Bool.false_eq_true, if_false, hrec]
    rfl
  unfold increment
  simp only [hsol, py_bind_ok, hl]
  rfl

theorem increment_accepts {env : Env ℝ} {P : Problem ℝ} {cfg : PFCfg ℝ} {dxmax0 : List ℝ} {fuel : Nat} {s : PState ℝ}
    {pre : PreOut ℝ} (hp : predictor env P cfg s = .ok pre) (hps : pre.success = false) {st' : RState ℝ}
    (hat : attempt env P cfg ⟨s.x, dxmax0, pre.jPre, pre.DxPre, pre.vPre⟩ ⟨s.x, 0, pre.nPre, s.dxmax, pre.j, s.b, pre.a⟩ =
      .ok (st', some .accepted)) {n : Nat} {y : Fin (n + 1) → ℝ} (hy : st'.x = List.ofFn y) (hfuel : 1 ≤ fuel) :
    ∃ s', increment env P cfg dxmax0 fuel s = .ok (s', .accepted) ∧ s'.x = List.ofFn y := by
  obtain ⟨s', h1, h2, -⟩ := increment_accepts_full hp hps hat hy hfuel
  exact ⟨s', h1, h2⟩

/-- A Newton step satisfies the control equation exactly. -/
theorem control_exact {c : Ctx ℝ} {bars : List (Bar ℝ)} {a : Analysis ℝ} {ef : StepForces ℝ} (he : Evaluable c bars a ef)
    (hl : a.lpf.isSome = true) (hf0 : a.f0red = a.DOF1.map fun p => ef.forces.getD p 0) {n : Nat} (hn : c.ndof1 = n)
    {V0 : List ℝ} (hV0 : V0.length = n + 1) {j : Int} {k : Fin (n + 1)} (hj : j.natAbs = k + 1) {Vmax : ℝ}
    {y : Fin (n + 1) → ℝ} (h : ∃ u v, y = u + v ∧ (sysMat c a n j u).mulVec v = -sysRes c a n V0 j Vmax u) : y k = Vmax := by
  obtain ⟨u, v, rfl, h⟩ := h
  have h1 := congrFun h (Fin.last n)
  rw [(sysMat_rows he hl hf0 hn hj hj u).2 v, Pi.neg_apply, sysRes_last he hn hV0 hj] at h1
  rw [Pi.add_apply, h1]
  ring

end TrussPy
