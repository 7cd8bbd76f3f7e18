import Verif.Lemmas.RoundEval
import Verif.Lemmas.RoundNewton
import Verif.Lemmas.Follow
/-!
# The extended system of a truss in rounded numbers
-/

set_option linter.unusedSectionVars false

namespace TrussPy

section
variable {F : Type} [Zero F] [One F] [Add F] [Sub F] [Mul F] [Div F] [Neg F] [Flt F]

theorem ofFn_split' {n : Nat} (x : Fin (n + 1) → F) :
    List.ofFn x = List.ofFn (fun i : Fin n => x i.castSucc) ++ [x (Fin.last _)] := List.ofFn_succ_last

theorem vsub_ofFn' {n : Nat} (x y : Fin n → F) : vsub (List.ofFn x) (List.ofFn y) = List.ofFn fun i => x i - y i := by
  apply List.ext_getElem (by simp [vsub])
  intro i h1 h2
  simp [vsub]

theorem vdiv_ofFn' {n : Nat} (x y : Fin n → F) : vdiv (List.ofFn x) (List.ofFn y) = List.ofFn fun i => x i / y i := by
  apply List.ext_getElem (by simp [vdiv])
  intro i h1 h2
  simp [vdiv]

theorem pyGet_ofFn {n : Nat} (f : Fin (n + 1) → F) {j : Int} {k : Fin (n + 1)} (hj : j.natAbs = k + 1) :
    pyGet (List.ofFn f) ((j.natAbs : Int) - 1) = .ok (f k) := by
  have : ((j.natAbs : Int) - 1) = ((k : Nat) : Int) := by omega
  rw [this]
  exact pyGet_ok_nat.2 (by rw [List.getElem?_ofFn, dif_pos k.isLt])

theorem target_ofFn' {n : Nat} (x d : Fin (n + 1) → F) {j : Int} {k : Fin (n + 1)} (hj : j.natAbs = k + 1) :
    target (List.ofFn x) (List.ofFn d) j = .ok (x k + d k * Flt.ofInt j.sign) := by
  unfold target
  simp only [pyGet_ofFn x hj, pyGet_ofFn d hj, py_bind_ok]
  rfl

theorem evaluable_trial {c : Ctx F} {bars : List (Bar F)} {a b : Analysis F} {ef : StepForces F} (he : Evaluable c bars a ef)
    (h : Trial a b) : Evaluable c bars b ef :=
  ⟨he.tables, h.fits he.fits, he.complete, by rw [h.statev]; exact he.statev, by rw [h.ext]; exact he.ext, he.forces,
    he.forcesConst, by rw [h.dof1]; exact he.dofs⟩

theorem evaluable_withJ {c : Ctx F} {bars : List (Bar F)} {a : Analysis F} {ef : StepForces F}
    (he : Evaluable c bars a ef) (j : Int) : Evaluable c bars { a with j := j } ef :=
  ⟨he.tables, ⟨he.fits.U, he.fits.U0, he.fits.r, he.fits.K, he.fits.Krow, he.fits.stretch, he.fits.force, he.fits.stress,
    he.fits.statev, he.fits.dof, he.fits.dofNodup⟩, he.complete, he.statev, he.ext, he.forces, he.forcesConst, he.dofs⟩

/-- The extended matrix in terms of the stiffness matrix. -/
theorem extDf_form {c : Ctx F} {a a1 : Analysis F} {n : Nat} {j : Int} {k : Fin (n + 1)} (hj : j.natAbs = k + 1) (x : Fin (n + 1) → F)
    {K0 : List (List F)} (hK : stiffness c { a with j := j } (List.ofFn fun i : Fin n => x i.castSucc) = .ok (a1, K0)) :
    ∃ a', extDf (modelProblem c) j a (List.ofFn x) = .ok (a',
      List.zipWith (fun row f0 => row ++ [-f0]) K0 a.f0red ++ [(List.replicate (n + 1) (0 : F)).set k 1]) := by
  have hset : pySet (List.replicate (List.ofFn x).length (0 : F)) ((j.natAbs : Int) - 1) 1 =
      .ok ((List.replicate (n + 1) (0 : F)).set k 1) := by
    have h1 := k.isLt
    unfold pySet
    simp only [List.length_replicate, List.length_ofFn]
    rw [if_pos (show (0 : Int) ≤ (j.natAbs : Int) - 1 by omega), if_neg (by omega)]
    congr 2
    omega
  have hd : (List.ofFn x).dropLast = List.ofFn fun i : Fin n => x i.castSucc := by rw [ofFn_split', List.dropLast_concat]
  have hf1 : a1.f0red = a.f0red := (stiffness_frame hK).f0red
  rw [← hd] at hK
  have hK' : (modelProblem c).dgdx { a with j := j } (List.ofFn x).dropLast = .ok (a1, K0) := hK
  unfold extDf
  simp only [hset, hK', py_bind_ok, hf1]
  exact ⟨_, rfl⟩

theorem extF_form {c : Ctx F} {a a1 : Analysis F} {n : Nat} {j : Int} {k : Fin (n + 1)} (hj : j.natAbs = k + 1) (x : Fin (n + 1) → F)
    {V0 g : List F} (Vmax : F) {w : Bool}
    (hg : equilibrium c { a with j := j } ((List.ofFn fun i : Fin n => x i.castSucc) ++ [x (Fin.last n)]) V0 .G w = .ok (a1, g)) :
    extF (modelProblem c) V0 j Vmax w a (List.ofFn x) = .ok (a1, (g.map fun v => -v) ++ [x k - Vmax]) := by
  rw [← ofFn_split'] at hg
  have hg' : (modelProblem c).g { a with j := j } (List.ofFn x) V0 w = .ok (a1, g) := hg
  unfold extF
  simp only [hg', pyGet_ofFn x hj, py_bind_ok]
  rfl

end

section
variable {F : Type} {val : F → ℝ} {ε : ℝ}

theorem nearList_ofFn {n : Nat} {x : Fin n → F} {y : Fin n → ℝ} (h : NearList val ε (List.ofFn x) (List.ofFn y)) (i : Fin n) : |val (x i) - y i| ≤ ε :=
  h.2 i _ _ (by rw [List.getElem?_ofFn, dif_pos i.isLt]) (by rw [List.getElem?_ofFn, dif_pos i.isLt])

theorem nearList_concat {l : List F} {l' : List ℝ} (h : NearList val ε l l') {x : F} {y : ℝ} (hx : |val x - y| ≤ ε) :
    NearList val ε (l ++ [x]) (l' ++ [y]) := by
  refine ⟨by simp [h.1], fun i a b ha hb => ?_⟩
  by_cases hi : i < l.length
  · rw [List.getElem?_append_left hi] at ha
    rw [List.getElem?_append_left (by rw [← h.1]; exact hi)] at hb
    exact h.2 i a b ha hb
  · rw [List.getElem?_append_right (by omega)] at ha
    rw [List.getElem?_append_right (by rw [← h.1]; omega), ← h.1] at hb
    have hi0 : i - l.length = 0 := by
      have := (List.getElem?_eq_some_iff.1 ha).1
      simp at this
      omega
    rw [hi0] at ha hb
    cases ha
    cases hb
    exact hx

theorem nearMatrix_concat {K : List (List F)} {K' : List (List ℝ)} (h : NearMatrix val ε K K') {r : List F} {r' : List ℝ} (hr : NearList val ε r r') :
    NearMatrix val ε (K ++ [r]) (K' ++ [r']) := by
  refine ⟨by simp [h.1], fun i a b ha hb => ?_⟩
  by_cases hi : i < K.length
  · rw [List.getElem?_append_left hi] at ha
    rw [List.getElem?_append_left (by rw [← h.1]; exact hi)] at hb
    exact h.2 i a b ha hb
  · rw [List.getElem?_append_right (by omega)] at ha
    rw [List.getElem?_append_right (by rw [← h.1]; omega), ← h.1] at hb
    have hi0 : i - K.length = 0 := by
      have := (List.getElem?_eq_some_iff.1 ha).1
      simp at this
      omega
    rw [hi0] at ha hb
    cases ha
    cases hb
    exact hr

theorem nearMatrix_matOf {n : Nat} {K : List (List F)} {K' : List (List ℝ)} (h : NearMatrix val ε K K') (hl : K.length = n) (hr : ∀ row ∈ K, row.length = n)
    (i j : Fin n) : |matOf n (K.map (List.map val)) i j - matOf n K' i j| ≤ ε := by
  have hi : (i : Nat) < K.length := by rw [hl]; exact i.isLt
  have hi' : (i : Nat) < K'.length := by rw [← h.1]; exact hi
  have h1 := h.2 i _ _ (List.getElem?_eq_getElem hi) (List.getElem?_eq_getElem hi')
  have hj : (j : Nat) < K[(i : Nat)].length := by rw [hr _ (List.getElem_mem hi)]; exact j.isLt
  have hj' : (j : Nat) < K'[(i : Nat)].length := by rw [← h1.1]; exact hj
  have h2 := h1.2 j _ _ (List.getElem?_eq_getElem hj) (List.getElem?_eq_getElem hj')
  unfold matOf
  simp only [List.getD_eq_getElem?_getD, List.getElem?_map, List.getElem?_eq_getElem hi, List.getElem?_eq_getElem hi', Option.map_some, Option.getD_some,
    List.getElem?_eq_getElem hj, List.getElem?_eq_getElem hj']
  exact h2

end

section
variable {F : Type} [Zero F] [One F] [Add F] [Sub F] [Mul F] [Div F] [Neg F] [Flt F]
variable {val : F → ℝ} {δ C : ℝ} {D : Nat} {c : Ctx F} {bars : List (Bar F)} {a b : Analysis F} {ef : StepForces F} {c' : Ctx ℝ} {a' : Analysis ℝ}

theorem Twin.passed (T : Twin val c a c' a') (hd : b.DOF1 = a.DOF1) (hU : ∀ i, i ∉ a.DOF1 → b.U[i]? = a.U[i]?) : Twin val c b c' a' := by
  refine ⟨T.nnodes, T.ndof1, by rw [hd]; exact T.dof1, fun i hi => ?_⟩
  rw [hd] at hi
  rw [T.locked i hi, List.getD_eq_getElem?_getD, List.getD_eq_getElem?_getD, hU i hi]

theorem Twin.withJ (T : Twin val c a c' a') (j : Int) : Twin val c { a with j := j } c' { a' with j := j } :=
  ⟨T.nnodes, T.ndof1, T.dof1, T.locked⟩

theorem placed_of_scatter {u v W : List ℝ} {dofs : List Nat} (hl : v.length = dofs.length) (hnd : dofs.Nodup) (hlt : ∀ i ∈ dofs, i < u.length)
    (h : scatter u dofs v = .ok W) : Placed u dofs v W :=
  ⟨scatter_length h, fun _ hi => scatter_other h hi, fun _ _ hm => scatter_mem h hl hnd hlt hm⟩

/-- What a vector of the extended system must satisfy for accurate evaluations. -/
structure InReach (C : ℝ) (bars : List (Bar ℝ)) (a : Analysis ℝ) {n : Nat} (x : Fin (n + 1) → ℝ) : Prop where
  size : ∀ i, |x i| ≤ C
  clear : ∀ U, scatter a.U a.DOF1 (List.ofFn fun i : Fin n => x i.castSucc) = .ok U → Clear C bars U

theorem extF_near (A : Acc val δ C (D + 1)) (hD : 13 + bars.length ≤ D) (E : Evaluable c bars b ef)
    (E' : Evaluable c' (bars.map (Bar.image val)) a' (ef.image val)) (T : Twin val c b c' a') (hel : ∀ b ∈ bars, b.law = .el)
    (hM : Moderate C (bars.map (Bar.image val)) (ef.image val)) {n : Nat} (hn : c.ndof1 = n) {j : Int} {k : Fin (n + 1)} (hj : j.natAbs = k + 1)
    {V0 : List F} (hV0 : V0.length = n + 1) {V0' : List ℝ} (hV0' : V0'.length = n + 1) {Vmax : F} (hVm : |val Vmax| ≤ C) (w : Bool) {x : Fin (n + 1) → F}
    (hx : InReach C (bars.map (Bar.image val)) a' fun i => val (x i)) :
    ∃ b' y, extF (modelProblem c) V0 j Vmax w b (List.ofFn x) = .ok (b', List.ofFn y) ∧
      ∀ i, |val (y i) - sysRes c' a' n V0' j (val Vmax) (fun i => val (x i)) i| ≤ lev C (D + 1) * δ := by
  subst hn
  have hn' : c'.ndof1 = c.ndof1 := T.ndof1
  obtain ⟨U, hU⟩ := exists_disp E' hn'
  have hUx := hU fun i => val (x i)
  have hmap : (List.ofFn fun i : Fin c.ndof1 => x i.castSucc).map val = List.ofFn fun i : Fin c.ndof1 => val (x i.castSucc) := by
    rw [List.map_ofFn]; rfl
  have hP : Placed a'.U a'.DOF1 ((List.ofFn fun i : Fin c.ndof1 => x i.castSucc).map val) (U fun i => val (x i)) := by
    refine placed_of_scatter (by rw [List.length_map, List.length_ofFn, E'.dofs, hn']) E'.fits.dofNodup
      (fun i hi => by rw [E'.fits.U]; exact E'.fits.dof i hi) ?_
    rw [hmap]
    exact hUx
  have A' : Acc val δ C D := ⟨A.rounds, A.one, (mul_le_mul_of_nonneg_left (lev_mono A.one (Nat.le_succ D)) A.rounds.pos.le).trans A.small⟩
  obtain ⟨b1, g, a1, g', h1, h2, h3⟩ := equil_close A' hD (evaluable_withJ E j) (E'.withJ j) (T.withJ j) hel hM (v := List.ofFn fun i : Fin c.ndof1 => x i.castSucc)
    (by simp) (lpf := x (Fin.last _)) (hx.size _) hP (hx.clear _ hUx) hV0 hV0' w false
  have e1 := extF_form hj x Vmax h1
  rw [hmap] at h2
  have e2 := extF_form hj (fun i => val (x i)) (val Vmax) h2
  obtain ⟨a2, e3⟩ := extF_closed E' hn' hV0' hj (val Vmax) false (fun i => val (x i)) hUx
  rw [e2] at e3
  have e4 : g'.map (fun v => -v) ++ [val (x k) - val Vmax] = List.ofFn (sysRes c' a' c.ndof1 V0' j (val Vmax) fun i => val (x i)) := by
    rw [sysRes_closed E' hn' hV0' hj (val Vmax) _ hUx]
    exact congrArg Prod.snd (Except.ok.inj e3)
  have hlev : lev C D ≤ lev C (D + 1) := lev_mono A.one (Nat.le_succ D)
  have hneg : NearList val (lev C (D + 1) * δ) (g.map fun v => -v) (g'.map fun v => -v) := by
    refine nearList_map h3.g.1 fun i o o' ho ho' => ?_
    have hc : Close val δ (lev C D) o o' := ⟨h3.g.2 i o o' ho ho', h3.size o' (List.mem_of_getElem? ho')⟩
    exact A.near (A.neg (Nat.lt_succ_self D) hc) (Nat.le_succ D)
  have hlast : |val (x k - Vmax) - (val (x k) - val Vmax)| ≤ lev C (D + 1) * δ :=
    A.near (A.sub (m := 0) (by omega) (close_self A.rounds.pos.le (hx.size k)) (close_self A.rounds.pos.le hVm)) (by omega)
  have hnear := nearList_concat hneg hlast
  rw [e4] at hnear
  obtain ⟨y, hy⟩ := exists_ofFn' (n := c.ndof1 + 1) (l := g.map (fun v => -v) ++ [x k - Vmax]) (by rw [hnear.1]; simp)
  rw [hy] at hnear e1
  exact ⟨b1, y, e1, fun i => nearList_ofFn hnear i⟩

theorem extDf_near (A : Acc val δ C D) (hD : 14 + 4 * bars.length ≤ D) (E : Evaluable c bars b ef)
    (E' : Evaluable c' (bars.map (Bar.image val)) a' (ef.image val)) (T : Twin val c b c' a') (hel : ∀ b ∈ bars, b.law = .el)
    (hM : Moderate C (bars.map (Bar.image val)) (ef.image val)) {n : Nat} (hn : c.ndof1 = n) {j : Int} {k : Fin (n + 1)} (hj : j.natAbs = k + 1)
    (hl : b.lpf.isSome = true) (hl' : a'.lpf.isSome = true) (hf : b.f0red.length = n) (hf' : a'.f0red = b.f0red.map val) (hfC : ∀ v ∈ a'.f0red, |v| ≤ C)
    {x : Fin (n + 1) → F} (hx : InReach C (bars.map (Bar.image val)) a' fun i => val (x i)) :
    ∃ b' K, extDf (modelProblem c) j b (List.ofFn x) = .ok (b', K) ∧ K.length = n + 1 ∧ (∀ row ∈ K, row.length = n + 1) ∧
      ∀ i m, |matOf (n + 1) (K.map (List.map val)) i m - sysMat c' a' n j (fun i => val (x i)) i m| ≤ lev C D * δ := by
  subst hn
  have hn' : c'.ndof1 = c.ndof1 := T.ndof1
  obtain ⟨U, hU⟩ := exists_disp E' hn'
  have hUx := hU fun i => val (x i)
  have hmap : (List.ofFn fun i : Fin c.ndof1 => x i.castSucc).map val = List.ofFn fun i : Fin c.ndof1 => val (x i.castSucc) := by
    rw [List.map_ofFn]; rfl
  have hP : Placed a'.U a'.DOF1 ((List.ofFn fun i : Fin c.ndof1 => x i.castSucc).map val) (U fun i => val (x i)) := by
    refine placed_of_scatter (by rw [List.length_map, List.length_ofFn, E'.dofs, hn']) E'.fits.dofNodup
      (fun i hi => by rw [E'.fits.U]; exact E'.fits.dof i hi) ?_
    rw [hmap]
    exact hUx
  obtain ⟨b1, K0, a1, K0', h1, h2, h3, h4, h5⟩ := stiff_close A hD (evaluable_withJ E j) (E'.withJ j) (T.withJ j) hel hM
    (v := List.ofFn fun i : Fin c.ndof1 => x i.castSucc) (by simp) hP (hx.clear _ hUx) hl hl'
  obtain ⟨b', e1⟩ := extDf_form hj x h1
  rw [hmap] at h2
  obtain ⟨a2, e2⟩ := extDf_form hj (fun i => val (x i)) h2
  have hε : 0 ≤ lev C D * δ := mul_nonneg (by have := lev_ge A.one D; linarith) A.rounds.pos.le
  have hz : NearMatrix val (lev C D * δ) (List.zipWith (fun row f0 => row ++ [-f0]) K0 b.f0red)
      (List.zipWith (fun row f0 => row ++ [-f0]) K0' a'.f0red) := by
    refine ⟨by rw [List.length_zipWith, List.length_zipWith, h5.1, hf', List.length_map], fun i r r' hr hr' => ?_⟩
    rw [List.getElem?_zipWith] at hr hr'
    split at hr
    next r0 f e3 e4 =>
      split at hr'
      next r0' f' e3' e4' =>
        cases hr
        cases hr'
        have hfC' := hfC f' (List.mem_of_getElem? e4')
        rw [hf', List.getElem?_map, e4] at e4'
        cases e4'
        refine nearList_concat (h5.2 i _ _ e3 e3') ?_
        have hc : Close val δ (lev C 0) f (val f) := close_self A.rounds.pos.le hfC'
        exact A.near (A.neg (by omega) hc) (Nat.zero_le D)
      next => cases hr'
    next => cases hr
  have hq : NearList val (lev C D * δ) ((List.replicate (c.ndof1 + 1) (0 : F)).set k 1) ((List.replicate (c.ndof1 + 1) (0 : ℝ)).set k 1) := by
    refine ⟨by simp, fun i u v hu hv => ?_⟩
    rw [List.getElem?_set] at hu hv
    simp only [List.length_replicate, List.getElem?_replicate] at hu hv
    by_cases hki : (k : Nat) = i
    · rw [if_pos hki, if_pos (by have := k.isLt; omega)] at hu hv
      cases hu
      cases hv
      rw [A.rounds.one, sub_self, abs_zero]
      exact hε
    · rw [if_neg hki] at hu hv
      split at hu
      next hi =>
        rw [if_pos hi] at hv
        cases hu
        cases hv
        rw [A.rounds.zero, sub_self, abs_zero]
        exact hε
      next => cases hu
  have hN := nearMatrix_concat hz hq
  have hlK : (List.zipWith (fun row f0 => row ++ [-f0]) K0 b.f0red ++ [(List.replicate (c.ndof1 + 1) (0 : F)).set k 1]).length = c.ndof1 + 1 := by
    simp [h3, hf]
  have hrK : ∀ row ∈ List.zipWith (fun row f0 => row ++ [-f0]) K0 b.f0red ++ [(List.replicate (c.ndof1 + 1) (0 : F)).set k 1], row.length = c.ndof1 + 1 := by
    intro row hr
    rcases List.mem_append.1 hr with hr | hr
    · obtain ⟨i, hi⟩ := List.getElem?_of_mem hr
      rw [List.getElem?_zipWith] at hi
      split at hi
      · next r f h1 h2 =>
        cases hi
        simp [h4 r (List.mem_of_getElem? h1)]
      · cases hi
    · rw [List.mem_singleton.1 hr]
      simp
  refine ⟨b', _, e1, hlK, hrK, fun i m => ?_⟩
  have := nearMatrix_matOf hN hlK hrK i m
  unfold sysMat
  rw [e2]
  exact this

/-- The analysis object `b` has the loads, supports and sizes of `a`. -/
structure Passed (c : Ctx F) (bars : List (Bar F)) (ef : StepForces F) (a b : Analysis F) : Prop where
  eval : Evaluable c bars b ef
  ready : b.Ready c
  f0red : b.f0red = a.f0red
  dof1 : b.DOF1 = a.DOF1
  U : ∀ i, i ∉ a.DOF1 → b.U[i]? = a.U[i]?

/-- An accepted increment passes the loads, supports and sizes on. -/
theorem Passed.next (h : Passed c bars ef a b) {n : Nat} (hn : c.ndof1 = n) {env : Env F} {cfg : PFCfg F} {dxmax0 : List F}
    {s s' : PState F} (hi : IsInc env (modelProblem c) cfg dxmax0 s s' .accepted) (hsa : s.a = b) (hx : s.x.length = n + 1)
    (hx' : s'.x.length = n + 1) : Passed c bars ef a s'.a := by
  subst hn hsa
  obtain ⟨h1, -⟩ | ⟨-, ⟨b1, b', g, dV, lpf, t1, hev, -, hA⟩⟩ := hi.model
  · cases h1
  have hR := modelProblem_runs h.eval.tables h.eval.complete
  have hb1 : b1.Ready c := by
    refine ⟨⟨t1.fits h.ready.base.fits, by rw [t1.statev]; exact h.ready.base.statev, by rw [t1.dof1]; exact h.ready.base.dofs,
      by rw [t1.lpf]; exact h.ready.base.lpf, by rw [t1.Ured]; exact h.ready.base.Ured⟩, by rw [t1.ext]; exact h.ready.ext, by rw [t1.f0red]; exact h.ready.f0⟩
  have hb' : b'.Ready c := by
    obtain ⟨a', g', e1, e2, -⟩ := hR.g b1 s'.x s.x true hb1 hx' hx
    have e1 : TrussPy.equilibrium c b1 s'.x s.x .G true = .ok (a', g') := e1
    have hev : TrussPy.equilibrium c b1 s'.x s.x .G true = .ok (b', g) := hev
    rw [hev] at e1
    cases e1
    exact e2
  have hf := (equilibrium_frame hev).1
  have hsave : s'.a.Ready c := by
    rw [hA]
    exact hR.save { b' with dVmax := dV } s'.x s'.x.dropLast lpf (hR.book b' b'.j b'.Kmod dV hb') (by simp [hx'])
  have e1 : s'.a.DOF1 = s.a.DOF1 := by rw [hA]; exact hf.dof1.trans t1.dof1
  have e2 : s'.a.f0red = s.a.f0red := by rw [hA]; exact hf.f0red.trans t1.f0red
  have e3 : s'.a.extForces = s.a.extForces := by rw [hA]; exact hf.ext.trans t1.ext
  refine ⟨⟨h.eval.tables, hsave.base.fits, h.eval.complete, hsave.base.statev, by rw [e3]; exact h.eval.ext, h.eval.forces,
    h.eval.forcesConst, hsave.base.dofs⟩, hsave, e2.trans h.f0red, e1.trans h.dof1, ?_⟩
  intro i hi
  rw [hA]
  have hi1 : i ∉ s.a.DOF1 := by rw [h.dof1]; exact hi
  have hi2 : i ∉ b1.DOF1 := by rw [t1.dof1]; exact hi1
  exact (hf.Uout i hi2).trans ((t1.Uout i hi1).trans (h.U i hi))

/-- The model's callables compute the extended system up to rounding errors, whatever trial evaluations were done before. -/
theorem model_near (A : Acc val δ C (15 + 4 * bars.length))
    (E' : Evaluable c' (bars.map (Bar.image val)) a' (ef.image val)) (T : Twin val c a c' a') (hP : Passed c bars ef a b) (hel : ∀ b ∈ bars, b.law = .el)
    (hM : Moderate C (bars.map (Bar.image val)) (ef.image val)) {n : Nat} (hn : c.ndof1 = n) {j : Int} {k : Fin (n + 1)} (hj : j.natAbs = k + 1)
    (hl' : a'.lpf.isSome = true) (hf' : a'.f0red = a.f0red.map val) (hfC : ∀ v ∈ a'.f0red, |v| ≤ C)
    {V0 : List F} (hV0 : V0.length = n + 1) {V0' : List ℝ} (hV0' : V0'.length = n + 1) {Vmax : F} (hVm : |val Vmax| ≤ C) {Dom : (Fin (n + 1) → ℝ) → Prop}
    (hDom : ∀ x, Dom x → InReach C (bars.map (Bar.image val)) a' x) {η : ℝ} (hη : lev C (15 + 4 * bars.length) * δ ≤ η) :
    ComputesNear val (n + 1) (Trial b) Dom (extF (modelProblem c) V0 j Vmax false) (extDf (modelProblem c) j)
      (sysRes c' a' n V0' j (val Vmax)) (sysMat c' a' n j) η := by
  have hT : ∀ b1, Trial b b1 → Twin val c b1 c' a' := fun b1 h1 =>
    (T.passed hP.dof1 hP.U).passed h1.dof1 h1.Uout
  constructor
  · intro b1 x hb hx
    obtain ⟨b', y, h1, h2⟩ := extF_near (D := 14 + 4 * bars.length) (by rw [show 14 + 4 * bars.length + 1 = 15 + 4 * bars.length by omega]; exact A) (by omega)
      (evaluable_trial hP.eval hb) E' (hT b1 hb) hel hM hn hj hV0 hV0' hVm false (hDom _ hx)
    exact ⟨b', y, h1, hb.trans (extF_trial h1), fun i => (h2 i).trans
      (by rw [show 14 + 4 * bars.length + 1 = 15 + 4 * bars.length by omega]; exact hη)⟩
  · intro b1 x hb hx
    obtain ⟨b', K, h1, h2, h3, h4⟩ := extDf_near A (by omega) (evaluable_trial hP.eval hb) E' (hT b1 hb) hel hM hn hj (by rw [hb.lpf]; exact hP.ready.base.lpf) hl'
      (by rw [hb.f0red, hP.ready.f0, hn]) (by rw [hb.f0red, hP.f0red]; exact hf') hfC (hDom _ hx)
    exact ⟨b', K, h1, hb.trans (extDf_trial h1), h2, h3, fun i m => (h4 i m).trans hη⟩

end

end TrussPy
