import Verif.Spec.Linear
import Verif.ExamplesPath
import Mathlib.Tactic.NormNum
/-!
# A concrete run in exact real arithmetic, used in the examples beside the theorems
-/

namespace TrussPy

open Classical in
/-- An exact solver (Cramer's rule, checked) and a sort by insertion. -/
noncomputable def realEnv : Env ℝ where
  spsolve A b := match cramer A b with
    | .ok dx => if matVec A dx = b then .ok dx else .error .valueError
    | .error e => .error e
  argsortF l := (List.range l.length).insertionSort fun i j => l.getD i 0 ≤ l.getD j 0

/-- Analysis object with unit load. -/
def realA : Analysis ℝ := { Analysis.fresh 1 0 [] [0] 0 with f0red := [1] }

/-- A linear spring `u = lpf`. -/
def realSpring : Problem ℝ where
  g a V _ _ := match V with
    | [u, l] => .ok (a, [l - u])
    | _ => .error .valueError
  dgdx a _ := .ok (a, [[1]])

/-- One increment with step widths 1/10 and 1/4. -/
noncomputable def realCfg : PFCfg ℝ where
  dxmax := .vec [1 / 10, 1 / 4]
  j := none
  jFixed := false
  jPre := true
  xlimit := none
  incs := 1
  nfev := 8
  cycl := 4
  ftol := 1 / 1000
  xtol := 1 / 1000
  stepcontrol := true
  maxfac := 10
  minfac := 1 / 4
  reduce := 8
  increase := 1 / 2
  dxtol := 101 / 100

theorem realEnv_exact : ExactSolver realEnv := by
  intro A b dx h
  simp only [realEnv] at h
  split at h
  · split at h
    · next h1 => cases h; exact h1
    · cases h
  · cases h

theorem realDf (a : Analysis ℝ) (ha : a.f0red = [1]) (u l : ℝ) :
    extDf realSpring 2 a [u, l] = .ok ({ a with j := 2, Kmod := [[1, -1], [0, 1]] }, [[1, -1], [0, 1]]) ∧
    extDf realSpring 1 a [u, l] = .ok ({ a with j := 1, Kmod := [[1, -1], [1, 0]] }, [[1, -1], [1, 0]]) := by
  constructor <;> simp [extDf, realSpring, pySet, bind, Except.bind, ha, pure, Except.pure, List.replicate]

theorem realF (a : Analysis ℝ) (w : Bool) (V0 : List ℝ) (u l m : ℝ) :
    extF realSpring V0 2 m w a [u, l] = .ok ({ a with j := 2 }, [-(l - u), l - m]) ∧
    extF realSpring V0 1 m w a [u, l] = .ok ({ a with j := 1 }, [-(l - u), u - m]) := by
  constructor <;> simp [extF, realSpring, pyGet, bind, Except.bind, pure, Except.pure]

theorem realSolve (p q : ℝ) :
    realEnv.spsolve [[1, -1], [0, 1]] [p, q] = .ok [p + q, q] ∧
    realEnv.spsolve [[1, -1], [1, 0]] [p, q] = .ok [q, q - p] := by
  constructor
  · simp only [realEnv, cramer]
    rw [if_pos]
    · norm_num
    · simp [matVec]
  · simp only [realEnv, cramer]
    rw [if_pos]
    · norm_num
    · simp [matVec]

theorem newtonLoop_success {S : Type} {f : S → List ℝ → Py (S × List ℝ)}
    {df : S → List ℝ → Py (S × List (List ℝ))} {sp : List (List ℝ) → List ℝ → Py (List ℝ)} {ftol xtol : ℝ}
    {k : Nat} {n : Int} {s s1 s2 s3 : S} {x fx dx fx' : List ℝ} {J : List (List ℝ)}
    (h1 : df s x = .ok (s1, J)) (h2 : f s1 x = .ok (s2, fx)) (h3 : sp J (fx.map fun v => -v) = .ok dx)
    (h4 : dx.length = x.length) (h5 : f s2 (vadd x dx) = .ok (s3, fx'))
    (h6 : Flt.lt (Flt.vnorm fx') ftol = true ∧ Flt.lt (Flt.vnorm dx) xtol = true) :
    newtonLoop f df sp ftol xtol (k + 1) n s x =
      .ok (s3, ⟨vadd x dx, true, n + 1, Flt.vnorm fx', Flt.vnorm dx⟩) := by
  unfold newtonLoop
  simp only [h1, bind, Except.bind, h2, h3, h4, ne_eq, not_true_eq_false, if_false, h5, h6, Bool.and_self, if_true]
  rfl

theorem newtonLoop_fail {S : Type} {f : S → List ℝ → Py (S × List ℝ)}
    {df : S → List ℝ → Py (S × List (List ℝ))} {sp : List (List ℝ) → List ℝ → Py (List ℝ)} {ftol xtol : ℝ}
    {n : Int} {s s1 s2 s3 : S} {x fx dx fx' : List ℝ} {J : List (List ℝ)}
    (h1 : df s x = .ok (s1, J)) (h2 : f s1 x = .ok (s2, fx)) (h3 : sp J (fx.map fun v => -v) = .ok dx)
    (h4 : dx.length = x.length) (h5 : f s2 (vadd x dx) = .ok (s3, fx'))
    (h6 : ¬ (Flt.lt (Flt.vnorm dx) xtol = true)) :
    newtonLoop f df sp ftol xtol 1 n s x =
      .ok (s3, ⟨vadd x dx, false, n + 1, Flt.vnorm fx', Flt.vnorm dx⟩) := by
  unfold newtonLoop
  simp only [h1, bind, Except.bind, h2, h3, h4, ne_eq, not_true_eq_false, if_false, h5]
  rw [Bool.eq_false_of_not_eq_true h6, Bool.and_false]
  rfl

theorem realNewton_pre (a : Analysis ℝ) (ha : a.f0red = [1]) :
    newton (extF realSpring [0, 0] 2 (1/4) false) (extDf realSpring 2) realEnv.spsolve a
      [0, 0] 1 (1/1000) (1/1000) = .ok ({ a with j := 2, Kmod := [[1, -1], [0, 1]] },
        ⟨[1/4, 1/4], false, 1, Flt.vnorm ([0, 0] : List ℝ), Flt.vnorm ([1/4, 1/4] : List ℝ)⟩) := by
  have h1 : ¬ (Flt.lt (Flt.vnorm ([1/4, 1/4] : List ℝ)) (1/1000) = true) := by
    intro h
    have h := of_decide_eq_true h
    have : (1/4 : ℝ) ≤ Flt.vnorm ([1/4, 1/4] : List ℝ) := by
      show _ ≤ Real.sqrt _
      apply Real.le_sqrt_of_sq_le
      norm_num
    linarith
  have := newtonLoop_fail (f := extF realSpring [0, 0] 2 (1/4) false) (df := extDf realSpring 2)
    (sp := realEnv.spsolve) (ftol := 1/1000) (xtol := 1/1000) (n := 0)
    (s3 := { a with j := 2, Kmod := [[1, -1], [0, 1]] }) (dx := [1/4, 1/4]) (fx' := [0, 0])
    (realDf a ha 0 0).1 (realF _ _ _ _ _ _).1
    (by
      rw [List.map_cons, List.map_cons, List.map_nil, (realSolve _ _).1]
      norm_num) rfl
    (by
      show extF realSpring [0, 0] 2 (1/4) false _ [0 + 1/4, 0 + 1/4] = _
      rw [(realF _ _ _ _ _ _).1]
      norm_num) h1
  rw [show (vadd [0, 0] [1/4, 1/4] : List ℝ) = [1/4, 1/4] by norm_num [vadd]] at this
  exact this

theorem realNewton (a : Analysis ℝ) (ha : a.f0red = [1]) :
    newton (extF realSpring [0, 0] 1 (1/10) false) (extDf realSpring 1) realEnv.spsolve a
      [1/10, 1/10] 7 (1/1000) (1/1000) = .ok ({ a with j := 1, Kmod := [[1, -1], [1, 0]] },
        ⟨[1/10, 1/10], true, 1, Flt.vnorm ([0, 0] : List ℝ), Flt.vnorm ([0, 0] : List ℝ)⟩) := by
  have h1 : Flt.lt (Flt.vnorm ([0, 0] : List ℝ)) (1/1000) = true := by
    apply decide_eq_true
    show Real.sqrt _ < _
    norm_num
  have := newtonLoop_success (f := extF realSpring [0, 0] 1 (1/10) false) (df := extDf realSpring 1)
    (sp := realEnv.spsolve) (ftol := 1/1000) (xtol := 1/1000) (n := 0) (k := 6)
    (s3 := { a with j := 1, Kmod := [[1, -1], [1, 0]] }) (dx := [0, 0]) (fx' := [0, 0])
    (realDf a ha (1/10) (1/10)).2 (realF _ _ _ _ _ _).2
    (by
      rw [List.map_cons, List.map_cons, List.map_nil, (realSolve _ _).2]
      norm_num) rfl
    (by
      show extF realSpring [0, 0] 1 (1/10) false _ [1/10 + 0, 1/10 + 0] = _
      rw [(realF _ _ _ _ _ _).2]
      norm_num) ⟨h1, h1⟩
  rw [show (vadd [1/10, 1/10] [0, 0] : List ℝ) = [1/10, 1/10] by norm_num [vadd]] at this
  exact this

theorem realMax (p q : ℝ) (h : |q| < |p|) (hp : 0 < p) : maxComp realEnv [p, q] = .ok (1, p) := by
  have hs : realEnv.argsortF ([p, q].map Flt.abs) = [1, 0] := by
    unfold realEnv
    simp only [List.map_cons, List.map_nil, List.length_cons, List.length_nil]
    rw [show List.range (0 + 1 + 1) = [0, 1] from rfl]
    simp only [List.insertionSort, List.foldr, List.orderedInsert]
    rw [if_neg]
    show ¬ (|p| ≤ |q|)
    exact not_le.2 h
  have hsg : npSign p = 1 := by
    unfold npSign
    have : Flt.sgn p = some 1 := by
      show some _ = some _
      rw [if_neg (not_lt.2 hp.le), if_neg hp.ne']
    rw [this]
    show ((1 : Int) : ℝ) = 1
    norm_num
  unfold maxComp
  rw [hs]
  show Except.ok ((0 : Int) + 1, Flt.abs p * npSign p) = _
  rw [hsg, show Flt.abs p = p from abs_of_pos hp, mul_one]
  rfl

theorem realSigned (p : ℝ) (hp : 0 < p) : signedIdx 1 p = .ok 1 := by
  unfold signedIdx
  have : Flt.sgn p = some 1 := by
    show some _ = some _
    rw [if_neg (not_lt.2 hp.le), if_neg hp.ne']
  rw [this]
  rfl

/-- The predictor selects component 1. -/
theorem realPre : ∃ a, a.f0red = [1] ∧ predictor realEnv realSpring realCfg
    ⟨[0, 0], [1/10, 1/4], 2, 1, 4, realA⟩ = .ok ⟨false, 1, 1, 1, [1/4, 1/4], 5/2, a⟩ := by
  refine ⟨{ realA with j := 2, Kmod := [[1, -1], [0, 1]] }, rfl, ?_⟩
  unfold predictor
  rw [if_pos ⟨by decide, rfl⟩]
  have ht : target ([0, 0] : List ℝ) [1/10, 1/4] 2 = .ok (1/4) := by
    show Except.ok ((0 : ℝ) + 1/4 * ((1 : Int) : ℝ)) = _
    norm_num
  simp only [ht, bind, Except.bind]
  rw [show realCfg.ftol = 1/1000 from rfl, show realCfg.xtol = 1/1000 from rfl, realNewton_pre realA rfl]
  simp only
  have e1 : (vsub [1/4, 1/4] [0, 0] : List ℝ) = [1/4, 1/4] := by norm_num [vsub]
  have e2 : (vdiv [1/4, 1/4] [1/10, 1/4] : List ℝ) = [5/2, 1] := by norm_num [vdiv]
  rw [e1, e2, realMax (5/2) 1 (by norm_num) (by norm_num)]
  simp only
  rw [realSigned _ (by norm_num)]
  simp only [ite_self]
  rfl

/-- The only pass accepts `u = lpf = 1/10` and increases the step width. -/
theorem realPass (a : Analysis ℝ) (ha : a.f0red = [1]) : ∃ st, attempt realEnv realSpring realCfg
    ⟨[0, 0], [1/10, 1/4], 1, [1/4, 1/4], 5/2⟩ ⟨[0, 0], 0, 1, [1/10, 1/4], 1, 4, a⟩ = .ok (st, some .accepted) ∧
      st.x = [1/10, 1/10] ∧ st.a.dVmax = some [1/10, 1/4] ∧ st.a.j = 1 := by
  unfold attempt
  have ht : target ([0, 0] : List ℝ) [1/10, 1/4] 1 = .ok (1/10) := by
    show Except.ok ((0 : ℝ) + 1/10 * ((1 : Int) : ℝ)) = _
    norm_num
  simp only [ht, bind, Except.bind]
  rw [if_pos ⟨trivial, by decide, rfl⟩]
  have e0 : (vadd [0, 0] (([1/4, 1/4] : List ℝ).map fun v => v / Flt.abs (5/2 : ℝ))) = [1/10, 1/10] := by
    have : Flt.abs (5/2 : ℝ) = 5/2 := abs_of_pos (by norm_num)
    rw [this]
    norm_num [vadd]
  rw [e0, show realCfg.ftol = 1/1000 from rfl, show realCfg.xtol = 1/1000 from rfl,
    show realCfg.nfev - 1 = 7 from rfl, realNewton a ha]
  simp only
  have e1 : (vsub [1/10, 1/10] [0, 0] : List ℝ) = [1/10, 1/10] := by norm_num [vsub]
  have e2 : (vdiv [1/10, 1/10] [1/10, 1/4] : List ℝ) = [1, 2/5] := by norm_num [vdiv]
  rw [e1, e2, realMax 1 (2/5) (by rw [abs_of_pos, abs_of_pos] <;> norm_num) (by norm_num)]
  simp only [List.length_cons, List.length_nil]
  rw [if_neg (by decide)]
  have hj : nextJ realCfg 1 1 1 = .ok 1 := realSigned 1 (by norm_num)
  rw [hj]
  simp only
  have hv : solutionValid realCfg [1/10, 1/10] [1/10, 1/4] 1 = .ok true := by
    unfold solutionValid
    rw [if_neg (by simp [realCfg]), e2]
    show Except.ok (decide (|(1 : ℝ)| ≤ 101/100) && (decide (|(2/5 : ℝ)| ≤ 101/100) && true)) = _
    have h1 : |(1 : ℝ)| ≤ 101/100 := by rw [abs_one]; norm_num
    have h2 : |(2/5 : ℝ)| ≤ 101/100 := by rw [abs_of_pos] <;> norm_num
    rw [decide_eq_true h1, decide_eq_true h2]
    rfl
  rw [hv]
  simp only
  have hw : ∃ dc, nextWidth realCfg ⟨[0, 0], [1/10, 1/4], 1, [1/4, 1/4], 5/2⟩
      ⟨[0, 0], 0, 1, [1/10, 1/4], 1, 4, a⟩ 1
      ⟨[1/10, 1/10], true, 1, Flt.vnorm ([0, 0] : List ℝ), Flt.vnorm ([0, 0] : List ℝ)⟩ = .ok dc := by
    unfold nextWidth dxmaxControl
    simp only [show realCfg.stepcontrol = true from rfl, if_true]
    have g0 : pyGet ([1/10, 1/4] : List ℝ) 0 = .ok (1/10) := rfl
    simp only [g0, bind, Except.bind]
    rw [if_neg (by simp)]
    split
    · exact ⟨_, rfl⟩
    · exact ⟨_, rfl⟩
  obtain ⟨dc, hdc⟩ := hw
  rw [hdc]
  simp only [Bool.and_self, if_true]
  rw [(realF _ _ _ _ _ _).2]
  exact ⟨_, rfl, rfl, rfl, rfl⟩

/-- The increment: the predictor selects component 1, then the solution `u = lpf = 1/10` is accepted. -/
theorem realRun : ∃ o, pathfollow realEnv realSpring realCfg 5 [0] realA = .ok o ∧
    o.recs.map (fun r => (r.x, r.a.dVmax, r.a.j, r.out)) = [([1/10, 1/10], some [1/10, 1/4], 1, .accepted)] := by
  obtain ⟨a, ha, hp⟩ := realPre
  obtain ⟨st, hst, h1, h2, h3⟩ := realPass a ha
  unfold pathfollow
  have hd : initDxmax ([0] ++ [0] : List ℝ) realCfg.dxmax = [1/10, 1/4] := rfl
  have hj : startJ realCfg ([0] ++ [0] : List ℝ) = .ok 2 := rfl
  simp only [hd, hj, bind, Except.bind]
  rw [if_neg (by simp), show realCfg.incs = 1 from rfl]
  have hinc : ∃ s', increment realEnv realSpring realCfg [1/10, 1/4] 5
      ⟨[0] ++ [0], [1/10, 1/4], 2, if realCfg.jPre then 1 else 0, 4, realA⟩ = .ok (s', .accepted) ∧
      s'.x = st.x ∧ s'.a.dVmax = st.a.dVmax ∧ s'.a.j = st.a.j := by
    unfold increment solveInc
    rw [show (if realCfg.jPre then (1 : Int) else 0) = 1 from rfl, show ([0] ++ [0] : List ℝ) = [0, 0] from rfl, hp]
    simp only [bind, Except.bind]
    rw [if_neg (by simp)]
    unfold recycle
    rw [hst]
    simp only [bind, Except.bind, pure, Except.pure]
    rw [h1]
    exact ⟨_, rfl, rfl, rfl, rfl⟩
  obtain ⟨s', hs', k1, k2, k3⟩ := hinc
  unfold incrLoop
  rw [hs']
  simp only [bind, Except.bind, limitReached, show realCfg.xlimit = none from rfl, incrLoop]
  refine ⟨_, rfl, ?_⟩
  show [(s'.x, s'.a.dVmax, s'.a.j, Outcome.accepted)] = _
  rw [k1, k2, k3, h1, h2, h3]

theorem realEnv_argmax : ArgMax realEnv := by
  intro l hl
  classical
  have hperm := List.perm_insertionSort (fun i j : Nat => l.getD i 0 ≤ l.getD j 0) (List.range l.length)
  have : Std.Total (fun i j : Nat => l.getD i 0 ≤ l.getD j 0) := ⟨fun a b => le_total _ _⟩
  have : IsTrans Nat (fun i j : Nat => l.getD i 0 ≤ l.getD j 0) := ⟨fun a b c h1 h2 => le_trans h1 h2⟩
  have hsort := List.pairwise_insertionSort (fun i j : Nat => l.getD i 0 ≤ l.getD j 0) (List.range l.length)
  set s := (List.range l.length).insertionSort fun i j => l.getD i 0 ≤ l.getD j 0 with hs
  have hs' : realEnv.argsortF l = s := by
    show List.insertionSort _ _ = _
    rw [hs]
  have hne : s ≠ [] := by
    intro h
    have := hperm.length_eq
    rw [h] at this
    simp at this
    exact hl (List.length_eq_zero_iff.1 this.symm)
  have hmem : s.getLast hne < l.length := List.mem_range.1 (hperm.mem_iff.1 (List.getLast_mem hne))
  refine ⟨s.getLast hne, l[s.getLast hne], by rw [hs', List.getLast?_eq_some_getLast hne], List.getElem?_eq_getElem _, ?_⟩
  intro w hw
  obtain ⟨k, hk, rfl⟩ := List.getElem_of_mem hw
  have hks : k ∈ s := hperm.mem_iff.2 (List.mem_range.2 hk)
  have hlast : l.getD k 0 ≤ l.getD (s.getLast hne) 0 := by
    rw [← List.dropLast_append_getLast hne] at hks hsort
    rw [List.pairwise_append] at hsort
    rcases List.mem_append.1 hks with h | h
    · exact hsort.2.2 k h _ (List.mem_singleton.2 rfl)
    · rw [List.mem_singleton.1 h]
  simpa [List.getD, hk, hmem] using hlast

end TrussPy
