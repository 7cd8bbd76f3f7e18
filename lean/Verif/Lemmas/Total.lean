import Verif.Spec.Valid
import Verif.Lemmas.Run
import Verif.Lemmas.Fuel
import Verif.Lemmas.Width
import Verif.Props.Eval
/-!
# Path following and runs that return
-/

set_option linter.unusedSectionVars false

namespace TrussPy

variable {F : Type} [Zero F] [One F] [Add F] [Sub F] [Mul F] [Div F] [Neg F] [Flt F]

theorem pyGet_total {α : Type} {l : List α} {i : Int} (h0 : -(l.length : Int) ≤ i) (h1 : i < l.length) :
    ∃ v, pyGet l i = .ok v := by
  unfold pyGet
  simp only
  generalize hk : (if 0 ≤ i then i else i + (l.length : Int)) = k
  have hk0 : 0 ≤ k ∧ k < l.length := by
    rw [← hk]; split <;> omega
  rw [if_neg (by omega), List.getElem?_eq_getElem (by omega)]
  exact ⟨_, rfl⟩

theorem pyGet_control {α : Type} {l : List α} {j : Int} (h : j.natAbs ≤ l.length) (h1 : 1 ≤ l.length) :
    ∃ v, pyGet l (j.natAbs - 1) = .ok v := pyGet_total (by omega) (by omega)

theorem pySet_control {α : Type} {l : List α} {j : Int} (v : α) (h : j.natAbs ≤ l.length) (h1 : 1 ≤ l.length) :
    ∃ l', pySet l (j.natAbs - 1) v = .ok l' ∧ l'.length = l.length := by
  unfold pySet
  simp only
  generalize hk : (if (0 : Int) ≤ (j.natAbs : Int) - 1 then (j.natAbs : Int) - 1 else (j.natAbs : Int) - 1 + (l.length : Int)) = k
  have hk0 : 0 ≤ k ∧ k < l.length := by
    rw [← hk]; split <;> omega
  rw [if_neg (by omega)]
  exact ⟨_, rfl, by simp⟩

/-- The functions of the problem return on vectors with `n` displacements, for analysis objects with property `Good`,
which they preserve. -/
structure Problem.Runs (P : Problem F) (n : Nat) (Good : Analysis F → Prop) : Prop where
  g : ∀ a V V0 w, Good a → V.length = n + 1 → V0.length = n + 1 →
    ∃ a' r, P.g a V V0 w = .ok (a', r) ∧ Good a' ∧ r.length = n
  dgdx : ∀ a U, Good a → U.length = n →
    ∃ a' K, P.dgdx a U = .ok (a', K) ∧ Good a' ∧ K.length = n ∧ ∀ row ∈ K, row.length = n
  f0 : ∀ a, Good a → a.f0red.length = n
  book : ∀ (a : Analysis F) (j : Int) (K : List (List F)) (dV : Option (List F)), Good a →
    Good { a with j := j, Kmod := K, dVmax := dV }
  save : ∀ (a : Analysis F) (V u : List F) (l : F), Good a → u.length = n →
    Good { a with Vred := V, Ured := u, lpf := some l }

section
variable {P : Problem F} {n : Nat} {Good : Analysis F → Prop}

theorem extF_total (hP : P.Runs n Good) {V0 V : List F} {j : Int} (Vmax : F) (w : Bool) {a : Analysis F} (ha : Good a)
    (hV : V.length = n + 1) (hV0 : V0.length = n + 1) (hj : j.natAbs ≤ n + 1) :
    ∃ a' r, extF P V0 j Vmax w a V = .ok (a', r) ∧ Good a' ∧ r.length = n + 1 := by
  obtain ⟨a', r, h1, h2, h3⟩ := hP.g { a with j := j } V V0 w (hP.book a j a.Kmod a.dVmax ha) hV hV0
  obtain ⟨v, hv⟩ := pyGet_control (l := V) (j := j) (by omega) (by omega)
  unfold extF
  simp only [h1, py_bind_ok, hv]
  exact ⟨_, _, rfl, h2, by simp [h3]⟩

theorem extDf_total (hP : P.Runs n Good) {V : List F} {j : Int} {a : Analysis F} (ha : Good a)
    (hV : V.length = n + 1) (hj : j.natAbs ≤ n + 1) :
    ∃ a' K, extDf P j a V = .ok (a', K) ∧ Good a' ∧ K.length = n + 1 ∧ ∀ row ∈ K, row.length = n + 1 := by
  obtain ⟨a', K, h1, h2, h3, h4⟩ := hP.dgdx { a with j := j } V.dropLast (hP.book a j a.Kmod a.dVmax ha)
    (by rw [List.length_dropLast, hV]; rfl)
  obtain ⟨qc, hq, hql⟩ := pySet_control (l := List.replicate V.length (0 : F)) (j := j) 1 (by simp; omega) (by simp; omega)
  unfold extDf
  simp only [hq, h1, py_bind_ok]
  have hf := hP.f0 a' h2
  refine ⟨_, _, rfl, hP.book a' a'.j _ a'.dVmax h2, by simp [h3, hf], ?_⟩
  intro row hrow
  rcases List.mem_append.1 hrow with hrow | hrow
  · obtain ⟨k, hk, rfl⟩ := List.getElem_of_mem hrow
    simp only [List.getElem_zipWith, List.length_append, List.length_cons, List.length_nil]
    rw [h4 _ (List.getElem_mem _)]
  · rw [List.mem_singleton.1 hrow, hql]
    simp [hV]

theorem newtonLoop_total {S : Type} {f : S → List F → Py (S × List F)} {df : S → List F → Py (S × List (List F))}
    {sp : List (List F) → List F → Py (List F)} {ftol xtol : F} {m : Nat} {Good : S → Prop}
    (hf : ∀ s x, Good s → x.length = m → ∃ s' r, f s x = .ok (s', r) ∧ Good s' ∧ r.length = m)
    (hdf : ∀ s x, Good s → x.length = m → ∃ s' K, df s x = .ok (s', K) ∧ Good s' ∧ K.length = m ∧
      ∀ row ∈ K, row.length = m)
    (hsp : ∀ A b, A.length = m → (∀ row ∈ A, row.length = m) → b.length = m → ∃ dx, sp A b = .ok dx ∧ dx.length = m) :
    ∀ (k : Nat) (c : Int) (s : S) (x : List F), 0 < k → Good s → x.length = m →
      ∃ s' o, newtonLoop f df sp ftol xtol k c s x = .ok (s', o) ∧ Good s' ∧ o.x.length = m
  | 0, _, _, _, h, _, _ => absurd h (by omega)
  | k + 1, c, s, x, _, hs, hx => by
    obtain ⟨s1, J, h1, g1, h2, h3⟩ := hdf s x hs hx
    obtain ⟨s2, fx, h4, g2, h5⟩ := hf s1 x g1 hx
    obtain ⟨dx, h6, h7⟩ := hsp J (fx.map fun v => -v) h2 h3 (by simp [h5])
    have hxl : (vadd x dx).length = m := by simp [vadd, hx, h7]
    obtain ⟨s3, fx', h8, g3, h9⟩ := hf s2 (vadd x dx) g2 hxl
    unfold newtonLoop
    simp only [h1, h4, h6, py_bind_ok]
    rw [if_neg (by rw [h7, hx]; simp)]
    simp only [h8, py_bind_ok]
    split
    · exact ⟨_, _, rfl, g3, hxl⟩
    · cases k with
      | zero => exact ⟨_, _, rfl, g3, hxl⟩
      | succ k => exact newtonLoop_total hf hdf hsp (k + 1) (c + 1) s3 _ (by omega) g3 hxl

theorem newton_total (hP : P.Runs n Good) {env : Env F} (hE : env.Returns (n + 1)) {V0 x : List F} {j : Int} (Vmax : F)
    {a : Analysis F} {nfev : Int} (ftol xtol : F) (ha : Good a) (hx : x.length = n + 1) (hV0 : V0.length = n + 1)
    (hj : j.natAbs ≤ n + 1) (hn : 1 ≤ nfev) :
    ∃ a' o, newton (extF P V0 j Vmax false) (extDf P j) env.spsolve a x nfev ftol xtol = .ok (a', o) ∧ Good a' ∧
      o.x.length = n + 1 ∧ o.n ≤ nfev := by
  obtain ⟨a', o, h1, h2, h3⟩ := newtonLoop_total (f := extF P V0 j Vmax false) (df := extDf P j) (sp := env.spsolve)
    (ftol := ftol) (xtol := xtol)
    (fun s x hs hx => extF_total hP Vmax false hs hx hV0 hj) (fun s x hs hx => extDf_total hP hs hx hj)
    hE.solve nfev.toNat 0 a x (by omega) ha hx
  obtain ⟨its, last, -, r2, r3, -⟩ := newtonLoop_spec _ _ _ _ _ _ h1
  exact ⟨a', o, h1, h2, h3, by omega⟩

theorem maxComp_total {env : Env F} {m : Nat} (hE : env.Returns m) {d : List F} (hd : d ≠ []) :
    ∃ i v, maxComp env d = .ok (i, v) ∧ 1 ≤ i ∧ i ≤ d.length := by
  obtain ⟨i, h1, h2⟩ := hE.sort (d.map Flt.abs) (by simpa using hd)
  rw [List.length_map] at h2
  unfold maxComp
  rw [h1]
  simp only
  rw [List.getElem?_eq_getElem h2]
  exact ⟨_, _, rfl, by omega, by omega⟩

theorem signedIdx_total (hs : SignTotal F) {i : Int} (v : F) {m : Nat} (h1 : 1 ≤ i) (h2 : i ≤ m) :
    ∃ j, signedIdx i v = .ok j ∧ j.natAbs ≤ m := by
  obtain ⟨s, k1, k2⟩ := hs v
  unfold signedIdx
  rw [k1]
  refine ⟨_, rfl, ?_⟩
  rw [Int.natAbs_mul]
  calc i.natAbs * s.natAbs ≤ i.natAbs * 1 := Nat.mul_le_mul_left _ k2
    _ ≤ m := by omega

theorem target_total {x d : List F} {j : Int} {m : Nat} (hx : x.length = m + 1) (hd : d.length = m + 1)
    (hj : j.natAbs ≤ m + 1) : ∃ t, target x d j = .ok t := by
  obtain ⟨u, hu⟩ := pyGet_control (l := x) (j := j) (by omega) (by omega)
  obtain ⟨v, hv⟩ := pyGet_control (l := d) (j := j) (by omega) (by omega)
  unfold target
  simp only [hu, hv, py_bind_ok]
  exact ⟨_, rfl⟩

theorem nextWidth_total {cfg : PFCfg F} {rc : RCtx F} {st : RState F} (j : Int) (nr : NewtonOut F) {m : Nat}
    (h1 : st.dxmax.length = m + 1) (h0 : rc.dxmax0.length = m + 1) :
    ∃ o, nextWidth cfg rc st j nr = .ok o := by
  unfold nextWidth
  split
  · unfold dxmaxControl
    obtain ⟨u, hu⟩ := pyGet_total (l := st.dxmax) (i := 0) (by omega) (by omega)
    obtain ⟨v, hv⟩ := pyGet_total (l := rc.dxmax0) (i := 0) (by omega) (by omega)
    simp only [hu, hv, py_bind_ok]
    repeat' split
    all_goals exact ⟨_, rfl⟩
  · exact ⟨_, rfl⟩

/-- State of the recycle loop with the right sizes. -/
structure RState.Sized (st : RState F) (cfg : PFCfg F) (n : Nat) (G : Analysis F → Prop) : Prop where
  a : G st.a
  x : st.x.length = n + 1
  dxmax : st.dxmax.length = n + 1
  j : st.j.natAbs ≤ n + 1
  nfev : 1 ≤ cfg.nfev - st.nPre

theorem attempt_total (hs : SignTotal F) (hP : P.Runs n Good) {env : Env F} (hE : env.Returns (n + 1)) {cfg : PFCfg F}
    {rc : RCtx F} {st : RState F} (hn : 1 ≤ n) (hnf : 1 ≤ cfg.nfev) (hx0 : rc.x0.length = n + 1) (hr : rc.Fits cfg)
    (hst : st.Sized cfg n Good) :
    ∃ st' o, attempt env P cfg rc st = .ok (st', o) ∧ st'.Sized cfg n Good := by
  obtain ⟨xmax, h1⟩ := target_total hx0 hst.dxmax hst.j
  have hstart : (if st.z = 0 ∧ rc.jPre ≠ 0 ∧ cfg.jFixed = false then
      vadd rc.x0 (rc.DxPre.map fun v => v / Flt.abs rc.vPre) else rc.x0).length = n + 1 := by
    split
    · next hc => simp [vadd, hr.2 hc.2.1 hc.2.2, hx0]
    · exact hx0
  obtain ⟨a1, nr, h2, g1, hxl, -⟩ := newton_total hP hE xmax cfg.ftol cfg.xtol hst.a hstart hx0 hst.j hst.nfev
  have hdl : (vdiv (vsub nr.x rc.x0) st.dxmax).length = n + 1 := by simp [vdiv, vsub, hxl, hx0, hst.dxmax]
  obtain ⟨i1, v1, h3, hi1, hi2⟩ := maxComp_total hE (d := vdiv (vsub nr.x rc.x0) st.dxmax)
    (by intro h; rw [h] at hdl; simp at hdl)
  rw [hdl] at hi2
  obtain ⟨j, h4, hj⟩ : ∃ j, nextJ cfg st.j i1 v1 = .ok j ∧ j.natAbs ≤ n + 1 := by
    unfold nextJ
    split
    · exact ⟨_, rfl, hst.j⟩
    · exact signedIdx_total hs v1 hi1 hi2
  obtain ⟨valid, h5⟩ : ∃ b, solutionValid cfg (vsub nr.x rc.x0) st.dxmax j = .ok b := by
    unfold solutionValid
    split
    · obtain ⟨u, hu⟩ := pyGet_control (l := vsub nr.x rc.x0) (j := j) (by simp [vsub, hxl, hx0]; omega)
        (by simp [vsub, hxl, hx0])
      obtain ⟨v, hv⟩ := pyGet_control (l := st.dxmax) (j := j) (by rw [hst.dxmax]; omega) (by rw [hst.dxmax]; omega)
      simp only [hu, hv, py_bind_ok]
      exact ⟨_, rfl⟩
    · exact ⟨_, rfl⟩
  obtain ⟨dc, h6⟩ := nextWidth_total (cfg := cfg) (rc := rc) (st := st) j nr hst.dxmax (by rw [hr.1, hx0])
  have hdc := nextWidth_length h6 (by rw [hst.dxmax, hr.1, hx0])
  rw [hr.1, hx0] at hdc
  unfold attempt
  simp only [h1, py_bind_ok]
  rw [h2]
  simp only [py_bind_ok, h3]
  rw [if_neg (by omega)]
  simp only [h4, py_bind_ok, h5, h6]
  have g2 : Good { a1 with dVmax := some st.dxmax } := hP.book a1 a1.j a1.Kmod _ g1
  split
  · obtain ⟨a2, r, h7, g3, -⟩ := extF_total hP xmax true g2 hxl hx0 hst.j
    rw [h7]
    simp only [py_bind_ok]
    exact ⟨_, _, rfl, g3, hxl, hdc, hj, hst.nfev⟩
  · split
    · exact ⟨_, _, rfl, g2, hxl, hdc, hj, hst.nfev⟩
    · split
      · exact ⟨_, _, rfl, g2, hxl, hdc, hj, hst.nfev⟩
      · refine ⟨_, _, rfl, g2, hxl, hdc, ?_, ?_⟩
        · simp only
          split
          · exact hj
          · exact hst.j
        · simp only
          omega

theorem recycle_total (hs : SignTotal F) (hP : P.Runs n Good) {env : Env F} (hE : env.Returns (n + 1)) {cfg : PFCfg F}
    {rc : RCtx F} (hn : 1 ≤ n) (hnf : 1 ≤ cfg.nfev) (hx0 : rc.x0.length = n + 1) (hr : rc.Fits cfg) :
    ∀ (N : Nat) (st : RState F), (∀ m st1, Passes env P cfg rc m st st1 → m < N) → st.Sized cfg n Good →
      ∀ k, N ≤ k → ∃ st' o, recycle env P cfg rc k st = .ok (st', o) ∧ st'.Sized cfg n Good
  | 0, st, hN, _, k, _ => absurd (hN 0 st (.zero _)) (by omega)
  | N + 1, st, hN, hst, k, hk => by
    obtain ⟨k, rfl⟩ : ∃ k', k = k' + 1 := ⟨k - 1, by omega⟩
    obtain ⟨st1, o, ha, h1⟩ := attempt_total hs hP hE hn hnf hx0 hr hst
    unfold recycle
    rw [ha]
    simp only [py_bind_ok]
    cases o with
    | some o => exact ⟨_, _, rfl, h1⟩
    | none =>
      exact recycle_total hs hP hE hn hnf hx0 hr N st1
        (fun m st2 hp => by have := hN _ _ (.succ ha hp); omega) h1 k (by omega)

/-- State of the increment loop with the right sizes. -/
structure PState.Sized (s : PState F) (n : Nat) (G : Analysis F → Prop) : Prop where
  a : G s.a
  x : s.x.length = n + 1
  dxmax : s.dxmax.length = n + 1
  j : s.j.natAbs ≤ n + 1

theorem predictor_total (hs : SignTotal F) (hP : P.Runs n Good) {env : Env F} (hE : env.Returns (n + 1)) {cfg : PFCfg F}
    {s : PState F} (hst : s.Sized n Good) :
    ∃ p, predictor env P cfg s = .ok p ∧ Good p.a ∧ p.j.natAbs ≤ n + 1 ∧ p.nPre ≤ 1 := by
  unfold predictor
  split
  · obtain ⟨xmax, h1⟩ := target_total hst.x hst.dxmax hst.j
    obtain ⟨a1, nr, h2, g1, hxl, hnn⟩ := newton_total hP hE xmax cfg.ftol cfg.xtol hst.a hst.x hst.x hst.j (le_refl 1)
    have hdl : (vdiv (vsub nr.x s.x) s.dxmax).length = n + 1 := by simp [vdiv, vsub, hxl, hst.x, hst.dxmax]
    obtain ⟨i1, v1, h3, hi1, hi2⟩ := maxComp_total hE (d := vdiv (vsub nr.x s.x) s.dxmax)
      (by intro h; rw [h] at hdl; simp at hdl)
    rw [hdl] at hi2
    obtain ⟨j, h4, hj⟩ := signedIdx_total hs v1 hi1 hi2
    simp only [h1, py_bind_ok]
    rw [h2]
    simp only [py_bind_ok, h3, h4]
    exact ⟨_, rfl, g1, hj, hnn⟩
  · exact ⟨_, rfl, hst.a, hst.j, by simp⟩

theorem increment_total (hs : SignTotal F) (hP : P.Runs n Good) {env : Env F} (hE : env.Returns (n + 1)) {cfg : PFCfg F}
    {dxmax0 : List F} {I : PState F → Prop} {N : Nat} (hB : Bounded env P cfg dxmax0 I N) (hn : 1 ≤ n)
    (hnf : 2 ≤ cfg.nfev) (h0 : dxmax0.length = n + 1) {s : PState F} (hI : I s) (hst : s.Sized n Good) {fuel : Nat}
    (hf : N ≤ fuel) : ∃ s' o, increment env P cfg dxmax0 fuel s = .ok (s', o) ∧ s'.Sized n Good := by
  obtain ⟨p, h1, g1, hj, hp⟩ := predictor_total hs hP hE (cfg := cfg) hst
  have hpre := predictor_ok h1
  have hfit := hpre.fits (dxmax0 := dxmax0) (by rw [h0, hst.x])
  unfold increment solveInc
  simp only [h1, py_bind_ok]
  have hlast : ∀ x : List F, x.length = n + 1 → ∃ l, x.getLast? = some l := by
    intro x hx
    cases h : x.getLast? with
    | none => rw [List.getLast?_eq_none_iff.1 h] at hx; simp at hx
    | some l => exact ⟨l, rfl⟩
  by_cases hsu : p.success = true
  · simp only [hsu, if_true]
    obtain ⟨l, hl⟩ := hlast s.x hst.x
    simp only [py_pure, py_bind_ok, hl]
    exact ⟨_, _, rfl, hP.save _ _ _ _ g1 (by rw [List.length_dropLast, hst.x]; rfl), hst.x, hst.dxmax, hj⟩
  · obtain ⟨st', o, h2, hg⟩ := recycle_total hs hP hE (cfg := cfg) (rc := s.rctx p dxmax0) hn (by omega) hst.x hfit N
      (s.start p) (fun m st1 h => hB s p hI hpre m st1 h)
      ⟨g1, hst.x, hst.dxmax, hj, by simp only [PState.start]; omega⟩ fuel hf
    simp only [PState.rctx, PState.start] at h2
    simp only [hsu, Bool.false_eq_true, if_false, h2, py_bind_ok]
    obtain ⟨l, hl⟩ := hlast st'.x hg.x
    simp only [py_pure, py_bind_ok, hl]
    exact ⟨_, _, rfl, hP.save _ _ _ _ hg.a (by rw [List.length_dropLast, hg.x]; rfl), hg.x, hg.dxmax, hg.j⟩

theorem limitReached_total {x : List F} {l : Option (Int × F)} (hl : ∀ p, l = some p → IndexOK x.length p.1) :
    ∃ b, limitReached x l = .ok b := by
  cases l with
  | none => exact ⟨_, rfl⟩
  | some p =>
    obtain ⟨i, lim⟩ := p
    obtain ⟨h1, h2⟩ := hl _ rfl
    obtain ⟨v, hv⟩ := pyGet_total (l := x) (i := i - 1) (by simp only at h1; omega) (by simp only at h2; omega)
    unfold limitReached
    simp only [hv, py_bind_ok]
    exact ⟨_, rfl⟩

theorem incrLoop_total (hs : SignTotal F) (hP : P.Runs n Good) {env : Env F} (hE : env.Returns (n + 1)) {cfg : PFCfg F}
    {dxmax0 : List F} {I : PState F → Prop} (hI : ∀ s s' o, I s → IsInc env P cfg dxmax0 s s' o → I s') {N : Nat}
    (hB : Bounded env P cfg dxmax0 I N) (hn : 1 ≤ n) (hnf : 2 ≤ cfg.nfev) (h0 : dxmax0.length = n + 1)
    (hl : ∀ p, cfg.xlimit = some p → IndexOK (n + 1) p.1) {fuel : Nat} (hf : N ≤ fuel) :
    ∀ (k : Nat) (s : PState F), I s → s.Sized n Good →
      ∃ s' recs, incrLoop env P cfg dxmax0 fuel k s = .ok (s', recs) ∧ s'.Sized n Good ∧ ∀ r ∈ recs, Good r.a
  | 0, s, _, hg => ⟨_, _, rfl, hg, by simp⟩
  | k + 1, s, hi, hg => by
    obtain ⟨s1, o, h1, g1⟩ := increment_total hs hP hE hB hn hnf h0 hi hg hf
    have hi1 := hI _ _ _ hi (increment_ok h1)
    obtain ⟨lim, h2⟩ := limitReached_total (x := s1.x) (l := cfg.xlimit) (by rw [g1.x]; exact hl)
    obtain ⟨s2, recs, h3, g2, g3⟩ := incrLoop_total hs hP hE hI hB hn hnf h0 hl hf k s1 hi1 g1
    unfold incrLoop
    simp only [h1, py_bind_ok]
    split
    · exact ⟨_, _, rfl, g1, by simpa using g1.a⟩
    · simp only [h2, py_bind_ok]
      split
      · exact ⟨_, _, rfl, g1, by simpa using g1.a⟩
      · simp only [h3, py_bind_ok]
        refine ⟨_, _, rfl, g2, ?_⟩
        intro r hr
        rcases List.mem_cons.1 hr with rfl | hr
        · exact g1.a
        · exact g3 r hr

/-- `pathfollow` returns. -/
theorem pathfollow_total (hs : SignTotal F) (hP : P.Runs n Good) {env : Env F} (hE : env.Returns (n + 1))
    {cfg : PFCfg F} {du dl : F} (hdx : cfg.dxmax = .vec [du, dl]) (hn : 1 ≤ n) (hnf : 2 ≤ cfg.nfev)
    (hj : cfg.jFixed = true → ∃ j, cfg.j = some j ∧ j.natAbs ≤ n + 1)
    (hl : ∀ p, cfg.xlimit = some p → IndexOK (n + 1) p.1) {x : List F} {a : Analysis F} (hx : x.length = n) (ha : Good a)
    {I : PState F → Prop} (hI0 : ∀ j, I (pfStart cfg x a j))
    (hI : ∀ s s' o, I s → IsInc env P cfg (initDxmax (x ++ [0]) cfg.dxmax) s s' o → I s') {N : Nat}
    (hB : Bounded env P cfg (initDxmax (x ++ [0]) cfg.dxmax) I N) {fuel : Nat} (hf : N ≤ fuel) :
    ∃ o, pathfollow env P cfg fuel x a = .ok o ∧ Good o.final ∧ ∀ r ∈ o.recs, Good r.a := by
  have hlen : (initDxmax (x ++ [0]) cfg.dxmax).length = n + 1 := by
    rw [hdx]; simp [initDxmax, hx]
  obtain ⟨j, h1, hj1⟩ : ∃ j, startJ cfg (x ++ [0]) = .ok j ∧ j.natAbs ≤ n + 1 := by
    unfold startJ
    split
    · next hfx =>
      obtain ⟨j, e, hj⟩ := hj hfx
      rw [e]
      exact ⟨j, rfl, hj⟩
    · exact ⟨_, rfl, by simp [hx]; omega⟩
  obtain ⟨s', recs, h2, g1, g2⟩ := incrLoop_total hs hP hE hI hB hn hnf hlen hl hf cfg.incs (pfStart cfg x a j) (hI0 j)
    ⟨ha, by simp [pfStart, hx], hlen, hj1⟩
  unfold pathfollow
  simp only [h1, py_bind_ok]
  rw [if_neg (by rw [hlen]; simp [hx])]
  simp only [pfStart] at h2
  rw [h2]
  simp only [py_bind_ok]
  exact ⟨_, rfl, g1.a, g2⟩

end

/-! ## The model's own problem -/

theorem eval_row {b : Bar F} {U U0 row row' : List F} {o : TrussOut F} (h : b.eval U U0 (some row) = .ok o)
    (h' : o.statev = some row') : row'.length = row.length := by
  unfold Bar.eval trussCore at h
  obtain ⟨out, h1, h⟩ := py_bind_eq_ok.1 h
  obtain ⟨A, -, h⟩ := py_bind_eq_ok.1 h
  cases h
  exact umat_row h1 h'

/-- Analysis object between two steps: right sizes, a load factor. -/
structure Analysis.Base (c : Ctx F) (a : Analysis F) : Prop where
  fits : a.Fits c
  statev : ∀ sv, a.statev = some sv → ∀ row ∈ sv, row.length = c.nstatev
  dofs : a.DOF1.length = c.ndof1
  lpf : a.lpf.isSome
  Ured : a.Ured.length = c.ndof1

/-- Analysis object within a step: also the loads are there. -/
structure Analysis.Ready (c : Ctx F) (a : Analysis F) : Prop where
  base : a.Base c
  ext : ∃ ef, a.extForces = some ef ∧ ef.forces.length = 3 * c.nnodes ∧ ef.forcesConst.length = 3 * c.nnodes
  f0 : a.f0red.length = c.ndof1

theorem Analysis.Ready.frame {c : Ctx F} {w : Bool} {a a' : Analysis F} (h : a.Ready c) (hf : Frame w a a')
    (hs : ∀ sv, a'.statev = some sv → ∀ row ∈ sv, row.length = c.nstatev) (hl : a'.lpf.isSome) : a'.Ready c where
  base := ⟨hf.fits h.base.fits, hs, by rw [hf.dof1]; exact h.base.dofs, hl, by rw [hf.Ured]; exact h.base.Ured⟩
  ext := by rw [hf.ext]; exact h.ext
  f0 := by rw [hf.f0red]; exact h.f0

theorem modelProblem_runs {c : Ctx F} {bars : List (Bar F)} (hB : c.Bars bars) (hC : ∀ b ∈ bars, b.Complete c.nstatev) :
    (modelProblem c).Runs c.ndof1 (Analysis.Ready c) where
  g := by
    intro a V V0 w ha hV hV0
    obtain ⟨ef, e1, e2, e3⟩ := ha.ext
    obtain ⟨⟨a', g⟩, h⟩ := (C56_evaluation_total hB ha.base.fits hC ha.base.statev e1 e2 e3 ha.base.dofs hV hV0 w).1
    obtain ⟨lpf, u, u0, U, U0, outs, ef', gg, p1, p2, p3, p4, p5, p6, p7, hA⟩ := equilibrium_G hB ha.base.fits h
    refine ⟨a', g, h, ha.frame (equilibrium_frame h).1 ?_ ?_, ?_⟩
    · intro sv hsv row hrow
      rw [hA] at hsv
      unfold afterG at hsv
      simp only at hsv
      split at hsv
      · next hw =>
        simp only [Bool.and_eq_true, decide_eq_true_eq] at hw
        cases hsv
        obtain ⟨o, ho, rfl⟩ := List.mem_map.1 hrow
        obtain ⟨i, hi⟩ := List.getElem?_of_mem ho
        have hil := (List.getElem?_eq_some_iff.1 hi).1
        rw [evalAll_length p4] at hil
        obtain ⟨o', ho', hev⟩ := evalAll_get p4 (List.getElem?_eq_getElem hil)
        rw [hi] at ho'; cases ho'
        obtain ⟨sv0, s1, s2⟩ := ha.base.fits.statev hw.1.2
        have hr : stateRow c a.statev (0 + i) = some (sv0[i]'(by rw [s2, ← hB.length]; exact hil)) := by
          unfold stateRow
          rw [if_pos hw.1.2, s1, Nat.zero_add]
          exact List.getElem?_eq_getElem _
        rw [hr] at hev
        obtain ⟨row', hrow'⟩ := Option.isSome_iff_exists.1 (eval_statev hev)
        rw [hrow', Option.getD_some, eval_row hev hrow']
        exact ha.base.statev sv0 s1 _ (List.getElem_mem _)
      · exact ha.base.statev sv hsv row hrow
    · rw [hA]
      unfold afterG
      simp only
      split
      · rfl
      · exact ha.base.lpf
    · have := npTake_eq_map (0 : F) (npTake_ok_lt p7)
      rw [p7] at this
      rw [Except.ok.inj this, List.length_map]
      exact ha.base.dofs
  dgdx := by
    intro a U ha hU
    obtain ⟨ef, e1, e2, e3⟩ := ha.ext
    have hV : (U ++ [(0 : F)]).length = c.ndof1 + 1 := by simp [hU]
    obtain ⟨⟨a', K⟩, h⟩ := (C56_evaluation_total hB ha.base.fits hC ha.base.statev e1 e2 e3 ha.base.dofs hV hV false).2
      ha.base.lpf
    rw [List.dropLast_concat] at h
    obtain ⟨lpf, u, u0, U', U0, outs, p1, p2, p3, p4, p5, p6⟩ := stiffness_inv hB ha.base.fits h
    have hfr := stiffness_frame h
    refine ⟨a', K, h, ha.frame hfr ?_ ?_, ?_, ?_⟩
    · rw [hfr.statev rfl]; exact ha.base.statev
    · rw [hfr.lpf rfl]; exact ha.base.lpf
    · rw [p5, List.length_map]; exact ha.base.dofs
    · intro row hrow
      rw [p5] at hrow
      obtain ⟨p, -, rfl⟩ := List.mem_map.1 hrow
      rw [List.length_map]; exact ha.base.dofs
  f0 := fun a ha => ha.f0
  book := by
    intro a j K dV ha
    exact ⟨⟨⟨ha.base.fits.U, ha.base.fits.U0, ha.base.fits.r, ha.base.fits.K, ha.base.fits.Krow, ha.base.fits.stretch,
      ha.base.fits.force, ha.base.fits.stress, ha.base.fits.statev, ha.base.fits.dof, ha.base.fits.dofNodup⟩,
      ha.base.statev, ha.base.dofs, ha.base.lpf, ha.base.Ured⟩, ha.ext, ha.f0⟩
  save := by
    intro a V u l ha hu
    exact ⟨⟨fits_record ha.base.fits a.dVmax V u (some l), ha.base.statev, ha.base.dofs, rfl, hu⟩, ha.ext, ha.f0⟩

/-! ## Steps -/

theorem foldConst_total {rows : List (List F)} {le : List F} {w : Nat} :
    ∀ n, n ≤ le.length → (∀ s, s < n → (stepSlice rows s).flatten.length = w) → ∀ z : List F, z.length = w →
      ∃ fc, (List.range n).foldlM (fun acc (s : Nat) => do
        let l ← pyGet le (s : Int)
        addScaled acc l (stepSlice rows s).flatten) z = .ok fc ∧ fc.length = w := by
  intro n
  induction n with
  | zero => intro _ _ z hz; exact ⟨z, rfl, hz⟩
  | succ n ih =>
    intro hn hs z hz
    obtain ⟨fc, h1, h2⟩ := ih (by omega) (fun s h => hs s (by omega)) z hz
    obtain ⟨l, hl⟩ := pyGet_ok_of_lt (l := le) (n := n) (by omega)
    rw [List.range_succ, List.foldlM_append, h1]
    have hlen := hs n (by omega)
    refine ⟨List.zipWith (fun p q => p + l * q) fc (stepSlice rows n).flatten, ?_, by simp [h2, hlen]⟩
    simp only [py_bind_ok, List.foldlM_cons, List.foldlM_nil]
    rw [hl]
    simp only [py_bind_ok]
    unfold addScaled
    rw [if_pos (by rw [h2, hlen])]
    rfl

theorem stepSlice_length {rows : List (List F)} {k w : Nat} (hw : ∀ r ∈ rows, r.length = w) (hk : 3 * (k + 1) ≤ w) :
    (stepSlice rows k).flatten.length = 3 * rows.length := by
  unfold stepSlice
  induction rows with
  | nil => rfl
  | cons r rows ih =>
    rw [List.map_cons, List.flatten_cons, List.length_append, ih fun r hr => hw r (by simp [hr])]
    rw [List.length_take, List.length_drop, hw r (by simp), List.length_cons]
    omega

theorem setStep_total {c : Ctx F} {rows : List (List F)} {le : List F} {k w : Nat} {a : Analysis F} (ha : a.Base c)
    (hr : rows.length = c.nnodes) (hw : ∀ r ∈ rows, r.length = w) (hk : 3 * (k + 1) ≤ w) (hl : k ≤ le.length) :
    ∃ a1, setStep rows le k a = .ok a1 ∧ a1.Ready c := by
  have hlen : ∀ s, s ≤ k → (stepSlice rows s).flatten.length = 3 * c.nnodes := by
    intro s hs
    rw [stepSlice_length hw (by omega), hr]
  obtain ⟨fc, h1, h2⟩ := foldConst_total (rows := rows) (le := le) k hl (fun s hs => hlen s (by omega))
    ((stepSlice rows k).flatten.map fun _ => 0) (by rw [List.length_map]; exact hlen k (le_refl k))
  have h3 := npTake_eq_map (0 : F) (l := (stepSlice rows k).flatten) (idx := a.DOF1)
    (fun i hi => by rw [hlen k (le_refl k)]; exact ha.fits.dof i hi)
  unfold setStep constLoad
  rw [h1]
  simp only [py_bind_ok, h3]
  refine ⟨_, rfl, ⟨⟨ha.fits.U, ha.fits.U0, ha.fits.r, ha.fits.K, ha.fits.Krow, ha.fits.stretch,
      ha.fits.force, ha.fits.stress, ha.fits.statev, ha.fits.dof, ha.fits.dofNodup⟩,
      ha.statev, ha.dofs, ha.lpf, ha.Ured⟩, ⟨_, rfl, hlen k (le_refl k), h2⟩, ?_⟩
  simp only [List.length_map]
  exact ha.dofs

/-- Path following returns from every ready analysis object. -/
def PathReturns (env : Env F) (fuel : Nat) (c : Ctx F) (s : Settings F) : Prop :=
  ∀ incs xl (a : Analysis F), IndexOK (c.ndof1 + 1) xl.1 → a.Ready c →
    ∃ o, pathfollow env (modelProblem c) (stepCfg s incs xl) fuel a.Ured a = .ok o ∧ o.final.Ready c ∧
      ∀ r ∈ o.recs, r.a.Ready c

theorem stepIncs_total {s : Settings F} {n : Nat} (hs : s.Sane n) {k : Nat} (hk : k < s.nsteps) :
    ∃ i, stepIncs s k = .ok i := by
  unfold stepIncs
  split
  · exact ⟨_, rfl⟩
  · next l h =>
    have := hs.incs l h
    exact pyGet_ok_of_lt (by omega)

theorem stepXlimit_total {s : Settings F} {n : Nat} (hs : s.Sane n) {k : Nat} (hk : k < s.nsteps) :
    ∃ x, stepXlimit s k = .ok x ∧ IndexOK (n + 1) x.1 := by
  unfold stepXlimit
  split
  · next j v h => exact ⟨_, rfl, hs.limit j v h⟩
  · next l h =>
    obtain ⟨h1, h2⟩ := hs.limits l h
    have hk' : k < l.length := by omega
    exact ⟨l[k], pyGet_ok_nat.2 (List.getElem?_eq_getElem hk'), h2 _ (List.getElem_mem hk')⟩

/-- State between two steps. -/
structure StepState (c : Ctx F) (k : Nat) (st : Analysis F × Results F) : Prop where
  base : st.1.Base c
  ends : st.2.stepLpfEnd.length = k
  last : ∃ X j, st.2.R = X ++ [j] ∧ j.lpf.isSome

theorem runStep_total {env : Env F} {fuel : Nat} {c : Ctx F} {s : Settings F} (hs : s.Sane c.ndof1)
    (hp : PathReturns env fuel c s) {rows : List (List F)} {w k : Nat} (hr : rows.length = c.nnodes)
    (hw : ∀ r ∈ rows, r.length = w) (hws : 3 * s.nsteps ≤ w) (hk : k < s.nsteps) {st : Analysis F × Results F}
    (hst : StepState c k st) : ∃ st', runStep env fuel c s rows st k = .ok st' ∧ (k + 1 < s.nsteps → StepState c (k + 1) st') := by
  obtain ⟨a, res⟩ := st
  obtain ⟨i, h1⟩ := stepIncs_total hs hk
  obtain ⟨x, h2, hx⟩ := stepXlimit_total hs hk
  obtain ⟨a1, h3, ha1⟩ := setStep_total (c := c) (rows := rows) (le := res.stepLpfEnd) (k := k) hst.base hr hw (by omega)
    (by have := hst.ends; simp only at this; omega)
  obtain ⟨o, h4, hf, hrec⟩ := hp i x a1 hx ha1
  obtain ⟨X, j, hR, hj⟩ := hst.last
  simp only at hR
  have hR' := foldl_recordOne (o.recs.map (·.a)) X j
  rw [← hR] at hR'
  have hlast : (((o.recs.map (·.a)).getLastD j).lpf).isSome := by
    rcases List.eq_nil_or_concat (o.recs.map (·.a)) with he | ⟨l, b, he⟩
    · rw [he]; exact hj
    · rw [he]
      simp only [List.concat_eq_append, List.getLastD_concat]
      have : b ∈ o.recs.map (·.a) := by rw [he]; simp
      obtain ⟨r, hr1, rfl⟩ := List.mem_map.1 this
      exact (hrec r hr1).base.lpf
  obtain ⟨l, hl⟩ := Option.isSome_iff_exists.1 hlast
  have h5 := syncU0_snoc (X ++ o.recs.map (·.a)) ((o.recs.map (·.a)).getLastD j)
  rw [← hR'] at h5
  have h6 : lastLpf ((X ++ o.recs.map (·.a)) ++ [((o.recs.map (·.a)).getLastD j).setU0 ((o.recs.map (·.a)).getLastD j).U])
      = .ok l := by
    unfold lastLpf
    rw [List.getLast?_concat]
    simp only [Analysis.setU0, hl]
  unfold runStep
  simp only [h1, h2, h3, h4, h5, py_bind_ok]
  rw [h6]
  simp only [py_bind_ok]
  split
  · refine ⟨_, rfl, fun _ => ⟨?_, ?_, ?_⟩⟩
    · obtain ⟨⟨b1, b2, b3, b4, b5⟩, -, -⟩ := hf
      exact ⟨⟨b1.U, b1.U0, b1.r, b1.K, b1.Krow, b1.stretch, b1.force, b1.stress, b1.statev, b1.dof, b1.dofNodup⟩, b2, b3,
        rfl, b5⟩
    · simp only [List.length_append, List.length_singleton]
      have := hst.ends
      simp only at this
      omega
    · refine ⟨_, _, rfl, ?_⟩
      simp only [Analysis.setU0]
      exact hlast
  · next hk => exact ⟨_, rfl, fun h => absurd h hk⟩

theorem steps_total {env : Env F} {fuel : Nat} {c : Ctx F} {s : Settings F} (hs : s.Sane c.ndof1)
    (hp : PathReturns env fuel c s) {rows : List (List F)} {w : Nat} (hr : rows.length = c.nnodes)
    (hw : ∀ r ∈ rows, r.length = w) (hws : 3 * s.nsteps ≤ w) {st : Analysis F × Results F} (hst : StepState c 0 st) :
    ∀ n, n ≤ s.nsteps → ∃ st', (List.range n).foldlM (runStep env fuel c s rows) st = .ok st' ∧
      (n < s.nsteps → StepState c n st')
  | 0, _ => ⟨st, rfl, fun _ => hst⟩
  | n + 1, hn => by
    obtain ⟨st1, h1, h2⟩ := steps_total hs hp hr hw hws hst n (by omega)
    obtain ⟨st2, h3, h4⟩ := runStep_total hs hp hr hw hws (by omega) (h2 (by omega))
    rw [List.range_succ, List.foldlM_append, h1]
    simp only [py_bind_ok, List.foldlM_cons, List.foldlM_nil, h3]
    exact ⟨st2, rfl, h4⟩

theorem run_total {env : Env F} {fuel : Nat} {m : Model F} {c : Ctx F} {a r0 : Analysis F} {ft : ForceTab F}
    (hc : m.ctx = some c) (ha : m.analysis = some a) (hres : m.results = some ⟨[r0], []⟩) (hf : m.forces = some ft)
    (hs : m.settings.Sane c.ndof1) (hp : PathReturns env fuel c m.settings) {w : Nat}
    (hr : ft.forces.rows.length = c.nnodes) (hw : ∀ r ∈ ft.forces.rows, r.length = w) (hws : 3 * m.settings.nsteps ≤ w)
    (hb : ({ a with Vred := a.Ured ++ [0], lpf := some 0 } : Analysis F).Base c) (hr0 : r0.lpf.isSome) :
    ∃ m', m.run env fuel = .ok m' := by
  obtain ⟨st', h1, -⟩ := steps_total hs hp hr hw hws (st := ({ a with Vred := a.Ured ++ [0], lpf := some 0 }, ⟨[r0, r0], []⟩))
    ⟨hb, rfl, [r0], r0, rfl, hr0⟩ m.settings.nsteps (le_refl _)
  unfold Model.run
  rw [if_neg (by
    rintro ⟨h1, h2⟩
    exact h2 (hs.log h1))]
  simp only [hc, ha, hres, hf, dupFirst, py_bind_ok]
  rw [h1]
  exact ⟨_, rfl⟩

/-! ## Path following of the model's own problem -/

theorem pathReturns_plain (hsg : SignTotal F) {env : Env F} {c : Ctx F} {bars : List (Bar F)} (hB : c.Bars bars)
    (hC : ∀ b ∈ bars, b.Complete c.nstatev) (hE : env.Returns (c.ndof1 + 1)) {s : Settings F} (hs : s.Sane c.ndof1)
    (hn : 1 ≤ c.ndof1) (hsc : s.stepcontrol = false) {fuel : Nat} (hf : s.cycl.toNat ≤ fuel) : PathReturns env fuel c s := by
  intro incs xl a hx ha
  refine pathfollow_total hsg (modelProblem_runs hB hC) hE (cfg := stepCfg s incs xl) rfl hn hs.nfev hs.control
    (fun p hp => by cases hp; exact hx) ha.base.Ured ha (I := fun _ => True) (fun _ => trivial)
    (fun _ _ _ _ _ => trivial) (N := s.cycl.toNat) ?_ hf
  intro st p _ _ n st1 hn
  have hcy := hs.cycl
  have := hn.bound_plain hsc (by simp [PState.start]) (by simp only [PState.start, stepCfg]; omega)
  simp only [PState.start, stepCfg] at this
  omega

theorem signTotal_real : SignTotal ℝ := by
  intro v
  refine ⟨_, rfl, ?_⟩
  split
  · decide
  · split <;> decide

theorem pathReturns_control {s : Settings ℝ} (hW : (stepCfg s 0 (0, 0)).WidthOK) (hdu : 0 < s.du) (hcy : 1 ≤ s.cycl) :
    ∃ N, ∀ (env : Env ℝ) (c : Ctx ℝ) (bars : List (Bar ℝ)), c.Bars bars → (∀ b ∈ bars, b.Complete c.nstatev) →
      env.Returns (c.ndof1 + 1) → s.Sane c.ndof1 → 1 ≤ c.ndof1 → ∀ fuel, N ≤ fuel → PathReturns env fuel c s := by
  by_cases hsc : s.stepcontrol = true
  swap
  · exact ⟨s.cycl.toNat, fun env c bars hB hC hE hs hn fuel hf =>
      pathReturns_plain signTotal_real hB hC hE hs hn (by simpa using hsc) hf⟩
  obtain ⟨R, hR⟩ : ∃ R : Nat, (stepCfg s 0 (0, 0)).hi ≤ s.minfac * s.reduce ^ R := by
    obtain ⟨R, hR⟩ := pow_unbounded_of_one_lt ((stepCfg s 0 (0, 0)).hi / s.minfac) hW.reduce_gt
    refine ⟨R, ?_⟩
    rw [div_lt_iff₀ (show 0 < s.minfac from hW.minfac_pos)] at hR
    have hR : (stepCfg s 0 (0, 0)).hi < s.reduce ^ R * s.minfac := hR
    linarith
  refine ⟨(((R : Int) + 1) * (s.cycl - 1) + 1).toNat, fun env c bars hB hC hE hs hn fuel hf => ?_⟩
  intro incs xl a hx ha
  have hW' : (stepCfg s incs xl).WidthOK := ⟨hW.1, hW.2, hW.3, hW.4, hW.5⟩
  have h0 : (initDxmax (a.Ured ++ [0]) (stepCfg s incs xl).dxmax)[0]? = some s.du := by
    have := ha.base.Ured
    simp only [stepCfg, initDxmax]
    obtain ⟨x, xs, hx⟩ : ∃ x xs, a.Ured = x :: xs := by
      cases h : a.Ured with
      | nil => rw [h] at this; simp at this; omega
      | cons x xs => exact ⟨x, xs, rfl⟩
    simp [hx, List.replicate_succ]
  refine pathfollow_total signTotal_real (modelProblem_runs hB hC) hE (cfg := stepCfg s incs xl) rfl hn hs.nfev hs.control
    (fun p hp => by cases hp; exact hx) ha.base.Ured ha
    (I := fun st => WidthInv (stepCfg s incs xl) (initDxmax (a.Ured ++ [0]) (stepCfg s incs xl).dxmax) st.dxmax) ?_
    (fun st st' o hi hinc => hinc.width (fun _ => hW') h0 hdu hi)
    (N := (((R : Int) + 1) * (s.cycl - 1) + 1).toNat) ?_ hf
  · intro j
    unfold WidthInv
    rw [if_pos (show (stepCfg s incs xl).stepcontrol = true from hsc)]
    exact ⟨1, by simp [Scaled, pfStart], hW'.lo_lt_one, hW'.one_below⟩
  · intro st p hi _ n st1 hn
    have := hn.bound_control hW' hsc h0 hdu R hR hcy rfl hi
    have h2 : 0 ≤ ((R : Int) + 1) * (s.cycl - 1) := mul_nonneg (by omega) (by omega)
    simp only [stepCfg] at this
    omega

end TrussPy
