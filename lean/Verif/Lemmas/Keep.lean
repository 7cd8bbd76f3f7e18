import Verif.Lemmas.CongruentRun
/-!
# Invariants of path following

A property of the analysis object and one of the vectors which evaluations and linear solutions keep hold for everything recorded.
-/

set_option linter.unusedSectionVars false

namespace TrussPy

variable {F : Type} [Zero F] [One F] [Add F] [Sub F] [Mul F] [Div F] [Neg F] [Flt F]

/-- Evaluations at vectors with property `W` keep the property `I` of the analysis object, and solutions of the linear systems
keep `W`. -/
structure Problem.Keeps (P : Problem F) (sp : List (List F) → List F → Py (List F)) (I : Analysis F → Prop) (W : List F → Prop) :
    Prop where
  g : ∀ a V V0 w a' r, I a → W V → W V0 → P.g a V V0 w = .ok (a', r) → I a'
  dgdx : ∀ a V a' K, I a → W V → P.dgdx a V.dropLast = .ok (a', K) → I a'
  book : ∀ (a : Analysis F) j K dV, I a → I { a with j := j, Kmod := K, dVmax := dV }
  save : ∀ (a : Analysis F) V l, I a → W V → V.getLast? = some l → I { a with Vred := V, Ured := V.dropLast, lpf := some l }
  step : ∀ a V V0 j Vmax a1 J a2 fx dx, I a → W V → W V0 → extDf P j a V = .ok (a1, J) →
    extF P V0 j Vmax false a1 V = .ok (a2, fx) → sp J (fx.map fun v => -v) = .ok dx → dx.length = V.length → W (vadd V dx)
  shrink : ∀ x y c, W x → W y → W (vadd x ((vsub y x).map fun v => v / c))

section
variable {P : Problem F} {env : Env F} {I : Analysis F → Prop} {W : List F → Prop}

theorem extF_kept (hP : P.Keeps env.spsolve I W) {V0 V : List F} {j : Int} {Vmax : F} {w : Bool} {a a' : Analysis F} {r : List F}
    (ha : I a) (hV : W V) (hV0 : W V0) (h : extF P V0 j Vmax w a V = .ok (a', r)) : I a' := by
  unfold extF at h
  obtain ⟨⟨a1, gv⟩, h1, h⟩ := py_bind_eq_ok.1 h
  obtain ⟨vj, -, h⟩ := py_bind_eq_ok.1 h
  cases h
  exact hP.g _ _ _ _ _ _ (hP.book a j a.Kmod a.dVmax ha) hV hV0 h1

theorem extDf_kept (hP : P.Keeps env.spsolve I W) {V : List F} {j : Int} {a a' : Analysis F} {J : List (List F)}
    (ha : I a) (hV : W V) (h : extDf P j a V = .ok (a', J)) : I a' := by
  unfold extDf at h
  obtain ⟨qc, -, h⟩ := py_bind_eq_ok.1 h
  obtain ⟨⟨a1, K⟩, h1, h⟩ := py_bind_eq_ok.1 h
  cases h
  exact hP.book a1 a1.j _ a1.dVmax (hP.dgdx _ _ _ _ (hP.book a j a.Kmod a.dVmax ha) hV h1)

theorem newtonLoop_kept (hP : P.Keeps env.spsolve I W) {V0 : List F} (hV0 : W V0) (j : Int) (Vmax : F) (ftol xtol : F) :
    ∀ (k : Nat) (n : Int) (a : Analysis F) (x : List F) (a' : Analysis F) (nr : NewtonOut F), I a → W x →
      newtonLoop (extF P V0 j Vmax false) (extDf P j) env.spsolve ftol xtol k n a x = .ok (a', nr) → I a' ∧ W nr.x := by
  intro k
  induction k with
  | zero => intro n a x a' nr _ _ h; cases h
  | succ k ih =>
    intro n a x a' nr ha hx h
    unfold newtonLoop at h
    obtain ⟨⟨a1, J⟩, h1, h⟩ := py_bind_eq_ok.1 h
    obtain ⟨⟨a2, fx⟩, h2, h⟩ := py_bind_eq_ok.1 h
    obtain ⟨dx, h3, h⟩ := py_bind_eq_ok.1 h
    have i1 := extDf_kept hP ha hx h1
    have i2 := extF_kept hP i1 hx hV0 h2
    simp only at h h3
    split at h
    · cases h
    · next hl =>
      have hW := hP.step a x V0 j Vmax a1 J a2 fx dx ha hx hV0 h1 h2 h3 (not_not.1 hl)
      obtain ⟨⟨a3, gx⟩, h4, h⟩ := py_bind_eq_ok.1 h
      have i3 := extF_kept hP i2 hW hV0 h4
      simp only at h
      split at h
      · cases h; exact ⟨i3, hW⟩
      · cases k with
        | zero => cases h; exact ⟨i3, hW⟩
        | succ k => exact ih (n + 1) a3 _ a' nr i3 hW h

theorem newton_kept (hP : P.Keeps env.spsolve I W) {V0 : List F} (hV0 : W V0) {j : Int} {Vmax : F} {nfev : Int} {ftol xtol : F}
    {a a' : Analysis F} {x : List F} {nr : NewtonOut F} (ha : I a) (hx : W x)
    (h : newton (extF P V0 j Vmax false) (extDf P j) env.spsolve a x nfev ftol xtol = .ok (a', nr)) : I a' ∧ W nr.x :=
  newtonLoop_kept hP hV0 j Vmax ftol xtol _ _ _ _ _ _ ha hx h

/-- What the recycle loop reads has the property. -/
structure RCtx.Kept (cfg : PFCfg F) (W : List F → Prop) (rc : RCtx F) : Prop where
  x0 : W rc.x0
  pre : rc.jPre ≠ 0 → cfg.jFixed = false → ∃ y, W y ∧ rc.DxPre = vsub y rc.x0

theorem attempt_kept (hP : P.Keeps env.spsolve I W) {cfg : PFCfg F} {rc : RCtx F} (hrc : rc.Kept cfg W) {st st' : RState F}
    {o : Option Outcome} (ha : I st.a) (h : attempt env P cfg rc st = .ok (st', o)) : I st'.a ∧ W st'.x := by
  unfold attempt at h
  obtain ⟨xm, -, h⟩ := py_bind_eq_ok.1 h
  have hstart : W (if st.z = 0 ∧ rc.jPre ≠ 0 ∧ cfg.jFixed = false then
      vadd rc.x0 (rc.DxPre.map fun v => v / Flt.abs rc.vPre) else rc.x0) := by
    split
    · next hc =>
      obtain ⟨y, h1, h2⟩ := hrc.pre hc.2.1 hc.2.2
      rw [h2]
      exact hP.shrink _ _ _ hrc.x0 h1
    · exact hrc.x0
  obtain ⟨⟨a1, nr⟩, h1, h⟩ := py_bind_eq_ok.1 h
  obtain ⟨i1, w1⟩ := newton_kept hP hrc.x0 ha hstart h1
  simp only at h
  obtain ⟨⟨i, v⟩, -, h⟩ := py_bind_eq_ok.1 h
  simp only at h
  split at h
  · cases h
  obtain ⟨j, -, h⟩ := py_bind_eq_ok.1 h
  obtain ⟨valid, -, h⟩ := py_bind_eq_ok.1 h
  obtain ⟨dc, -, h⟩ := py_bind_eq_ok.1 h
  have i2 := hP.book a1 a1.j a1.Kmod (some st.dxmax) i1
  split at h
  · obtain ⟨⟨a2, g⟩, h2, h⟩ := py_bind_eq_ok.1 h
    cases h
    exact ⟨extF_kept hP i2 w1 hrc.x0 h2, w1⟩
  · split at h
    · cases h; exact ⟨i2, w1⟩
    · split at h
      · cases h; exact ⟨i2, w1⟩
      · cases h; exact ⟨i2, w1⟩

theorem recycle_kept (hP : P.Keeps env.spsolve I W) {cfg : PFCfg F} {rc : RCtx F} (hrc : rc.Kept cfg W) :
    ∀ (k : Nat) {st st' : RState F} {o : Outcome}, I st.a → recycle env P cfg rc k st = .ok (st', o) → I st'.a ∧ W st'.x
  | 0, _, _, _, _, h => by cases h
  | k + 1, st, st', o, ha, h => by
    unfold recycle at h
    obtain ⟨⟨s1, o1⟩, h1, h⟩ := py_bind_eq_ok.1 h
    have h2 := attempt_kept hP hrc ha h1
    cases o1 with
    | some o1 => cases h; exact h2
    | none => exact recycle_kept hP hrc k h2.1 h

theorem predictor_kept (hP : P.Keeps env.spsolve I W) {cfg : PFCfg F} {s : PState F} {p : PreOut F} (ha : I s.a) (hx : W s.x)
    (h : predictor env P cfg s = .ok p) :
    I p.a ∧ (p.jPre ≠ 0 → cfg.jFixed = false → ∃ y, W y ∧ p.DxPre = vsub y s.x) := by
  unfold predictor at h
  split at h
  · obtain ⟨xm, -, h⟩ := py_bind_eq_ok.1 h
    obtain ⟨⟨a1, nr⟩, h1, h⟩ := py_bind_eq_ok.1 h
    obtain ⟨i1, w1⟩ := newton_kept hP hx ha hx h1
    obtain ⟨⟨i, v⟩, -, h⟩ := py_bind_eq_ok.1 h
    obtain ⟨j, -, h⟩ := py_bind_eq_ok.1 h
    cases h
    exact ⟨i1, fun _ _ => ⟨_, w1, rfl⟩⟩
  · next hc =>
    cases h
    exact ⟨ha, fun h1 h2 => absurd ⟨h1, h2⟩ hc⟩

theorem increment_kept (hP : P.Keeps env.spsolve I W) {cfg : PFCfg F} {dxmax0 : List F} {fuel : Nat} {s s' : PState F} {o : Outcome}
    (ha : I s.a) (hx : W s.x) (h : increment env P cfg dxmax0 fuel s = .ok (s', o)) : I s'.a ∧ W s'.x := by
  unfold increment at h
  obtain ⟨⟨jp, st, o1⟩, h1, h⟩ := py_bind_eq_ok.1 h
  have hst : I st.a ∧ W st.x := by
    unfold solveInc at h1
    obtain ⟨p, h2, h1⟩ := py_bind_eq_ok.1 h1
    obtain ⟨i1, w1⟩ := predictor_kept hP ha hx h2
    simp only at h1
    split at h1
    · cases h1; exact ⟨i1, hx⟩
    · obtain ⟨⟨st1, o2⟩, h3, h1⟩ := py_bind_eq_ok.1 h1
      cases h1
      exact recycle_kept hP ⟨hx, w1⟩ _ (by exact i1) h3
  simp only at h
  split at h
  · cases h
  · next lpf hl =>
    cases h
    exact ⟨hP.save _ _ _ hst.1 hst.2 hl, hst.2⟩

theorem incrLoop_kept (hP : P.Keeps env.spsolve I W) {cfg : PFCfg F} {dxmax0 : List F} {fuel : Nat} :
    ∀ (k : Nat) {s s' : PState F} {recs : List (Rec F)}, I s.a → W s.x → incrLoop env P cfg dxmax0 fuel k s = .ok (s', recs) →
      I s'.a ∧ W s'.x ∧ ∀ r ∈ recs, I r.a ∧ W r.x
  | 0, s, s', recs, ha, hx, h => by
    cases h
    exact ⟨ha, hx, by simp⟩
  | k + 1, s, s', recs, ha, hx, h => by
    unfold incrLoop at h
    obtain ⟨⟨s1, o⟩, h1, h⟩ := py_bind_eq_ok.1 h
    have k1 := increment_kept hP ha hx h1
    simp only at h
    split at h
    · cases h
      exact ⟨k1.1, k1.2, by simpa using k1⟩
    · obtain ⟨lim, -, h⟩ := py_bind_eq_ok.1 h
      split at h
      · cases h
        exact ⟨k1.1, k1.2, by simpa using k1⟩
      · obtain ⟨⟨s2, rest⟩, h2, h⟩ := py_bind_eq_ok.1 h
        cases h
        obtain ⟨r1, r2, r3⟩ := incrLoop_kept hP k k1.1 k1.2 h2
        refine ⟨r1, r2, ?_⟩
        intro r hr
        rcases List.mem_cons.1 hr with rfl | hr
        · exact k1
        · exact r3 r hr

theorem pathfollow_kept (hP : P.Keeps env.spsolve I W) {cfg : PFCfg F} {fuel : Nat} {x : List F} {a : Analysis F} {out : PFOut F}
    (ha : I a) (hx : W (x ++ [0])) (h : pathfollow env P cfg fuel x a = .ok out) :
    I out.final ∧ ∀ r ∈ out.recs, I r.a ∧ W r.x := by
  unfold pathfollow at h
  obtain ⟨j, -, h⟩ := py_bind_eq_ok.1 h
  simp only at h
  split at h
  · cases h
  · obtain ⟨⟨s, recs⟩, h1, h⟩ := py_bind_eq_ok.1 h
    cases h
    obtain ⟨r1, -, r3⟩ := incrLoop_kept hP _ (by exact ha) (by exact hx) h1
    exact ⟨r1, r3⟩

end

end TrussPy
