import Verif.Lemmas.CongruentRun
/-!
# Path following with two problems that return the same values

For every carrier: if the two callables return the same values for related analysis objects, so do all parts of the solver.
-/

set_option linter.unusedSectionVars false

namespace TrussPy

variable {F : Type} [Zero F] [One F] [Add F] [Sub F] [Mul F] [Div F] [Neg F] [Flt F]

/-- Two problems that return the same values and keep the relation `R` of the analysis objects. -/
structure Problem.Sim (P P' : Problem F) (R : Analysis F → Analysis F → Prop) : Prop where
  g : ∀ a a' V V0 w, R a a' → Alike (fun p p' => R p.1 p'.1 ∧ p'.2 = p.2) (P.g a V V0 w) (P'.g a' V V0 w)
  dgdx : ∀ a a' U, R a a' → Alike (fun p p' => R p.1 p'.1 ∧ p'.2 = p.2) (P.dgdx a U) (P'.dgdx a' U)
  f0 : ∀ a a', R a a' → a'.f0red = a.f0red
  book : ∀ (a a' : Analysis F) j K dV, R a a' → R { a with j := j, Kmod := K, dVmax := dV } { a' with j := j, Kmod := K, dVmax := dV }
  fields : ∀ a a', R a a' → a'.j = a.j ∧ a'.Kmod = a.Kmod ∧ a'.dVmax = a.dVmax
  save : ∀ (a a' : Analysis F) V u (l : F), R a a' →
    R { a with Vred := V, Ured := u, lpf := some l } { a' with Vred := V, Ured := u, lpf := some l }

section
variable {P P' : Problem F} {R : Analysis F → Analysis F → Prop}

theorem Problem.Sim.setJ (h : P.Sim P' R) {a a' : Analysis F} (j : Int) (ha : R a a') : R { a with j := j } { a' with j := j } := by
  obtain ⟨-, h2, h3⟩ := h.fields a a' ha
  have := h.book a a' j a.Kmod a.dVmax ha
  rw [← h2, ← h3] at this
  simpa only [h2, h3] using this

theorem Problem.Sim.setK (h : P.Sim P' R) {a a' : Analysis F} (K : List (List F)) (ha : R a a') :
    R { a with Kmod := K } { a' with Kmod := K } := by
  obtain ⟨h1, -, h3⟩ := h.fields a a' ha
  have := h.book a a' a.j K a.dVmax ha
  rw [← h1, ← h3] at this
  simpa only [h1, h3] using this

theorem Problem.Sim.setD (h : P.Sim P' R) {a a' : Analysis F} (d : Option (List F)) (ha : R a a') :
    R { a with dVmax := d } { a' with dVmax := d } := by
  obtain ⟨h1, h2, -⟩ := h.fields a a' ha
  have := h.book a a' a.j a.Kmod d ha
  rw [← h1, ← h2] at this
  simpa only [h1, h2] using this

theorem extF_sim (hP : P.Sim P' R) (V0 : List F) (j : Int) (Vmax : F) (w : Bool) {a a' : Analysis F} (ha : R a a') (V : List F) :
    Alike (fun p p' => R p.1 p'.1 ∧ p'.2 = p.2) (extF P V0 j Vmax w a V) (extF P' V0 j Vmax w a' V) := by
  unfold extF
  refine (hP.g _ _ V V0 w (hP.setJ j ha)).bind ?_
  rintro ⟨a1, r⟩ ⟨a1', r'⟩ ⟨h1, h2⟩
  dsimp only at h1 h2 ⊢
  subst h2
  refine (Alike.refl _).bind ?_
  rintro v _ rfl
  exact .ok ⟨h1, rfl⟩

theorem extDf_sim (hP : P.Sim P' R) (j : Int) {a a' : Analysis F} (ha : R a a') (V : List F) :
    Alike (fun p p' => R p.1 p'.1 ∧ p'.2 = p.2) (extDf P j a V) (extDf P' j a' V) := by
  unfold extDf
  dsimp only
  refine (Alike.refl _).bind ?_
  rintro qc _ rfl
  refine (hP.dgdx _ _ V.dropLast (hP.setJ j ha)).bind ?_
  rintro ⟨a1, K⟩ ⟨a1', K'⟩ ⟨h1, h2⟩
  dsimp only at h1 h2 ⊢
  subst h2
  rw [show List.zipWith (fun (row : List F) f0 => row ++ [-f0]) K' a1'.f0red = List.zipWith (fun row f0 => row ++ [-f0]) K' a1.f0red by
    rw [hP.f0 _ _ h1]]
  exact .ok ⟨hP.setK _ h1, rfl⟩

theorem newtonLoop_sim {S T : Type} {R : S → T → Prop} {f : S → List F → Py (S × List F)} {f' : T → List F → Py (T × List F)}
    {df : S → List F → Py (S × List (List F))} {df' : T → List F → Py (T × List (List F))}
    {sp : List (List F) → List F → Py (List F)} {ftol xtol : F}
    (hf : ∀ s s' x, R s s' → Alike (fun p p' => R p.1 p'.1 ∧ p'.2 = p.2) (f s x) (f' s' x))
    (hdf : ∀ s s' x, R s s' → Alike (fun p p' => R p.1 p'.1 ∧ p'.2 = p.2) (df s x) (df' s' x)) :
    ∀ (k : Nat) (n : Int) (s : S) (s' : T) (x : List F), R s s' →
      Alike (fun p p' => R p.1 p'.1 ∧ p'.2 = p.2)
        (newtonLoop f df sp ftol xtol k n s x) (newtonLoop f' df' sp ftol xtol k n s' x) := by
  intro k
  induction k with
  | zero => intro n s s' x _; exact .error _
  | succ k ih =>
    intro n s s' x hR
    unfold newtonLoop
    refine (hdf s s' x hR).bind ?_
    rintro ⟨s1, J⟩ ⟨s1', J'⟩ ⟨hR1, hJ⟩
    dsimp only at hR1 hJ ⊢
    subst hJ
    refine (hf s1 s1' x hR1).bind ?_
    rintro ⟨s2, fx⟩ ⟨s2', fx'⟩ ⟨hR2, hfx⟩
    dsimp only at hR2 hfx ⊢
    subst hfx
    refine (Alike.refl _).bind ?_
    rintro _ dx rfl
    split
    · exact .error _
    · refine (hf s2 s2' _ hR2).bind ?_
      rintro ⟨s3, gx⟩ ⟨s3', gx'⟩ ⟨hR3, hgx⟩
      dsimp only at hR3 hgx ⊢
      subst hgx
      split
      · exact .ok ⟨hR3, rfl⟩
      · cases k with
        | zero => exact .ok ⟨hR3, rfl⟩
        | succ k => exact ih (n + 1) s3 s3' _ hR3

theorem newton_sim (hP : P.Sim P' R) (env : Env F) (V0 : List F) (j : Int) (Vmax : F) {a a' : Analysis F} (ha : R a a') (x : List F)
    (nfev : Int) (ftol xtol : F) : Alike (fun p p' => R p.1 p'.1 ∧ p'.2 = p.2)
      (newton (extF P V0 j Vmax false) (extDf P j) env.spsolve a x nfev ftol xtol)
      (newton (extF P' V0 j Vmax false) (extDf P' j) env.spsolve a' x nfev ftol xtol) := by
  unfold newton
  exact newtonLoop_sim (R := R) (fun _ _ y h => extF_sim hP V0 j Vmax false h y) (fun _ _ y h => extDf_sim hP j h y) _ _ _ _ _ ha

/-- States of the recycle loop that differ in the analysis object only. -/
def RState.Sim (R : Analysis F → Analysis F → Prop) (s s' : RState F) : Prop := s' = { s with a := s'.a } ∧ R s.a s'.a

/-- States of the increment loop that differ in the analysis object only. -/
def PState.Sim (R : Analysis F → Analysis F → Prop) (s s' : PState F) : Prop := s' = { s with a := s'.a } ∧ R s.a s'.a

/-- Results of the predictor that differ in the analysis object only. -/
def PreOut.Sim (R : Analysis F → Analysis F → Prop) (s s' : PreOut F) : Prop := s' = { s with a := s'.a } ∧ R s.a s'.a

/-- Recorded increments that differ in the analysis object only. -/
def Rec.Sim (R : Analysis F → Analysis F → Prop) (s s' : Rec F) : Prop := s' = { s with a := s'.a } ∧ R s.a s'.a

theorem attempt_sim (hP : P.Sim P' R) (env : Env F) (cfg : PFCfg F) (rc : RCtx F) {st st' : RState F} (hst : st.Sim R st') :
    Alike (fun p p' => p.1.Sim R p'.1 ∧ p'.2 = p.2) (attempt env P cfg rc st) (attempt env P' cfg rc st') := by
  obtain ⟨x, z, nPre, dxmax, j, b, a⟩ := st
  obtain ⟨e, ha⟩ := hst
  obtain ⟨x', z', nPre', dxmax', j', b', a'⟩ := st'
  simp only [RState.mk.injEq, and_true] at e
  obtain ⟨rfl, rfl, rfl, rfl, rfl, rfl⟩ := e
  unfold attempt
  dsimp only at ha ⊢
  refine (Alike.refl _).bind ?_
  rintro _ xm rfl
  refine (newton_sim hP env rc.x0 j' xm ha _ _ _ _).bind ?_
  rintro ⟨a1, nr⟩ ⟨a1', nr'⟩ ⟨h1, h2⟩
  dsimp only at h1 h2 ⊢
  subst h2
  refine (Alike.refl _).bind ?_
  rintro _ ⟨i1, v1⟩ rfl
  dsimp only
  split
  · exact .error _
  refine (Alike.refl _).bind ?_
  rintro _ k rfl
  refine (Alike.refl _).bind ?_
  rintro _ valid rfl
  have hw : nextWidth cfg rc ⟨x', z', nPre', dxmax', j', b', a'⟩ k nr' = nextWidth cfg rc ⟨x', z', nPre', dxmax', j', b', a⟩ k nr' := rfl
  rw [hw]
  refine (Alike.refl _).bind ?_
  rintro _ dc rfl
  have hd := hP.setD (some dxmax') h1
  split
  · refine (extF_sim hP rc.x0 j' xm true hd _).bind ?_
    rintro ⟨a2, r⟩ ⟨a2', r'⟩ ⟨h4, -⟩
    exact .ok ⟨⟨rfl, h4⟩, rfl⟩
  · split
    · exact .ok ⟨⟨rfl, hd⟩, rfl⟩
    · split
      · exact .ok ⟨⟨rfl, hd⟩, rfl⟩
      · exact .ok ⟨⟨rfl, hd⟩, rfl⟩

theorem recycle_sim (hP : P.Sim P' R) (env : Env F) (cfg : PFCfg F) (rc : RCtx F) : ∀ (fuel : Nat) {st st' : RState F}, st.Sim R st' →
    Alike (fun p p' => p.1.Sim R p'.1 ∧ p'.2 = p.2) (recycle env P cfg rc fuel st) (recycle env P' cfg rc fuel st') := by
  intro fuel
  induction fuel with
  | zero => intro st st' _; exact .error _
  | succ k ih =>
    intro st st' h
    unfold recycle
    refine (attempt_sim hP env cfg rc h).bind ?_
    rintro ⟨s1, o⟩ ⟨s1', o'⟩ ⟨h1, h2⟩
    dsimp only at h1 h2 ⊢
    subst h2
    cases o' with
    | some o => exact .ok ⟨h1, rfl⟩
    | none => exact ih h1

theorem predictor_sim (hP : P.Sim P' R) (env : Env F) (cfg : PFCfg F) {s s' : PState F} (h : s.Sim R s') :
    Alike (PreOut.Sim R) (predictor env P cfg s) (predictor env P' cfg s') := by
  obtain ⟨x, dxmax, j, jPre, b, a⟩ := s
  obtain ⟨x', dxmax', j', jPre', b', a'⟩ := s'
  obtain ⟨e, ha⟩ := h
  simp only [PState.mk.injEq, and_true] at e
  obtain ⟨rfl, rfl, rfl, rfl, rfl⟩ := e
  unfold predictor
  dsimp only at ha ⊢
  split
  · refine (Alike.refl _).bind ?_
    rintro _ xm rfl
    refine (newton_sim hP env x' j' xm ha _ _ _ _).bind ?_
    rintro ⟨a1, nr⟩ ⟨a1', nr'⟩ ⟨h1, h2⟩
    dsimp only at h1 h2 ⊢
    subst h2
    refine (Alike.refl _).bind ?_
    rintro _ ⟨i1, v1⟩ rfl
    refine (Alike.refl _).bind ?_
    rintro _ k rfl
    exact .ok ⟨rfl, h1⟩
  · exact .ok ⟨rfl, ha⟩

theorem solveInc_sim (hP : P.Sim P' R) (env : Env F) (cfg : PFCfg F) (dxmax0 : List F) (fuel : Nat) {s s' : PState F}
    (h : s.Sim R s') : Alike (fun p p' => p'.1 = p.1 ∧ p.2.1.Sim R p'.2.1 ∧ p'.2.2 = p.2.2)
      (solveInc env P cfg dxmax0 fuel s) (solveInc env P' cfg dxmax0 fuel s') := by
  unfold solveInc
  refine (predictor_sim hP env cfg h).bind ?_
  rintro ⟨su, nP, pj, pjp, dp, vp, pa⟩ ⟨su', nP', pj', pjp', dp', vp', pa'⟩ ⟨hp1, hp2⟩
  simp only [PreOut.mk.injEq, and_true] at hp1
  obtain ⟨rfl, rfl, rfl, rfl, rfl, rfl⟩ := hp1
  obtain ⟨x, dxmax, j, jPre, b, a⟩ := s
  obtain ⟨x', dxmax', j', jPre', b', a'⟩ := s'
  obtain ⟨e, ha⟩ := h
  simp only [PState.mk.injEq, and_true] at e
  obtain ⟨rfl, rfl, rfl, rfl, rfl⟩ := e
  dsimp only at hp2 ⊢
  split
  · exact .ok ⟨rfl, ⟨rfl, hp2⟩, rfl⟩
  · refine (recycle_sim hP env cfg _ fuel (st := ⟨x', 0, nP', dxmax', pj', b', pa⟩) (st' := ⟨x', 0, nP', dxmax', pj', b', pa'⟩)
      ⟨rfl, hp2⟩).bind ?_
    rintro ⟨r, o⟩ ⟨r', o'⟩ ⟨h1, h2⟩
    exact .ok ⟨rfl, h1, h2⟩

theorem increment_sim (hP : P.Sim P' R) (env : Env F) (cfg : PFCfg F) (dxmax0 : List F) (fuel : Nat) {s s' : PState F}
    (h : s.Sim R s') : Alike (fun p p' => p.1.Sim R p'.1 ∧ p'.2 = p.2)
      (increment env P cfg dxmax0 fuel s) (increment env P' cfg dxmax0 fuel s') := by
  unfold increment
  refine (solveInc_sim hP env cfg dxmax0 fuel h).bind ?_
  rintro ⟨jp, ⟨x, z, nPre, dxmax, j, b, a⟩, o⟩ ⟨jp', ⟨x', z', nPre', dxmax', j', b', a'⟩, o'⟩ ⟨h1, ⟨e, h2⟩, h3⟩
  simp only [RState.mk.injEq, and_true] at e
  obtain ⟨rfl, rfl, rfl, rfl, rfl, rfl⟩ := e
  dsimp only at h1 h2 h3 ⊢
  subst h1 h3
  cases x'.getLast? with
  | none => exact .error _
  | some l => exact .ok ⟨⟨rfl, hP.save _ _ _ _ _ h2⟩, rfl⟩

theorem incrLoop_sim (hP : P.Sim P' R) (env : Env F) (cfg : PFCfg F) (dxmax0 : List F) (fuel : Nat) :
    ∀ (k : Nat) {s s' : PState F}, s.Sim R s' →
    Alike (fun p p' => p.1.Sim R p'.1 ∧ List.Forall₂ (Rec.Sim R) p.2 p'.2)
      (incrLoop env P cfg dxmax0 fuel k s) (incrLoop env P' cfg dxmax0 fuel k s') := by
  intro k
  induction k with
  | zero => intro s s' h; exact .ok ⟨h, .nil⟩
  | succ k ih =>
    intro s s' h
    unfold incrLoop
    refine (increment_sim hP env cfg dxmax0 fuel h).bind ?_
    rintro ⟨s1, o⟩ ⟨s1', o'⟩ ⟨h1, h2⟩
    dsimp only at h1 h2 ⊢
    subst h2
    have hx : s1'.x = s1.x := by rw [h1.1]
    have hr : Rec.Sim R ⟨s1.x, s1.a, o'⟩ ⟨s1'.x, s1'.a, o'⟩ := ⟨by simp only [hx], h1.2⟩
    split
    · exact .ok ⟨h1, .cons hr .nil⟩
    · have e : limitReached s1'.x cfg.xlimit = limitReached s1.x cfg.xlimit := by rw [hx]
      rw [e]
      refine (Alike.refl _).bind ?_
      rintro _ lim rfl
      split
      · exact .ok ⟨h1, .cons hr .nil⟩
      · refine (ih h1).bind ?_
        rintro ⟨s2, rs⟩ ⟨s2', rs'⟩ ⟨h3, h4⟩
        exact .ok ⟨h3, .cons hr h4⟩

theorem pathfollow_sim (hP : P.Sim P' R) (env : Env F) (cfg : PFCfg F) (fuel : Nat) (x : List F) {a a' : Analysis F} (ha : R a a') :
    Alike (fun o o' => List.Forall₂ (Rec.Sim R) o.recs o'.recs ∧ R o.final o'.final)
      (pathfollow env P cfg fuel x a) (pathfollow env P' cfg fuel x a') := by
  unfold pathfollow
  dsimp only
  refine (Alike.refl _).bind ?_
  rintro _ j rfl
  split
  · exact .error _
  · refine (incrLoop_sim hP env cfg _ fuel cfg.incs (s := ⟨x ++ [0], _, j, _, 4, a⟩) (s' := ⟨x ++ [0], _, j, _, 4, a'⟩) ⟨rfl, ha⟩).bind ?_
    rintro ⟨s, rs⟩ ⟨s', rs'⟩ ⟨h1, h2⟩
    exact .ok ⟨h2, h1.2⟩

end

end TrussPy
