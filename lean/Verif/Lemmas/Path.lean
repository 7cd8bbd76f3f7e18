import Verif.Lemmas.Solver
/-!
# Facts about passes, increments and paths for every arithmetic
-/

set_option linter.unusedSectionVars false

namespace TrussPy

variable {F : Type} [Zero F] [One F] [Add F] [Sub F] [Mul F] [Div F] [Neg F] [Flt F]

omit [Zero F] [One F] [Sub F] [Mul F] [Div F] in
/-- The last iteration of a returning Newton run. -/
theorem newton_last {S : Type} {f : S → List F → Py (S × List F)}
    {df : S → List F → Py (S × List (List F))} {sp : List (List F) → List F → Py (List F)} {s s' : S}
    {x : List F} {nfev : Int} {ftol xtol : F} {o : NewtonOut F}
    (h : newton f df sp s x nfev ftol xtol = .ok (s', o)) :
    1 ≤ o.n ∧ o.n ≤ nfev ∧ ∃ s2 y s3 fx dx, NewtonIter f df sp s2 y s3 o.x fx dx ∧ s3 = s' ∧
      (o.success = true → Flt.lt (Flt.vnorm fx) ftol = true ∧ Flt.lt (Flt.vnorm dx) xtol = true) ∧
      (o.n = 1 → y = x ∧ s2 = s) := by
  obtain ⟨its, last, r1, r2, r3, -, -, -, r7, -⟩ := newtonLoop_spec _ _ _ _ _ _ h
  refine ⟨by omega, by omega, ?_⟩
  have key : ∀ (its : List (List F × List F)) (s : S) (x : List F),
      NewtonRun f df sp s x (its ++ [last]) s' o.x →
      ∃ s2 y, NewtonIter f df sp s2 y s' o.x last.1 last.2 ∧ (its = [] → y = x ∧ s2 = s) := by
    intro its
    induction its with
    | nil =>
      intro s x hr
      cases hr with
      | cons hit hrest => cases hrest; exact ⟨_, _, hit, fun _ => ⟨rfl, rfl⟩⟩
    | cons it its ih =>
      intro s x hr
      cases hr with
      | cons hit hrest =>
        obtain ⟨s2, y, hy, -⟩ := ih _ _ hrest
        exact ⟨s2, y, hy, fun h => by cases h⟩
  obtain ⟨s2, y, hy, hy1⟩ := key its s x r1
  refine ⟨s2, y, s', last.1, last.2, hy, rfl, fun hs => r7.1 hs, fun hn => hy1 ?_⟩
  rw [r2] at hn
  have : its.length = 0 := by omega
  exact List.length_eq_zero_iff.1 this

omit [Zero F] [One F] [Mul F] [Div F] [Add F] [Flt F] in
/-- Shape of an evaluation of the extended residual. -/
theorem extF_ok {P : Problem F} {V0 : List F} {j : Int} {Vmax : F} {w : Bool} {a a' : Analysis F}
    {V fx : List F} (h : extF P V0 j Vmax w a V = .ok (a', fx)) :
    ∃ gv vj, P.g { a with j := j } V V0 w = .ok (a', gv) ∧ pyGet V (j.natAbs - 1) = .ok vj ∧
      fx = (gv.map fun v => -v) ++ [vj - Vmax] := by
  unfold extF at h
  obtain ⟨⟨a1, gv⟩, h1, h⟩ := py_bind_eq_ok.1 h
  obtain ⟨vj, h2, h⟩ := py_bind_eq_ok.1 h
  cases h
  exact ⟨gv, vj, h1, h2, rfl⟩

omit [One F] [Add F] [Sub F] [Mul F] [Div F] [Flt F] in
/-- Shape of an evaluation of the extended Jacobian. -/
theorem extDf_ok [One F] {P : Problem F} {j : Int} {a a' : Analysis F} {V : List F} {J : List (List F)}
    (h : extDf P j a V = .ok (a', J)) :
    ∃ qc a1 K, pySet (List.replicate V.length (0 : F)) (j.natAbs - 1) 1 = .ok qc ∧
      P.dgdx { a with j := j } V.dropLast = .ok (a1, K) ∧
      J = (List.zipWith (fun row f0 => row ++ [-f0]) K a1.f0red) ++ [qc] ∧ a' = { a1 with Kmod := J } := by
  unfold extDf at h
  obtain ⟨qc, h1, h⟩ := py_bind_eq_ok.1 h
  obtain ⟨⟨a1, K⟩, h2, h⟩ := py_bind_eq_ok.1 h
  cases h
  exact ⟨qc, a1, K, h1, h2, rfl, rfl⟩

theorem target_ok {x dxmax : List F} {j : Int} {xm : F} (h : target x dxmax j = .ok xm) :
    ∃ xj dj, pyGet x (j.natAbs - 1) = .ok xj ∧ pyGet dxmax (j.natAbs - 1) = .ok dj ∧
      xm = xj + dj * Flt.ofInt j.sign := by
  unfold target at h
  obtain ⟨xj, h1, h⟩ := py_bind_eq_ok.1 h
  obtain ⟨dj, h2, h⟩ := py_bind_eq_ok.1 h
  cases h
  exact ⟨xj, dj, h1, h2, rfl⟩

/-- With a fixed control component it never changes. -/
theorem PassEnd.j_fixed {env : Env F} {P : Problem F} {cfg : PFCfg F} {rc : RCtx F} {st st' : RState F}
    {d : PassData F} {o : Option Outcome} (hd : IsPass env P cfg rc st d) (he : PassEnd P cfg rc st d st' o)
    (hf : cfg.jFixed = true) : d.j = st.j ∧ st'.j = st.j := by
  have hj := hd.hj
  unfold nextJ at hj
  rw [if_pos hf] at hj
  have hj : st.j = d.j := Except.ok.inj hj
  refine ⟨hj.symm, ?_⟩
  cases he <;> simp [hj]

theorem Passes.j_fixed {env : Env F} {P : Problem F} {cfg : PFCfg F} {rc : RCtx F} {n : Nat}
    {st st' : RState F} (hp : Passes env P cfg rc n st st') (hf : cfg.jFixed = true) : st'.j = st.j := by
  induction hp with
  | zero => rfl
  | succ ha _ ih =>
    obtain ⟨d, hd, he⟩ := attempt_ok ha
    rw [ih, (he.j_fixed hd hf).2]

theorem IsPre.j_fixed {env : Env F} {P : Problem F} {cfg : PFCfg F} {s : PState F} {p : PreOut F}
    (hp : IsPre env P cfg s p) (hf : cfg.jFixed = true) : p.j = s.j := by
  cases hp with
  | skip => rfl
  | one _ h => rw [hf] at h; cases h

theorem IsInc.j_fixed {env : Env F} {P : Problem F} {cfg : PFCfg F} {dxmax0 : List F} {s s' : PState F}
    {o : Outcome} (h : IsInc env P cfg dxmax0 s s' o) (hf : cfg.jFixed = true) : s'.j = s.j := by
  cases h with
  | pre hp => exact hp.j_fixed hf
  | solve hp _ hn hd he =>
    show _ = s.j
    rw [(he.j_fixed hd hf).2, hn.j_fixed hf]
    exact hp.j_fixed hf

omit [Zero F] [One F] [Sub F] [Mul F] [Div F] in
/-- Newton iterations keep the length of the vector. -/
theorem newton_length {S : Type} {f : S → List F → Py (S × List F)}
    {df : S → List F → Py (S × List (List F))} {sp : List (List F) → List F → Py (List F)} {s s' : S}
    {x : List F} {nfev : Int} {ftol xtol : F} {o : NewtonOut F}
    (h : newton f df sp s x nfev ftol xtol = .ok (s', o)) : o.x.length = x.length := by
  obtain ⟨its, last, r1, -⟩ := newtonLoop_spec _ _ _ _ _ _ h
  clear h
  generalize its ++ [last] = l at r1
  generalize o.x = y at r1 ⊢
  induction r1 with
  | nil => rfl
  | cons hit _ ih =>
    obtain ⟨_, _, _, _, _, _, _, h4, h5, _⟩ := hit
    rw [ih, h5]
    simp [h4]

theorem dxmaxControl_length {cfg : PFCfg F} {dxmax dxmax0 : List F} {j j0 z b n nfev : Int} {s : Bool}
    {o : DxOut F} (h : dxmaxControl cfg dxmax dxmax0 j j0 z s b n nfev = .ok o)
    (hl : dxmax.length = dxmax0.length) : o.dxmax.length = dxmax0.length := by
  unfold dxmaxControl at h
  obtain ⟨d, -, h⟩ := py_bind_eq_ok.1 h
  obtain ⟨d0, -, h⟩ := py_bind_eq_ok.1 h
  simp only at h
  repeat' split at h
  all_goals (cases h; simp [hl])

theorem nextWidth_length {cfg : PFCfg F} {rc : RCtx F} {st : RState F} {j : Int} {nr : NewtonOut F}
    {o : DxOut F} (h : nextWidth cfg rc st j nr = .ok o) (hl : st.dxmax.length = rc.dxmax0.length) :
    o.dxmax.length = rc.dxmax0.length := by
  unfold nextWidth at h
  split at h
  · exact dxmaxControl_length h hl
  · cases h; exact hl

/-- The predictor increment fits whenever it is used. -/
def RCtx.Fits (rc : RCtx F) (cfg : PFCfg F) : Prop :=
  rc.dxmax0.length = rc.x0.length ∧
    (rc.jPre ≠ 0 → cfg.jFixed = false → rc.DxPre.length = rc.x0.length)

theorem IsPass.length {env : Env F} {P : Problem F} {cfg : PFCfg F} {rc : RCtx F} {st : RState F}
    {d : PassData F} (hd : IsPass env P cfg rc st d) (hr : rc.Fits cfg)
    (hl : st.dxmax.length = rc.x0.length) :
    d.nr.x.length = rc.x0.length ∧ d.dc.dxmax.length = rc.x0.length := by
  constructor
  · rw [newton_length hd.hnewton, hd.hstart]
    split
    · next hc => simp [vadd, hr.2 hc.2.1 hc.2.2]
    · rfl
  · rw [nextWidth_length hd.hdc (by rw [hl, hr.1]), hr.1]

theorem PassEnd.dxmax {P : Problem F} {cfg : PFCfg F} {rc : RCtx F} {st st' : RState F}
    {d : PassData F} {o : Option Outcome} (he : PassEnd P cfg rc st d st' o) :
    st'.dxmax = d.dc.dxmax ∧ st'.x = d.nr.x := by
  cases he <;> exact ⟨rfl, rfl⟩

theorem Passes.length {env : Env F} {P : Problem F} {cfg : PFCfg F} {rc : RCtx F} {n : Nat}
    {st st' : RState F} (hp : Passes env P cfg rc n st st') (hr : rc.Fits cfg)
    (hl : st.dxmax.length = rc.x0.length) : st'.dxmax.length = rc.x0.length := by
  induction hp with
  | zero => exact hl
  | succ ha _ ih =>
    obtain ⟨d, hd, he⟩ := attempt_ok ha
    exact ih (by rw [he.dxmax.1]; exact (hd.length hr hl).2)

theorem IsPre.fits {env : Env F} {P : Problem F} {cfg : PFCfg F} {s : PState F} {p : PreOut F}
    {dxmax0 : List F} (hp : IsPre env P cfg s p) (h0 : dxmax0.length = s.x.length) :
    (s.rctx p dxmax0).Fits cfg := by
  refine ⟨h0, fun h1 h2 => ?_⟩
  cases hp with
  | skip hc => exact absurd ⟨h1, h2⟩ hc
  | one _ _ _ hn => simp [PState.rctx, vsub, newton_length hn]

theorem IsInc.length {env : Env F} {P : Problem F} {cfg : PFCfg F} {dxmax0 : List F} {s s' : PState F}
    {o : Outcome} (h : IsInc env P cfg dxmax0 s s' o) (h0 : dxmax0.length = s.x.length)
    (h1 : s.dxmax.length = s.x.length) : s'.x.length = s.x.length ∧ s'.dxmax.length = s.x.length := by
  cases h with
  | pre => exact ⟨rfl, h1⟩
  | solve hp _ hn hd he =>
    have hf := hp.fits h0
    have := hd.length hf (hn.length hf h1)
    exact ⟨by rw [he.dxmax.2]; exact this.1, by rw [he.dxmax.1]; exact this.2⟩

/-- A property of increments that holds for every increment starting in an invariant holds for every
recorded increment. -/
theorem Path.forall {env : Env F} {P : Problem F} {cfg : PFCfg F} {dxmax0 : List F} (I : PState F → Prop)
    (hI : ∀ s s' o, I s → IsInc env P cfg dxmax0 s s' o → o.isStop = false → I s')
    {k : Nat} {s s' : PState F} {recs : List (Rec F)} (h : Path env P cfg dxmax0 k s recs s') (hs : I s)
    (Q : List F → Analysis F → Rec F → Prop)
    (hQ : ∀ s s' o, I s → IsInc env P cfg dxmax0 s s' o → Q s.x s.a ⟨s'.x, s'.a, o⟩) :
    ∀ (i : Nat) (px : List F) (pa : Analysis F) (r : Rec F), (s.x :: recs.map (·.x))[i]? = some px →
      (s.a :: recs.map (·.a))[i]? = some pa → recs[i]? = some r → Q px pa r := by
  induction h with
  | nil => intro i px pa r _ _ h; cases i <;> cases h
  | stop hi hst =>
    intro i px pa r h1 h2 h3
    cases i with
    | zero => cases h1; cases h2; cases h3; exact hQ _ _ _ hs hi
    | succ i => cases h3
  | limit hi hst =>
    intro i px pa r h1 h2 h3
    cases i with
    | zero => cases h1; cases h2; cases h3; exact hQ _ _ _ hs hi
    | succ i => cases h3
  | cons hi hst _ _ ih =>
    intro i px pa r h1 h2 h3
    cases i with
    | zero => cases h1; cases h2; cases h3; exact hQ _ _ _ hs hi
    | succ i => exact ih (hI _ _ _ hs hi hst) i px pa r (by simpa using h1) (by simpa using h2) (by simpa using h3)

/-- The same for the result of `pathfollow`. -/
theorem pathfollow_forall {env : Env F} {P : Problem F} {cfg : PFCfg F} {fuel : Nat} {x : List F}
    {a : Analysis F} {o : PFOut F} (h : pathfollow env P cfg fuel x a = .ok o) (I : PState F → Prop)
    (h0 : ∀ j, StartJ cfg x j → cfg.incs ≠ 0 → (initDxmax (x ++ [0]) cfg.dxmax).length = x.length + 1 →
      I (pfStart cfg x a j))
    (hI : ∀ s s' o, I s → IsInc env P cfg (initDxmax (x ++ [0]) cfg.dxmax) s s' o → o.isStop = false → I s')
    (Q : List F → Analysis F → Rec F → Prop)
    (hQ : ∀ s s' o, I s → IsInc env P cfg (initDxmax (x ++ [0]) cfg.dxmax) s s' o → Q s.x s.a ⟨s'.x, s'.a, o⟩)
    {k : Nat} {px : List F} {r : Rec F} (h1 : o.resX[k]? = some px) (h2 : o.recs[k]? = some r) :
    ∃ pa, o.resA[k]? = some pa ∧ Q px pa r := by
  obtain ⟨hx, ha, j, s', hj, hlen0, -, hpath⟩ := pathfollow_ok h
  have hincs : cfg.incs ≠ 0 := by
    intro h0
    rw [h0] at hpath
    generalize o.recs = recs at hpath h2
    cases hpath with
    | nil => simp at h2
  have hk : k < o.recs.length := (List.getElem?_eq_some_iff.1 h2).1
  have hpa : o.resA[k]? = some (o.resA[k]'(by simp [PFOut.resA]; omega)) := List.getElem?_eq_getElem _
  refine ⟨_, hpa, ?_⟩
  refine hpath.forall I hI (h0 j hj hincs (hlen0 hincs)) Q hQ k px _ r ?_ ?_ h2
  · rw [show (pfStart cfg x a j).x = o.startX from hx.symm]; exact h1
  · rw [show (pfStart cfg x a j).a = o.startA from ha.symm]; exact hpa

/-- Every record has a predecessor. -/
theorem resX_prev {o : PFOut F} {k : Nat} {r : Rec F} (h : o.recs[k]? = some r) : ∃ px, o.resX[k]? = some px := by
  have hk : k < o.recs.length := (List.getElem?_eq_some_iff.1 h).1
  exact ⟨_, List.getElem?_eq_getElem (by simp [PFOut.resX]; omega)⟩

end TrussPy
