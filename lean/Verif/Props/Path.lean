import Verif.Lemmas.Path
import Verif.Spec.Path
import Verif.ExamplesPath
/-!
# Properties C34, C38, C39, C46: recorded increments of `pathfollow`, for every arithmetic
-/

set_option linter.unusedSectionVars false

namespace TrussPy

section
variable {F : Type} [Zero F] [One F] [Add F] [Sub F] [Mul F] [Div F] [Neg F] [Flt F]

private theorem pyGet_eq {α : Type} (x : List α) (i : Int) :
    pyGet x i = if (if 0 ≤ i then i else i + (x.length : Int)) < 0 then .error .indexError
      else match x[(if 0 ≤ i then i else i + (x.length : Int)).toNat]? with
        | some a => .ok a
        | none => .error .indexError := rfl

private theorem vsub_pyGet {x y : List F} {i : Int} {w : F} (hl : x.length = y.length)
    (h : pyGet (vsub x y) i = .ok w) :
    ∃ u v, pyGet x i = .ok u ∧ pyGet y i = .ok v ∧ w = u - v := by
  have hlen : (vsub x y).length = y.length := by simp [vsub, hl]
  rw [pyGet_eq, hlen] at h
  rw [pyGet_eq x, pyGet_eq y, hl]
  generalize (if 0 ≤ i then i else i + (y.length : Int)) = k at h ⊢
  by_cases hk : k < 0
  · rw [if_pos hk] at h; cases h
  · rw [if_neg hk] at h
    rw [if_neg hk, if_neg hk]
    unfold vsub at h
    rw [List.getElem?_zipWith] at h
    cases hx : x[k.toNat]? <;> cases hy : y[k.toNat]? <;> rw [hx, hy] at h <;> simp at h
    exact ⟨_, _, rfl, rfl, h.symm⟩

private theorem solutionValid_spec {cfg : PFCfg F} {x prev dV : List F} {j : Int}
    (hl : x.length = prev.length) (h : solutionValid cfg (vsub x prev) dV j = .ok true) :
    if cfg.jFixed then
      ∃ u v d, pyGet x (j.natAbs - 1) = .ok u ∧ pyGet prev (j.natAbs - 1) = .ok v ∧
        pyGet dV (j.natAbs - 1) = .ok d ∧ Within cfg.dxtol u v d
    else ∀ (i : Nat) u v d, x[i]? = some u → prev[i]? = some v → dV[i]? = some d →
      Within cfg.dxtol u v d := by
  unfold solutionValid at h
  by_cases hf : cfg.jFixed
  · rw [if_pos hf] at h ⊢
    obtain ⟨w, h1, h⟩ := py_bind_eq_ok.1 h
    obtain ⟨d, h2, h⟩ := py_bind_eq_ok.1 h
    obtain ⟨u, v, h3, h4, rfl⟩ := vsub_pyGet hl h1
    exact ⟨u, v, d, h3, h4, h2, Except.ok.inj h⟩
  · rw [if_neg hf] at h ⊢
    intro i u v d h1 h2 h3
    have h := List.all_eq_true.1 (Except.ok.inj h)
    apply h
    apply List.mem_of_getElem? (i := i)
    simp [vdiv, vsub, List.getElem?_zipWith, h1, h2, h3]

/-- **C34.** Every recorded increment of every run of `pathfollow`, with arbitrary residual, Jacobian,
linear solver and arithmetic: an accepted increment is converged and bounded (`ConvergedIncrement`);
an increment whose predictor already met the tolerances is recorded without any change of the vector;
an increment that ended with an error message is the last one. -/
theorem C34_recorded_increments (env : Env F) (P : Problem F) (hP : KeepsWidth P) (cfg : PFCfg F)
    (fuel : Nat) (x : List F) (a : Analysis F) (o : PFOut F)
    (h : pathfollow env P cfg fuel x a = .ok o) (k : Nat) (prev : List F) (r : Rec F)
    (hprev : o.resX[k]? = some prev) (hr : o.recs[k]? = some r) :
    (r.out = .accepted → ConvergedIncrement P cfg prev r) ∧ (r.out = .predictor → r.x = prev) ∧
      (r.isError → k + 1 = o.recs.length) := by
  obtain ⟨hx, ha, j, s', hj, hlen0, -, hpath⟩ := pathfollow_ok h
  have hincs : cfg.incs ≠ 0 := by
    intro h0
    rw [h0] at hpath
    generalize o.recs = recs at hpath hr
    cases hpath with
    | nil => simp at hr
  have hlen := hlen0 hincs
  refine ⟨?_, ?_, ?_⟩
  · -- accepted increments
    intro hacc
    have key := hpath.forall
      (fun s => s.x.length = x.length + 1 ∧ s.dxmax.length = x.length + 1 ∧
        (cfg.jFixed = true → cfg.j = some s.j))
      (by
        rintro s s' o ⟨i1, i2, i3⟩ hi -
        have hl := hi.length (by rw [hlen, i1]) (by rw [i2, i1])
        exact ⟨by rw [hl.1, i1], by rw [hl.2, i1], fun hf => by rw [hi.j_fixed hf]; exact i3 hf⟩)
      ⟨by simp [pfStart], by simpa [pfStart] using hlen, by
        intro hf
        unfold StartJ at hj
        rw [if_pos hf] at hj
        rcases hj with hj | hj
        · exact hj
        · exact absurd hj.2.1 hincs⟩
      (fun px _ r => r.out = .accepted → ConvergedIncrement P cfg px r)
      (by
        rintro s s' o ⟨i1, i2, i3⟩ hi hout
        have h0 : (initDxmax (x ++ [0]) cfg.dxmax).length = s.x.length := by rw [hlen, i1]
        have h1 : s.dxmax.length = s.x.length := by rw [i2, i1]
        cases hi with
        | pre => cases hout
        | @solve p lpf n st1 st' o d hp hs hn hd he hl =>
          simp only at hout
          subst hout
          have hfits := hp.fits h0
          have hnl := hn.length hfits h1
          have hxl := (hd.length hfits hnl).1
          cases he with
          | accepted a2 fx hv hsucc hcommit =>
            obtain ⟨-, -, s2, y, s3, fx', dx, hit, hs3, hconv, -⟩ := newton_last hd.hnewton
            obtain ⟨_, _, _, _, _, _, _, _, _, hlast⟩ := hit
            obtain ⟨gv, vj, hg, hvj, rfl⟩ := extF_ok hlast
            obtain ⟨gv2, vj2, hg2, -, -⟩ := extF_ok hcommit
            refine ⟨⟨_, _, gv, _, vj, _, hg, hvj, (hconv hsucc).1⟩, st1.dxmax, ?_, ?_⟩
            · exact hP _ _ _ _ _ _ hg2
            · have hval := hd.hvalid
              rw [hv] at hval
              have := solutionValid_spec hxl hval
              by_cases hf : cfg.jFixed
              · rw [if_pos hf] at this ⊢
                obtain ⟨u, v, d', k1, k2, k3, k4⟩ := this
                refine ⟨_, u, v, d', ?_, k1, k2, k3, k4⟩
                rw [i3 hf, (PassEnd.j_fixed (st' := _) (o := some .accepted) hd
                  (.accepted a2 _ hv hsucc hcommit) hf).1, hn.j_fixed hf]
                exact congrArg some (hp.j_fixed hf).symm
              · rw [if_neg hf] at this ⊢
                exact this)
      k prev ((o.startA :: o.recs.map (·.a))[k]?.getD a) r
      (by rw [show (pfStart cfg x a j).x = o.startX from hx.symm]; exact hprev)
      (by
        have hk : k < o.recs.length := (List.getElem?_eq_some_iff.1 hr).1
        rw [show (pfStart cfg x a j).a = o.startA from ha.symm]
        rw [List.getElem?_eq_getElem (by simp; omega)]
        rfl) hr
    exact key hacc
  · -- predictor
    have := hpath.forall (fun _ => True) (fun _ _ _ _ _ _ => trivial) trivial
      (fun px _ r => r.out = .predictor → r.x = px)
      (by
        intro s s' o _ hi hout
        cases hi with
        | pre => rfl
        | solve _ _ _ _ he =>
          simp only at hout
          subst hout
          cases he)
      k prev ((o.startA :: o.recs.map (·.a))[k]?.getD a) r
      (by rw [show (pfStart cfg x a j).x = o.startX from hx.symm]; exact hprev)
      (by
        have hk : k < o.recs.length := (List.getElem?_eq_some_iff.1 hr).1
        rw [show (pfStart cfg x a j).a = o.startA from ha.symm]
        rw [List.getElem?_eq_getElem (by simp; omega)]
        rfl) hr
    exact this
  · -- errors
    intro herr
    have hstop : r.out.isStop = true := by rcases herr with h | h <;> rw [h] <;> rfl
    clear hprev hx ha h hincs hlen hlen0 hj
    generalize o.recs = recs at *
    generalize pfStart cfg x a j = s0 at *
    generalize cfg.incs = N at *
    clear herr
    induction hpath generalizing k with
    | nil => simp at hr
    | stop => cases k with
      | zero => rfl
      | succ k => simp at hr
    | limit => cases k with
      | zero => rfl
      | succ k => simp at hr
    | cons _ hst _ _ ih => cases k with
      | zero => cases hr; rw [hst] at hstop; cases hstop
      | succ k => simpa using ih k (by simpa using hr)

/-- **C38.** The limit stops the job at the first recorded increment that exceeds it, so every earlier
increment is within the limit; at most `incs` increments are recorded; fewer only because the last one
exceeds the limit or ended with an error message. -/
theorem C38_limit_stop (env : Env F) (P : Problem F) (cfg : PFCfg F) (fuel : Nat) (x : List F)
    (a : Analysis F) (o : PFOut F) (h : pathfollow env P cfg fuel x a = .ok o) :
    (∀ k r, o.recs[k]? = some r → ExceedsLimit r.x cfg.xlimit → k + 1 = o.recs.length) ∧
    o.recs.length ≤ cfg.incs ∧
    (o.recs.length < cfg.incs → ∃ r, o.recs.getLast? = some r ∧
      (r.isError ∨ ExceedsLimit r.x cfg.xlimit)) := by
  obtain ⟨-, -, j, s', -, -, -, hpath⟩ := pathfollow_ok h
  have hlim : ∀ x b, limitReached x cfg.xlimit = .ok b → (b = true ↔ ExceedsLimit x cfg.xlimit) := by
    intro x b hb
    unfold limitReached at hb
    unfold ExceedsLimit
    cases hl : cfg.xlimit with
    | none => rw [hl] at hb; cases hb; simp
    | some p =>
      obtain ⟨i, lim⟩ := p
      rw [hl] at hb
      obtain ⟨v, h1, h2⟩ := py_bind_eq_ok.1 hb
      cases h2
      constructor
      · intro h2; exact ⟨i, lim, v, rfl, h1, h2⟩
      · rintro ⟨i', lim', v', h2, h3, h4⟩
        cases h2
        rw [h1] at h3; cases h3
        exact h4
  clear h
  generalize o.recs = recs at *
  generalize pfStart cfg x a j = s0 at *
  generalize cfg.incs = N at *
  induction hpath with
  | nil => simp
  | @stop _ _ s1 o1 _ hst =>
    refine ⟨?_, by simp, fun _ => ⟨_, rfl, .inl ?_⟩⟩
    · intro k r hk _
      cases k with
      | zero => rfl
      | succ k => simp at hk
    · cases o1 <;> first | exact .inl rfl | exact .inr rfl | cases hst
  | limit _ _ hl =>
    refine ⟨?_, by simp, fun _ => ⟨_, rfl, .inr ((hlim _ _ hl).1 rfl)⟩⟩
    intro k r hk _
    cases k with
    | zero => rfl
    | succ k => simp at hk
  | cons _ hst hl _ ih =>
    obtain ⟨ih1, ih2, ih3⟩ := ih
    refine ⟨?_, by simpa using ih2, ?_⟩
    · intro k r hk hex
      cases k with
      | zero => cases hk; exact absurd ((hlim _ _ hl).2 hex) (by simp)
      | succ k => simpa using ih1 k r (by simpa using hk) hex
    · intro hlt
      obtain ⟨r, hr1, hr2⟩ := ih3 (by simpa using hlt)
      exact ⟨r, by rw [List.getLast?_cons, hr1]; rfl, hr2⟩

/-- **C39.** `pathfollow` returns equally many vectors and snapshots; the first pair is the start
vector and the analysis as given; every later snapshot carries its vector (`Vred`), the displacement
part (`Ured`) and the load factor (`lpf`). -/
theorem C39_snapshots (env : Env F) (P : Problem F) (cfg : PFCfg F) (fuel : Nat) (x : List F)
    (a : Analysis F) (o : PFOut F) (h : pathfollow env P cfg fuel x a = .ok o) :
    o.resX.length = o.resA.length ∧ o.resX[0]? = some (x ++ [0]) ∧ o.resA[0]? = some a ∧
    ∀ k v s, o.resX[k + 1]? = some v → o.resA[k + 1]? = some s →
      s.Vred = v ∧ s.Ured = v.dropLast ∧ v.getLast? = s.lpf ∧ s.lpf ≠ none := by
  obtain ⟨hx, ha, j, s', -, -, -, hpath⟩ := pathfollow_ok h
  refine ⟨by simp [PFOut.resX, PFOut.resA], by simp [PFOut.resX, hx], by simp [PFOut.resA, ha], ?_⟩
  intro k v s hv hs
  simp only [PFOut.resX, PFOut.resA, List.getElem?_cons_succ, List.getElem?_map] at hv hs
  cases hr : o.recs[k]? with
  | none => rw [hr] at hv; cases hv
  | some r =>
    rw [hr] at hv hs
    cases hv; cases hs
    have hk : k < o.recs.length := (List.getElem?_eq_some_iff.1 hr).1
    exact hpath.forall (fun _ => True) (fun _ _ _ _ _ _ => trivial) trivial
      (fun _ _ r => r.a.Vred = r.x ∧ r.a.Ured = r.x.dropLast ∧ r.x.getLast? = r.a.lpf ∧ r.a.lpf ≠ none)
      (by
        intro s s' o _ hi
        cases hi with
        | pre _ _ hl => exact ⟨rfl, rfl, hl, by simp [RState.saved]⟩
        | solve _ _ _ _ _ hl => exact ⟨rfl, rfl, hl, by simp [RState.saved]⟩)
      k ((o.startX :: o.recs.map (·.x))[k]?.getD x) ((o.startA :: o.recs.map (·.a))[k]?.getD a) r
      (by
        rw [show (pfStart cfg x a j).x = o.startX from hx.symm]
        rw [List.getElem?_eq_getElem (by simp; omega)]
        rfl)
      (by
        rw [show (pfStart cfg x a j).a = o.startA from ha.symm]
        rw [List.getElem?_eq_getElem (by simp; omega)]
        rfl) hr

/-! ## C46 -/

/-- One iteration is not enough for predictor and solution: an increment that the predictor does not
solve raises. -/
theorem C46_nfev_one (env : Env F) (P : Problem F) (cfg : PFCfg F) (hn : cfg.nfev = 1)
    (hpre : cfg.jPre = true) (hf : cfg.jFixed = false) (fuel : Nat) (x : List F) (a : Analysis F)
    (o : PFOut F) (h : pathfollow env P cfg fuel x a = .ok o) (r : Rec F) (hr : o.recs[0]? = some r) :
    r.out = .predictor ∧ r.x = x ++ [0] := by
  obtain ⟨-, -, j, s', -, -, -, hpath⟩ := pathfollow_ok h
  have key : ∀ s' o', IsInc env P cfg (initDxmax (x ++ [0]) cfg.dxmax) (pfStart cfg x a j) s' o' →
      o' = .predictor ∧ s'.x = x ++ [0] := by
    intro s1 o1 hi
    cases hi with
    | pre => exact ⟨rfl, rfl⟩
    | @solve p lpf n st1 st' o d hp hs hn' hd he hl =>
      exfalso
      have hn1 : p.nPre = 1 := by
        cases hp with
        | skip hc => exact absurd ⟨by simp [pfStart, hpre], hf⟩ hc
        | one _ _ _ h3 =>
          have h4 := newton_last h3
          exact le_antisymm h4.2.1 h4.1
      have hno : ∀ d, ¬ IsPass env P cfg ((pfStart cfg x a j).rctx p (initDxmax (x ++ [0]) cfg.dxmax))
          ((pfStart cfg x a j).start p) d := by
        intro d hd
        have := hd.hnewton
        rw [newton_nfev_nonpos] at this
        · cases this
        · rw [hn, show ((pfStart cfg x a j).start p).nPre = 1 from hn1]; decide
      cases hn' with
      | zero => exact hno _ hd
      | succ ha _ =>
        obtain ⟨d', hd', -⟩ := attempt_ok ha
        exact hno _ hd'
  generalize o.recs = recs at hr hpath
  generalize cfg.incs = N at hpath
  cases hpath with
  | nil => cases hr
  | stop hi => cases hr; exact key _ _ hi
  | limit hi => cases hr; exact key _ _ hi
  | cons hi => cases hr; exact key _ _ hi

/-- Without any active degree of freedom no increment is ever solved: only increments that the
predictor skips can be recorded, everything else raises. -/
theorem C46_no_active_dof (env : Env F) (P : Problem F) (cfg : PFCfg F) (fuel : Nat) (a : Analysis F)
    (o : PFOut F) (h : pathfollow env P cfg fuel [] a = .ok o) (r : Rec F) (hr : r ∈ o.recs) :
    r.out = .predictor ∧ r.x = [0] := by
  obtain ⟨hx, ha, j, s', -, hlen, -, hpath⟩ := pathfollow_ok h
  obtain ⟨k, hk⟩ := List.mem_iff_getElem?.1 hr
  have hk' : k < o.recs.length := (List.getElem?_eq_some_iff.1 hk).1
  refine hpath.forall (fun s => s.x = [0])
    ?_ rfl (fun _ _ r => r.out = .predictor ∧ r.x = [0]) ?_
    k ((o.startX :: o.recs.map (·.x))[k]?.getD []) ((o.startA :: o.recs.map (·.a))[k]?.getD a) r
    (by
      rw [show (pfStart cfg [] a j).x = o.startX from hx.symm]
      rw [List.getElem?_eq_getElem (by simp; omega)]
      rfl)
    (by
      rw [show (pfStart cfg [] a j).a = o.startA from ha.symm]
      rw [List.getElem?_eq_getElem (by simp; omega)]
      rfl) hk
  all_goals
    intro s s' o hs hi
    cases hi with
    | pre => simp [hs]
    | solve hp _ hn hd he =>
      exfalso
      have := hd.hlen
      simp [vdiv, vsub, PState.rctx, hs] at this

/-- How NaN propagates through the operations used on increments (true for IEEE doubles, where
`Flt.sgn v = none` says that `v` is NaN). -/
structure NaNLaws (F : Type) [Sub F] [Mul F] [Div F] [Flt F] : Prop where
  abs (v : F) : Flt.sgn v = none → Flt.sgn (Flt.abs v) = none
  of_abs (v : F) : Flt.sgn (Flt.abs v) = none → Flt.sgn v = none
  mul (v w : F) : Flt.sgn v = none → Flt.sgn (v * w) = none
  sub (v w : F) : Flt.sgn v = none → Flt.sgn (v - w) = none
  div (v w : F) : Flt.sgn v = none → Flt.sgn (v / w) = none

/-- `np.argsort` puts NaN at the end. -/
def NaNLast (env : Env F) : Prop :=
  ∀ l : List F, (∃ v ∈ l, Flt.sgn v = none) →
    ∃ i v, (env.argsortF l).getLast? = some i ∧ l[i]? = some v ∧ Flt.sgn v = none

/-- A NaN never enters the results: unless the user fixed the control component, every increment that
changes the vector records no NaN, because the selection of the control component raises. -/
theorem C46_nan_raises (hN : NaNLaws F) (env : Env F) (henv : NaNLast env) (P : Problem F) (cfg : PFCfg F)
    (hf : cfg.jFixed = false) (fuel : Nat) (x : List F) (a : Analysis F)
    (o : PFOut F) (h : pathfollow env P cfg fuel x a = .ok o) (r : Rec F) (hr : r ∈ o.recs)
    (hout : r.out ≠ .predictor) (v : F) (hv : v ∈ r.x) : Flt.sgn v ≠ none := by
  obtain ⟨hx, ha, j, s', -, hlen0, -, hpath⟩ := pathfollow_ok h
  obtain ⟨k, hk⟩ := List.mem_iff_getElem?.1 hr
  have hk' : k < o.recs.length := (List.getElem?_eq_some_iff.1 hk).1
  have hincs : cfg.incs ≠ 0 := by
    intro h0
    rw [h0] at hpath
    generalize o.recs = recs at hpath hr
    cases hpath with
    | nil => simp at hr
  have hlen := hlen0 hincs
  refine hpath.forall (fun s => s.x.length = x.length + 1 ∧ s.dxmax.length = x.length + 1)
    ?_ ⟨by simp [pfStart], by simpa [pfStart] using hlen⟩
    (fun _ _ r => r.out ≠ .predictor → ∀ v ∈ r.x, Flt.sgn v ≠ none) ?_
    k ((o.startX :: o.recs.map (·.x))[k]?.getD []) ((o.startA :: o.recs.map (·.a))[k]?.getD a) r
    (by
      rw [show (pfStart cfg x a j).x = o.startX from hx.symm]
      rw [List.getElem?_eq_getElem (by simp; omega)]
      rfl)
    (by
      rw [show (pfStart cfg x a j).a = o.startA from ha.symm]
      rw [List.getElem?_eq_getElem (by simp; omega)]
      rfl) hk hout v hv
  · rintro s s' o ⟨i1, i2⟩ hi -
    have hl := hi.length (by rw [hlen, i1]) (by rw [i2, i1])
    exact ⟨by rw [hl.1, i1], by rw [hl.2, i1]⟩
  · rintro s s' o ⟨i1, i2⟩ hi hout v hv hnan
    cases hi with
    | pre => exact hout rfl
    | @solve p lpf n st1 st' o d hp hs hn hd he hl =>
      have h0 : (initDxmax (x ++ [0]) cfg.dxmax).length = s.x.length := by rw [hlen, i1]
      have h1 : s.dxmax.length = s.x.length := by rw [i2, i1]
      have hfits := hp.fits h0
      have hnl := hn.length hfits h1
      have hxl := (hd.length hfits hnl).1
      have hv' : v ∈ d.nr.x := by rw [← he.dxmax.2]; exact hv
      obtain ⟨i, hi⟩ := List.mem_iff_getElem?.1 hv'
      have hilt : i < d.nr.x.length := (List.getElem?_eq_some_iff.1 hi).1
      -- the corresponding entry of Dx/dxmax is NaN
      have hw : ∃ w ∈ (vdiv (vsub d.nr.x (s.rctx p (initDxmax (x ++ [0]) cfg.dxmax)).x0) st1.dxmax).map Flt.abs,
          Flt.sgn w = none := by
        have e1 : (s.rctx p (initDxmax (x ++ [0]) cfg.dxmax)).x0[i]? =
            some ((s.rctx p (initDxmax (x ++ [0]) cfg.dxmax)).x0[i]'(by omega)) := List.getElem?_eq_getElem _
        have e2 : st1.dxmax[i]? = some (st1.dxmax[i]'(by omega)) := List.getElem?_eq_getElem _
        refine ⟨Flt.abs ((v - (s.rctx p (initDxmax (x ++ [0]) cfg.dxmax)).x0[i]'(by omega)) /
          (st1.dxmax[i]'(by omega))), ?_, hN.abs _ (hN.div _ _ (hN.sub _ _ hnan))⟩
        rw [List.mem_map]
        refine ⟨_, List.mem_of_getElem? (i := i) ?_, rfl⟩
        simp [vdiv, vsub, List.getElem?_zipWith, hi, e1, e2]
      obtain ⟨k, w, hk1, hk2, hk3⟩ := henv _ hw
      have hm := hd.hmax
      unfold maxComp at hm
      rw [hk1] at hm
      simp only [List.getElem?_map] at hk2 hm
      split at hm
      · cases hm
      next u hu =>
      rw [hu] at hk2
      cases hk2
      have hj := hd.hj
      unfold nextJ at hj
      rw [if_neg (by rw [hf]; simp)] at hj
      have hv1 : Flt.abs u * npSign u = d.v1 := congrArg Prod.snd (Except.ok.inj hm)
      unfold signedIdx at hj
      rw [← hv1, hN.mul _ _ hk3] at hj
      cases hj

end

/-! ## Examples -/

/-- The spring example runs: three increments, the last one beyond the limit; all are accepted, and
`C34_recorded_increments`, `C38_limit_stop` and `C39_snapshots` apply to it. -/
example : KeepsWidth exSpring ∧ ∃ o, pathfollow exEnv exSpring exCfg 10 [0] exSpringA = .ok o ∧
    o.recs.map (fun r => (r.x, r.a.dVmax, r.out)) =
      [([1/10, 11/100], some [1/10, 1/4], .accepted), ([1/5, 6/25], some [1/10, 1/4], .accepted),
        ([3/10, 39/100], some [1/10, 1/4], .accepted)] := by
  refine ⟨?_, summary_ok (by decide +kernel)⟩
  intro a V V0 w a' r h
  simp only [exSpring, springProblem] at h
  split at h
  · cases h; rfl
  · cases h

/-- An error-stopped job: the width tolerance 1/2 is never met, the iterate of the last recycle is
recorded although it moves further than allowed. -/
example : summary (pathfollow exEnv exSpring { exCfg with dxtol := 1/2 } 10 [0] exSpringA) =
    .ok [([1/10, 11/100], some [1/10, 1/4], .error1)] := by
  decide +kernel

/-- With `nfev = 1` the spring job raises. -/
example : summary (pathfollow exEnv exSpring { exCfg with nfev := 1 } 10 [0] exSpringA) =
    .error .unboundLocal := by
  decide +kernel

/-- With `nfev = 1` and tolerances so large that the predictor meets them, `C46_nfev_one` applies: the
increment is recorded without change. -/
example : summary (pathfollow exEnv exSpring { exCfg with nfev := 1, ftol := 1, xtol := 1, incs := 1, dxtol := 10 } 10 [0]
    exSpringA) = .ok [([0, 0], none, .predictor)] := by
  decide +kernel

/-- A problem without degrees of freedom. -/
def exEmpty : Problem ℚ where
  g a _ _ _ := .ok (a, [])
  dgdx a _ := .ok (a, [])

/-- Solver for one equation. -/
def exEnv1 : Env ℚ where
  spsolve A b := match A, b with
    | [[p]], [u] => .ok [u / p]
    | _, _ => .error .valueError
  argsortF l := List.range l.length

/-- Without active degrees of freedom the first increment raises; with tolerances larger than the step
width it is skipped by the predictor (`C46_no_active_dof` applies). -/
example : summary (pathfollow exEnv1 exEmpty exCfg 10 [] exSpringA) = .error .indexError ∧
    summary (pathfollow exEnv1 exEmpty { exCfg with xtol := 1, incs := 1, xlimit := none, dxtol := 10 } 10 [] exSpringA) =
      .ok [([0], none, .predictor)] := by
  constructor <;> decide +kernel

/-- A sort of rational numbers that puts NaN at the end. -/
def exEnvNQ : Env NQ where
  spsolve := cramer
  argsortF l :=
    let nan := (List.range l.length).filter fun i => ((l.getD i ⟨none⟩).val).isNone
    let num := (List.range l.length).filter fun i => ((l.getD i ⟨none⟩).val).isSome
    num.insertionSort (fun i j => ((l.getD i ⟨none⟩).val.getD 0) ≤ ((l.getD j ⟨none⟩).val.getD 0)) ++ nan

private theorem nq_sgn_none (v : NQ) : Flt.sgn v = none ↔ v.val = none := by
  obtain ⟨v⟩ := v
  cases v with
  | none => exact ⟨fun _ => rfl, fun _ => rfl⟩
  | some q => constructor <;> intro h <;> cases h

/-- The hypotheses of `C46_nan_raises` hold for rational numbers with NaN; the spring runs, and if the
Jacobian of the spring is NaN the run raises `ValueError`. -/
example : NaNLaws NQ ∧ NaNLast exEnvNQ ∧
    ((pathfollow exEnvNQ springProblem (exCfgOf fun q => ⟨some q⟩) 10 [0]
      { Analysis.fresh 1 0 [] [0] 0 with f0red := [1] }).map fun o => o.recs.map fun r => r.x) =
        .ok [[⟨some (1/10)⟩, ⟨some (11/100)⟩], [⟨some (1/5)⟩, ⟨some (6/25)⟩], [⟨some (3/10)⟩, ⟨some (39/100)⟩]] ∧
    ((pathfollow exEnvNQ { springProblem with dgdx := fun a _ => .ok (a, [[Flt.nan]]) }
      (exCfgOf fun q => ⟨some q⟩) 10 [0] { Analysis.fresh 1 0 [] [0] 0 with f0red := [1] }).map
        fun o => o.recs.map fun r => r.x) = .error .valueError := by
  refine ⟨⟨?_, ?_, ?_, ?_, ?_⟩, ?_, by decide +kernel, by decide +kernel⟩
  · intro v h; rw [nq_sgn_none] at *; show v.val.map _ = none; rw [h]; rfl
  · intro v h
    rw [nq_sgn_none] at *
    simpa using (show v.val.map _ = none from h)
  · intro v w h
    rw [nq_sgn_none] at *
    show (NQ.lift _ v w).val = none
    simp [NQ.lift, h]
  · intro v w h
    rw [nq_sgn_none] at *
    show (NQ.lift _ v w).val = none
    simp [NQ.lift, h]
  · intro v w h
    rw [nq_sgn_none] at *
    show (if w.val = some 0 then (⟨none⟩ : NQ) else NQ.lift _ v w).val = none
    split
    · rfl
    · simp [NQ.lift, h]
  · rintro l ⟨v, hv, hn⟩
    obtain ⟨i, hi⟩ := List.mem_iff_getElem?.1 hv
    have hil : i < l.length := (List.getElem?_eq_some_iff.1 hi).1
    rw [nq_sgn_none] at hn
    set nan := (List.range l.length).filter fun i => ((l.getD i ⟨none⟩).val).isNone with hnan
    have hmem : i ∈ nan := by
      rw [hnan, List.mem_filter]
      refine ⟨List.mem_range.2 hil, ?_⟩
      simp [List.getD, hi, hn]
    have hne : nan ≠ [] := List.ne_nil_of_mem hmem
    have hlast := List.getLast_mem hne
    have hlast' := List.mem_filter.1 hlast
    refine ⟨nan.getLast hne, l[nan.getLast hne]'(List.mem_range.1 hlast'.1), ?_, ?_, ?_⟩
    · show (_ ++ nan).getLast? = _
      rw [List.getLast?_append_of_ne_nil _ hne, List.getLast?_eq_some_getLast hne]
    · exact List.getElem?_eq_getElem _
    · rw [nq_sgn_none]
      have := hlast'.2
      simpa [List.getD, List.getElem?_eq_getElem (List.mem_range.1 hlast'.1)] using this

end TrussPy
