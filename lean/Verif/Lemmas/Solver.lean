import Verif.Lemmas.Newton
/-!
# One pass of the recycle loop, the recycle loop and the increment loop
-/

namespace TrussPy

variable {F : Type} [Zero F] [One F] [Add F] [Sub F] [Mul F] [Div F] [Neg F] [Flt F]

/-- Values computed in one pass of the recycle loop. -/
structure PassData (F : Type) where
  xmax : F
  start : List F
  a1 : Analysis F
  nr : NewtonOut F
  i1 : Int
  v1 : F
  j : Int
  valid : Bool
  dc : DxOut F

/-- The values of `d` are those of a pass from `st`. -/
structure IsPass (env : Env F) (P : Problem F) (cfg : PFCfg F) (rc : RCtx F) (st : RState F)
    (d : PassData F) : Prop where
  hxmax : target rc.x0 st.dxmax st.j = .ok d.xmax
  hstart : d.start = if st.z = 0 ∧ rc.jPre ≠ 0 ∧ cfg.jFixed = false then
      vadd rc.x0 (rc.DxPre.map fun v => v / Flt.abs rc.vPre)
    else rc.x0
  hnewton : newton (extF P rc.x0 st.j d.xmax false) (extDf P st.j) env.spsolve st.a d.start
    (cfg.nfev - st.nPre) cfg.ftol cfg.xtol = .ok (d.a1, d.nr)
  hmax : maxComp env (vdiv (vsub d.nr.x rc.x0) st.dxmax) = .ok (d.i1, d.v1)
  hlen : 2 ≤ (vdiv (vsub d.nr.x rc.x0) st.dxmax).length
  hj : nextJ cfg st.j d.i1 d.v1 = .ok d.j
  hvalid : solutionValid cfg (vsub d.nr.x rc.x0) st.dxmax d.j = .ok d.valid
  hdc : nextWidth cfg rc st d.j d.nr = .ok d.dc

/-- Analysis object after the pass, before a commit. -/
def PassData.aD (d : PassData F) (st : RState F) : Analysis F := { d.a1 with dVmax := some st.dxmax }

/-- How a pass ends. -/
inductive PassEnd (P : Problem F) (cfg : PFCfg F) (rc : RCtx F) (st : RState F) (d : PassData F) :
    RState F → Option Outcome → Prop
  | accepted (a2 : Analysis F) (fx : List F) : d.valid = true → d.nr.success = true →
      extF P rc.x0 st.j d.xmax true (d.aD st) d.nr.x = .ok (a2, fx) →
      PassEnd P cfg rc st d ⟨d.nr.x, d.dc.z, st.nPre, d.dc.dxmax, d.j, d.dc.b + 1, a2⟩ (some .accepted)
  | error1 : (d.valid && d.nr.success) = false → d.dc.z + 1 = cfg.cycl →
      PassEnd P cfg rc st d ⟨d.nr.x, d.dc.z, st.nPre, d.dc.dxmax, d.j, d.dc.b, d.aD st⟩ (some .error1)
  | error2 : (d.valid && d.nr.success) = false → d.dc.z + 1 ≠ cfg.cycl → st.j = d.j →
      d.nr.success = false → d.dc.changed = false →
      PassEnd P cfg rc st d ⟨d.nr.x, d.dc.z, st.nPre, d.dc.dxmax, d.j, d.dc.b, d.aD st⟩ (some .error2)
  | again : (d.valid && d.nr.success) = false → d.dc.z + 1 ≠ cfg.cycl →
      ¬ (st.j = d.j ∧ d.nr.success = false ∧ d.dc.changed = false) →
      PassEnd P cfg rc st d ⟨d.nr.x, d.dc.z + 1, 0, d.dc.dxmax, if d.nr.success then d.j else st.j, d.dc.b,
        d.aD st⟩ none

theorem attempt_ok {env : Env F} {P : Problem F} {cfg : PFCfg F} {rc : RCtx F} {st st' : RState F}
    {o : Option Outcome} (h : attempt env P cfg rc st = .ok (st', o)) :
    ∃ d, IsPass env P cfg rc st d ∧ PassEnd P cfg rc st d st' o := by
  unfold attempt at h
  obtain ⟨xmax, h1, h⟩ := py_bind_eq_ok.1 h
  obtain ⟨⟨a1, nr⟩, h2, h⟩ := py_bind_eq_ok.1 h
  obtain ⟨⟨i1, v1⟩, h3, h⟩ := py_bind_eq_ok.1 h
  simp only at h
  split at h
  · cases h
  next hlen =>
  obtain ⟨j, h4, h⟩ := py_bind_eq_ok.1 h
  obtain ⟨valid, h5, h⟩ := py_bind_eq_ok.1 h
  obtain ⟨dc, h6, h⟩ := py_bind_eq_ok.1 h
  refine ⟨⟨xmax, _, a1, nr, i1, v1, j, valid, dc⟩, ⟨h1, rfl, h2, h3, Nat.le_of_not_lt hlen, ?_, h5, ?_⟩, ?_⟩
  · exact h4
  · exact h6
  split at h
  · next hv =>
    obtain ⟨⟨a2, fx⟩, h7, h⟩ := py_bind_eq_ok.1 h
    cases h
    rw [Bool.and_eq_true] at hv
    exact .accepted (d := ⟨xmax, _, a1, nr, i1, v1, j, valid, dc⟩) a2 fx hv.1 hv.2 h7
  next hv =>
  have hv' : (valid && nr.success) = false := by simpa using hv
  split at h
  · next hz =>
    cases h
    exact .error1 (d := ⟨xmax, _, a1, nr, i1, v1, j, valid, dc⟩) hv' hz
  next hz =>
  split at h
  · next he =>
    cases h
    exact .error2 (d := ⟨xmax, _, a1, nr, i1, v1, j, valid, dc⟩) hv' hz he.1 he.2.1 he.2.2
  next he =>
  cases h
  exact .again (d := ⟨xmax, _, a1, nr, i1, v1, j, valid, dc⟩) hv' hz he

/-- `n` unsuccessful passes in a row. -/
inductive Passes (env : Env F) (P : Problem F) (cfg : PFCfg F) (rc : RCtx F) :
    Nat → RState F → RState F → Prop
  | zero (st) : Passes env P cfg rc 0 st st
  | succ {n st st1 st2} : attempt env P cfg rc st = .ok (st1, none) → Passes env P cfg rc n st1 st2 →
      Passes env P cfg rc (n + 1) st st2

theorem recycle_ok {env : Env F} {P : Problem F} {cfg : PFCfg F} {rc : RCtx F} :
    ∀ {k : Nat} {st st' : RState F} {o : Outcome}, recycle env P cfg rc k st = .ok (st', o) →
      ∃ n st1, Passes env P cfg rc n st st1 ∧ attempt env P cfg rc st1 = .ok (st', some o)
  | 0, _, _, _, h => by cases h
  | k + 1, st, st', o, h => by
    unfold recycle at h
    obtain ⟨⟨s1, o1⟩, h1, h⟩ := py_bind_eq_ok.1 h
    cases o1 with
    | some o1 => cases h; exact ⟨0, st, .zero _, h1⟩
    | none =>
      obtain ⟨n, st1, hp, ha⟩ := recycle_ok h
      exact ⟨n + 1, st1, .succ h1 hp, ha⟩

/-- If no chain of `N` passes exists, fuel beyond `N` is irrelevant. -/
theorem recycle_fuel {env : Env F} {P : Problem F} {cfg : PFCfg F} {rc : RCtx F} :
    ∀ (N : Nat) (st : RState F), (∀ n st1, Passes env P cfg rc n st st1 → n < N) →
      ∀ k, N ≤ k → recycle env P cfg rc k st = recycle env P cfg rc N st
  | 0, st, hN, k, _ => absurd (hN 0 st (.zero _)) (by omega)
  | N + 1, st, hN, k, hk => by
    obtain ⟨k, rfl⟩ : ∃ k', k = k' + 1 := ⟨k - 1, by omega⟩
    unfold recycle
    cases ha : attempt env P cfg rc st with
    | error e => rfl
    | ok r =>
      obtain ⟨s1, o1⟩ := r
      cases o1 with
      | some o => rfl
      | none =>
        exact recycle_fuel N s1 (fun n st1 hp => by have := hN _ _ (.succ ha hp); omega) k (by omega)

/-- ... and running out of fuel must come from a pass itself. -/
theorem recycle_outOfFuel {env : Env F} {P : Problem F} {cfg : PFCfg F} {rc : RCtx F} :
    ∀ (N : Nat) (st : RState F), (∀ n st1, Passes env P cfg rc n st st1 → n < N) →
      recycle env P cfg rc N st = .error .outOfFuel →
      ∃ n st1, Passes env P cfg rc n st st1 ∧ attempt env P cfg rc st1 = .error .outOfFuel
  | 0, st, hN, _ => absurd (hN 0 st (.zero _)) (by omega)
  | N + 1, st, hN, h => by
    unfold recycle at h
    cases ha : attempt env P cfg rc st with
    | error e => rw [ha] at h; cases h; exact ⟨0, st, .zero _, ha⟩
    | ok r =>
      obtain ⟨s1, o1⟩ := r
      rw [ha] at h
      cases o1 with
      | some o => cases h
      | none =>
        obtain ⟨n, st1, hp, he⟩ :=
          recycle_outOfFuel N s1 (fun n st1 hp => by have := hN _ _ (.succ ha hp); omega) h
        exact ⟨n + 1, st1, .succ ha hp, he⟩

/-- The predictor block: either skipped or one Newton iteration. -/
inductive IsPre (env : Env F) (P : Problem F) (cfg : PFCfg F) (s : PState F) : PreOut F → Prop
  | skip : ¬ (s.jPre ≠ 0 ∧ cfg.jFixed = false) → IsPre env P cfg s ⟨false, 0, s.j, s.jPre, [], 0, s.a⟩
  | one {xmax a1 nr i1 v1 j} : s.jPre ≠ 0 → cfg.jFixed = false → target s.x s.dxmax s.j = .ok xmax →
      newton (extF P s.x s.j xmax false) (extDf P s.j) env.spsolve s.a s.x 1 cfg.ftol cfg.xtol = .ok (a1, nr) →
      maxComp env (vdiv (vsub nr.x s.x) s.dxmax) = .ok (i1, v1) → signedIdx i1 v1 = .ok j →
      IsPre env P cfg s
        ⟨if Flt.lt cfg.dxtol (Flt.abs v1) then false else nr.success, nr.n, j, j, vsub nr.x s.x, v1, a1⟩

theorem predictor_ok {env : Env F} {P : Problem F} {cfg : PFCfg F} {s : PState F} {p : PreOut F}
    (h : predictor env P cfg s = .ok p) : IsPre env P cfg s p := by
  unfold predictor at h
  split at h
  · next hc =>
    obtain ⟨xmax, h1, h⟩ := py_bind_eq_ok.1 h
    obtain ⟨⟨a1, nr⟩, h2, h⟩ := py_bind_eq_ok.1 h
    obtain ⟨⟨i1, v1⟩, h3, h⟩ := py_bind_eq_ok.1 h
    obtain ⟨j, h4, h⟩ := py_bind_eq_ok.1 h
    cases h
    exact .one hc.1 hc.2 h1 h2 h3 h4
  · next hc =>
    cases h
    exact .skip hc

/-- State at the begin of the recycle loop. -/
def PState.start (s : PState F) (p : PreOut F) : RState F := ⟨s.x, 0, p.nPre, s.dxmax, p.j, s.b, p.a⟩

/-- Constants of the recycle loop. -/
def PState.rctx (s : PState F) (p : PreOut F) (dxmax0 : List F) : RCtx F :=
  ⟨s.x, dxmax0, p.jPre, p.DxPre, p.vPre⟩

/-- The analysis object as saved at the end of an increment. -/
def RState.saved (st : RState F) (lpf : F) : Analysis F :=
  { st.a with Vred := st.x, Ured := st.x.dropLast, lpf := some lpf }

/-- One increment. -/
inductive IsInc (env : Env F) (P : Problem F) (cfg : PFCfg F) (dxmax0 : List F) (s : PState F) :
    PState F → Outcome → Prop
  | pre {p lpf} : IsPre env P cfg s p → p.success = true → s.x.getLast? = some lpf →
      IsInc env P cfg dxmax0 s
        ⟨s.x, s.dxmax, p.j, p.jPre, s.b, (s.start p).saved lpf⟩ .predictor
  | solve {p lpf n st1 st' o d} : IsPre env P cfg s p → p.success = false →
      Passes env P cfg (s.rctx p dxmax0) n (s.start p) st1 →
      IsPass env P cfg (s.rctx p dxmax0) st1 d →
      PassEnd P cfg (s.rctx p dxmax0) st1 d st' (some o) → st'.x.getLast? = some lpf →
      IsInc env P cfg dxmax0 s ⟨st'.x, st'.dxmax, st'.j, p.jPre, st'.b, st'.saved lpf⟩ o

theorem increment_ok {env : Env F} {P : Problem F} {cfg : PFCfg F} {dxmax0 : List F} {fuel : Nat}
    {s s' : PState F} {o : Outcome} (h : increment env P cfg dxmax0 fuel s = .ok (s', o)) :
    IsInc env P cfg dxmax0 s s' o := by
  unfold increment at h
  obtain ⟨⟨jp, st, o1⟩, h1, h⟩ := py_bind_eq_ok.1 h
  simp only at h
  split at h
  · cases h
  next lpf hl =>
  cases h
  unfold solveInc at h1
  obtain ⟨p, hp, h1⟩ := py_bind_eq_ok.1 h1
  have hpre := predictor_ok hp
  simp only at h1
  split at h1
  · next hs =>
    cases h1
    exact .pre hpre hs hl
  · next hs =>
    obtain ⟨⟨st2, o2⟩, h2, h1⟩ := py_bind_eq_ok.1 h1
    cases h1
    obtain ⟨n, st1, hn, ha⟩ := recycle_ok h2
    obtain ⟨d, hd, he⟩ := attempt_ok ha
    exact .solve hpre (by simpa using hs) hn hd he hl

/-- A sequence of increments as performed by the increment loop with at most `k` increments; every
record comes with the state before it. -/
inductive Path (env : Env F) (P : Problem F) (cfg : PFCfg F) (dxmax0 : List F) :
    Nat → PState F → List (Rec F) → PState F → Prop
  | nil (s) : Path env P cfg dxmax0 0 s [] s
  | stop {k s s' o} : IsInc env P cfg dxmax0 s s' o → o.isStop = true →
      Path env P cfg dxmax0 (k + 1) s [⟨s'.x, s'.a, o⟩] s'
  | limit {k s s' o} : IsInc env P cfg dxmax0 s s' o → o.isStop = false →
      limitReached s'.x cfg.xlimit = .ok true → Path env P cfg dxmax0 (k + 1) s [⟨s'.x, s'.a, o⟩] s'
  | cons {k s s1 s' o recs} : IsInc env P cfg dxmax0 s s1 o → o.isStop = false →
      limitReached s1.x cfg.xlimit = .ok false → Path env P cfg dxmax0 k s1 recs s' →
      Path env P cfg dxmax0 (k + 1) s (⟨s1.x, s1.a, o⟩ :: recs) s'

theorem incrLoop_ok {env : Env F} {P : Problem F} {cfg : PFCfg F} {dxmax0 : List F} {fuel : Nat} :
    ∀ {k : Nat} {s s' : PState F} {recs : List (Rec F)},
      incrLoop env P cfg dxmax0 fuel k s = .ok (s', recs) → Path env P cfg dxmax0 k s recs s'
  | 0, _, _, _, h => by cases h; exact .nil _
  | k + 1, s, s', recs, h => by
    unfold incrLoop at h
    obtain ⟨⟨s1, o⟩, h1, h⟩ := py_bind_eq_ok.1 h
    have hi := increment_ok h1
    simp only at h
    split at h
    · next hs => cases h; exact .stop hi hs
    next hs =>
    have hs : o.isStop = false := by simpa using hs
    obtain ⟨lim, h2, h⟩ := py_bind_eq_ok.1 h
    split at h
    · next hl =>
      cases h
      rw [hl] at h2
      exact .limit hi hs h2
    next hl =>
    obtain ⟨⟨s2, rest⟩, h3, h⟩ := py_bind_eq_ok.1 h
    cases h
    rw [Bool.not_eq_true] at hl
    rw [hl] at h2
    exact .cons hi hs h2 (incrLoop_ok h3)

/-- Initial state of `pathfollow`. -/
def pfStart (cfg : PFCfg F) (x : List F) (a : Analysis F) (j : Int) : PState F :=
  ⟨x ++ [0], initDxmax (x ++ [0]) cfg.dxmax, j, if cfg.jPre then 1 else 0, 4, a⟩

/-- Initial control component. -/
def StartJ (cfg : PFCfg F) (x : List F) (j : Int) : Prop :=
  if cfg.jFixed then cfg.j = some j ∨ (cfg.j = none ∧ cfg.incs = 0 ∧ j = 0) else j = x.length + 1

theorem pathfollow_ok {env : Env F} {P : Problem F} {cfg : PFCfg F} {fuel : Nat} {x : List F}
    {a : Analysis F} {o : PFOut F} (h : pathfollow env P cfg fuel x a = .ok o) :
    o.startX = x ++ [0] ∧ o.startA = a ∧ ∃ j s', StartJ cfg x j ∧
      (cfg.incs ≠ 0 → (initDxmax (x ++ [0]) cfg.dxmax).length = x.length + 1) ∧ o.final = s'.a ∧
      Path env P cfg (initDxmax (x ++ [0]) cfg.dxmax) cfg.incs (pfStart cfg x a j) o.recs s' := by
  unfold pathfollow at h
  obtain ⟨j, h1, h⟩ := py_bind_eq_ok.1 h
  simp only at h
  split at h
  · cases h
  next hlen =>
  obtain ⟨⟨s', recs⟩, h2, h⟩ := py_bind_eq_ok.1 h
  cases h
  refine ⟨rfl, rfl, j, s', ?_, fun hi => ?_, rfl, incrLoop_ok h2⟩
  swap
  · by_contra hc
    exact hlen ⟨by simpa using hc, hi⟩
  unfold StartJ
  unfold startJ at h1
  split at h1
  · next hf =>
    rw [if_pos hf]
    split at h1
    · next j' hj => cases h1; exact .inl hj
    · next hj =>
      split at h1
      · next hi => cases h1; exact .inr ⟨hj, hi, rfl⟩
      · cases h1
  · next hf =>
    rw [if_neg hf]
    cases h1
    simp

end TrussPy
