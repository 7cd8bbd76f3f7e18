import Verif.Lemmas.Path
/-!
# Fuel of the recycle loop
-/

set_option linter.unusedSectionVars false

namespace TrussPy

variable {F : Type} [Zero F] [One F] [Add F] [Sub F] [Mul F] [Div F] [Neg F] [Flt F]

/-- The computation does not report exhausted fuel. -/
def NoFuel {α : Type} (m : Py α) : Prop := m ≠ .error .outOfFuel

/-- The external functions are Python functions: they have no fuel to exhaust. -/
structure Total (env : Env F) (P : Problem F) : Prop where
  spsolve (A b) : NoFuel (env.spsolve A b)
  g (a V V0 w) : NoFuel (P.g a V V0 w)
  dgdx (a U) : NoFuel (P.dgdx a U)

theorem NoFuel.ok {α : Type} (v : α) : NoFuel (.ok v : Py α) := by intro h; cases h

theorem NoFuel.pure {α : Type} (v : α) : NoFuel (Pure.pure v : Py α) := by intro h; cases h

theorem NoFuel.err {α : Type} {e : Err} (he : e ≠ .outOfFuel) : NoFuel (.error e : Py α) := by
  intro h; cases h; exact he rfl

theorem NoFuel.bind {α β : Type} {m : Py α} {f : α → Py β} (hm : NoFuel m) (hf : ∀ v, m = .ok v → NoFuel (f v)) :
    NoFuel (m >>= f) := by
  cases hv : m with
  | error e =>
    intro h
    rw [hv] at hm
    cases h
    exact hm rfl
  | ok v => exact hf v hv

theorem pyGet_noFuel {α : Type} (l : List α) (i : Int) : NoFuel (pyGet l i) := by
  unfold pyGet
  simp only
  generalize (if 0 ≤ i then i else i + (l.length : Int)) = k
  split
  · exact .err (by decide)
  · cases l[k.toNat]? with
    | none => exact .err (by decide)
    | some v => exact .ok _

theorem pySet_noFuel {α : Type} (l : List α) (i : Int) (v : α) : NoFuel (pySet l i v) := by
  unfold pySet
  simp only
  generalize (if 0 ≤ i then i else i + (l.length : Int)) = k
  split
  · exact .err (by decide)
  · exact .ok _

theorem newtonLoop_noFuel {S : Type} {f : S → List F → Py (S × List F)}
    {df : S → List F → Py (S × List (List F))} {sp : List (List F) → List F → Py (List F)} {ftol xtol : F}
    (hf : ∀ s x, NoFuel (f s x)) (hdf : ∀ s x, NoFuel (df s x)) (hsp : ∀ A b, NoFuel (sp A b)) :
    ∀ (k : Nat) (n : Int) (s : S) (x : List F), NoFuel (newtonLoop f df sp ftol xtol k n s x)
  | 0, _, _, _ => .err (by decide)
  | k + 1, n, s, x => by
    unfold newtonLoop
    refine .bind (hdf _ _) fun _ _ => .bind (hf _ _) fun _ _ => .bind (hsp _ _) fun _ _ => ?_
    split
    · exact .err (by decide)
    refine .bind (hf _ _) fun r _ => ?_
    simp only
    split
    · exact .ok _
    · cases k with
      | zero => exact .ok _
      | succ k => exact newtonLoop_noFuel hf hdf hsp (k + 1) _ _ _

theorem extF_noFuel {env : Env F} {P : Problem F} (h : Total env P) (V0 : List F) (j : Int) (Vmax : F)
    (w : Bool) (a : Analysis F) (V : List F) : NoFuel (extF P V0 j Vmax w a V) := by
  unfold extF
  exact .bind (h.g _ _ _ _) fun _ _ => .bind (pyGet_noFuel _ _) fun _ _ => .ok _

theorem extDf_noFuel {env : Env F} {P : Problem F} (h : Total env P) (j : Int) (a : Analysis F)
    (V : List F) : NoFuel (extDf P j a V) := by
  unfold extDf
  exact .bind (pySet_noFuel _ _ _) fun _ _ => .bind (h.dgdx _ _) fun _ _ => .ok _

theorem newton_noFuel {env : Env F} {P : Problem F} (h : Total env P) (V0 : List F) (j : Int) (Vmax : F)
    (w : Bool) (a : Analysis F) (x : List F) (nfev : Int) (ftol xtol : F) :
    NoFuel (newton (extF P V0 j Vmax w) (extDf P j) env.spsolve a x nfev ftol xtol) :=
  newtonLoop_noFuel (fun _ _ => extF_noFuel h _ _ _ _ _ _) (fun _ _ => extDf_noFuel h _ _ _) h.spsolve _ _ _ _

theorem target_noFuel (x d : List F) (j : Int) : NoFuel (target x d j) := by
  unfold target
  exact .bind (pyGet_noFuel _ _) fun _ _ => .bind (pyGet_noFuel _ _) fun _ _ => .ok _

theorem maxComp_noFuel (env : Env F) (d : List F) : NoFuel (maxComp env d) := by
  unfold maxComp
  split
  · exact .err (by decide)
  · split
    · exact .err (by decide)
    · exact .ok _

theorem signedIdx_noFuel (i : Int) (v : F) : NoFuel (signedIdx i v) := by
  unfold signedIdx
  split
  · exact .err (by decide)
  · exact .ok _

theorem nextJ_noFuel (cfg : PFCfg F) (j i : Int) (v : F) : NoFuel (nextJ cfg j i v) := by
  unfold nextJ
  split
  · exact .ok _
  · exact signedIdx_noFuel _ _

theorem solutionValid_noFuel (cfg : PFCfg F) (x d : List F) (j : Int) : NoFuel (solutionValid cfg x d j) := by
  unfold solutionValid
  split
  · exact .bind (pyGet_noFuel _ _) fun _ _ => .bind (pyGet_noFuel _ _) fun _ _ => .ok _
  · exact .ok _

theorem dxmaxControl_noFuel (cfg : PFCfg F) (dxmax dxmax0 : List F) (j j0 z : Int) (s : Bool)
    (b n nfev : Int) : NoFuel (dxmaxControl cfg dxmax dxmax0 j j0 z s b n nfev) := by
  unfold dxmaxControl
  refine .bind (pyGet_noFuel _ _) fun _ _ => .bind (pyGet_noFuel _ _) fun _ _ => ?_
  simp only
  repeat' split
  all_goals exact .ok _

theorem nextWidth_noFuel (cfg : PFCfg F) (rc : RCtx F) (st : RState F) (j : Int) (nr : NewtonOut F) :
    NoFuel (nextWidth cfg rc st j nr) := by
  unfold nextWidth
  split
  · exact dxmaxControl_noFuel _ _ _ _ _ _ _ _ _ _
  · exact .ok _

theorem attempt_noFuel {env : Env F} {P : Problem F} (h : Total env P) (cfg : PFCfg F) (rc : RCtx F)
    (st : RState F) : NoFuel (attempt env P cfg rc st) := by
  unfold attempt
  refine .bind (target_noFuel _ _ _) fun _ _ => .bind (newton_noFuel h _ _ _ _ _ _ _ _ _) fun _ _ => ?_
  refine .bind (maxComp_noFuel _ _) fun _ _ => ?_
  simp only
  split
  · exact .err (by decide)
  refine .bind (nextJ_noFuel _ _ _ _) fun _ _ => .bind (solutionValid_noFuel _ _ _ _) fun _ _ => ?_
  refine .bind (nextWidth_noFuel _ _ _ _ _) fun _ _ => ?_
  split
  · exact .bind (extF_noFuel h _ _ _ _ _ _) fun _ _ => .ok _
  · split
    · exact .ok _
    · split
      · exact .ok _
      · exact .ok _

theorem predictor_noFuel {env : Env F} {P : Problem F} (h : Total env P) (cfg : PFCfg F) (s : PState F) :
    NoFuel (predictor env P cfg s) := by
  unfold predictor
  split
  · refine .bind (target_noFuel _ _ _) fun _ _ => .bind (newton_noFuel h _ _ _ _ _ _ _ _ _) fun _ _ => ?_
    exact .bind (maxComp_noFuel _ _) fun _ _ => .bind (signedIdx_noFuel _ _) fun _ _ => .ok _
  · exact .ok _

theorem limitReached_noFuel (x : List F) (l : Option (Int × F)) : NoFuel (limitReached x l) := by
  unfold limitReached
  split
  · exact .ok _
  · exact .bind (pyGet_noFuel _ _) fun _ _ => .ok _

/-- Every recycle loop that starts in a state with property `I` has fewer than `N` unsuccessful
passes. -/
def Bounded (env : Env F) (P : Problem F) (cfg : PFCfg F) (dxmax0 : List F) (I : PState F → Prop) (N : Nat) :
    Prop :=
  ∀ s p, I s → IsPre env P cfg s p → ∀ n st1, Passes env P cfg (s.rctx p dxmax0) n (s.start p) st1 → n < N

theorem solveInc_fuel {env : Env F} {P : Problem F} {cfg : PFCfg F} {dxmax0 : List F} {I : PState F → Prop}
    {N : Nat} (hB : Bounded env P cfg dxmax0 I N) (s : PState F) (hs : I s) (fuel : Nat) (hf : N ≤ fuel) :
    solveInc env P cfg dxmax0 fuel s = solveInc env P cfg dxmax0 N s := by
  unfold solveInc
  cases hp : predictor env P cfg s with
  | error e => rfl
  | ok p =>
    simp only [bind, Except.bind]
    split
    · rfl
    · have hr : recycle env P cfg (s.rctx p dxmax0) fuel (s.start p) =
        recycle env P cfg (s.rctx p dxmax0) N (s.start p) :=
        recycle_fuel N _ (fun n st1 h => hB s p hs (predictor_ok hp) n st1 h) fuel hf
      simp only [PState.rctx, PState.start] at hr
      rw [hr]

theorem solveInc_noFuel {env : Env F} {P : Problem F} (hT : Total env P) {cfg : PFCfg F} {dxmax0 : List F}
    {I : PState F → Prop} {N : Nat} (hB : Bounded env P cfg dxmax0 I N) (s : PState F) (hs : I s) :
    NoFuel (solveInc env P cfg dxmax0 N s) := by
  unfold solveInc
  refine .bind (predictor_noFuel hT _ _) fun p hp => ?_
  simp only
  split
  · exact .ok _
  · refine .bind ?_ fun _ _ => .ok _
    intro hr
    obtain ⟨n, st1, -, he⟩ := recycle_outOfFuel (rc := s.rctx p dxmax0) N (s.start p)
      (fun n st1 h => hB s p hs (predictor_ok hp) n st1 h) hr
    exact attempt_noFuel hT _ _ _ he

theorem increment_fuel {env : Env F} {P : Problem F} {cfg : PFCfg F} {dxmax0 : List F} {I : PState F → Prop}
    {N : Nat} (hB : Bounded env P cfg dxmax0 I N) (s : PState F) (hs : I s) (fuel : Nat) (hf : N ≤ fuel) :
    increment env P cfg dxmax0 fuel s = increment env P cfg dxmax0 N s := by
  unfold increment
  rw [solveInc_fuel hB s hs fuel hf]

theorem increment_noFuel {env : Env F} {P : Problem F} (hT : Total env P) {cfg : PFCfg F} {dxmax0 : List F}
    {I : PState F → Prop} {N : Nat} (hB : Bounded env P cfg dxmax0 I N) (s : PState F) (hs : I s) :
    NoFuel (increment env P cfg dxmax0 N s) := by
  unfold increment
  refine .bind (solveInc_noFuel hT hB s hs) fun r _ => ?_
  obtain ⟨jp, st, o⟩ := r
  simp only
  split
  · exact .err (by decide)
  · exact .ok _

theorem incrLoop_fuel {env : Env F} {P : Problem F} {cfg : PFCfg F} {dxmax0 : List F} {I : PState F → Prop}
    (hI : ∀ s s' o, I s → IsInc env P cfg dxmax0 s s' o → I s') {N : Nat}
    (hB : Bounded env P cfg dxmax0 I N) (fuel : Nat) (hf : N ≤ fuel) :
    ∀ (k : Nat) (s : PState F), I s →
      incrLoop env P cfg dxmax0 fuel k s = incrLoop env P cfg dxmax0 N k s
  | 0, _, _ => rfl
  | k + 1, s, hs => by
    unfold incrLoop
    rw [increment_fuel hB s hs fuel hf]
    cases hi : increment env P cfg dxmax0 N s with
    | error e => rfl
    | ok r =>
      obtain ⟨s1, o⟩ := r
      have hs1 := hI _ _ _ hs (increment_ok hi)
      simp only [bind, Except.bind, incrLoop_fuel hI hB fuel hf k s1 hs1]

theorem incrLoop_noFuel {env : Env F} {P : Problem F} (hT : Total env P) {cfg : PFCfg F} {dxmax0 : List F}
    {I : PState F → Prop} (hI : ∀ s s' o, I s → IsInc env P cfg dxmax0 s s' o → I s') {N : Nat}
    (hB : Bounded env P cfg dxmax0 I N) :
    ∀ (k : Nat) (s : PState F), I s → NoFuel (incrLoop env P cfg dxmax0 N k s)
  | 0, _, _ => .ok _
  | k + 1, s, hs => by
    unfold incrLoop
    refine .bind (increment_noFuel hT hB s hs) fun r hr => ?_
    obtain ⟨s1, o⟩ := r
    have hs1 := hI _ _ _ hs (increment_ok hr)
    simp only
    split
    · exact .ok _
    · refine .bind (limitReached_noFuel _ _) fun _ _ => ?_
      split
      · exact .ok _
      · exact .bind (incrLoop_noFuel hT hI hB k s1 hs1) fun _ _ => .ok _

theorem startJ_noFuel (cfg : PFCfg F) (x : List F) : NoFuel (startJ cfg x) := by
  unfold startJ
  split
  · split
    · exact .ok _
    · split
      · exact .ok _
      · exact .err (by decide)
  · exact .ok _

/-- Fuel beyond a bound of the recycle loops does not change the result of `pathfollow`, and if the
external functions have no fuel of their own it is never exhausted. -/
theorem pathfollow_fuel {env : Env F} {P : Problem F} {cfg : PFCfg F} {x : List F} {a : Analysis F}
    {I : PState F → Prop}
    (h0 : ∀ j, (initDxmax (x ++ [0]) cfg.dxmax).length = x.length + 1 ∨ cfg.incs = 0 → I (pfStart cfg x a j))
    (hI : ∀ s s' o, I s → IsInc env P cfg (initDxmax (x ++ [0]) cfg.dxmax) s s' o → I s') {N : Nat}
    (hB : Bounded env P cfg (initDxmax (x ++ [0]) cfg.dxmax) I N) :
    (∀ fuel, N ≤ fuel → pathfollow env P cfg fuel x a = pathfollow env P cfg N x a) ∧
      (Total env P → NoFuel (pathfollow env P cfg N x a)) := by
  have hstart : ∀ j, ¬ ((initDxmax (x ++ [0]) cfg.dxmax).length ≠ (x ++ [0]).length ∧ cfg.incs ≠ 0) →
      I (pfStart cfg x a j) := by
    intro j hc
    apply h0
    by_contra hcon
    rw [not_or] at hcon
    exact hc ⟨by simpa using hcon.1, hcon.2⟩
  constructor
  · intro fuel hf
    unfold pathfollow
    simp only [bind, Except.bind]
    cases startJ cfg (x ++ [0]) with
    | error e => rfl
    | ok j =>
      simp only
      split
      · rfl
      · next hc =>
        have := incrLoop_fuel hI hB fuel hf cfg.incs (pfStart cfg x a j) (hstart j hc)
        simp only [pfStart] at this
        rw [this]
  · intro hT
    unfold pathfollow
    refine .bind (startJ_noFuel _ _) fun j _ => ?_
    simp only
    split
    · exact .err (by decide)
    · next hc =>
      exact .bind (incrLoop_noFuel hT hI hB cfg.incs (pfStart cfg x a j) (hstart j hc)) fun _ _ => .ok _

end TrussPy
