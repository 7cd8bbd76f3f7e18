import Verif.Spec.Report
import Verif.Lemmas.Run
/-!
# The printed protocol: helper lemmas
-/

set_option linter.unusedSectionVars false

namespace TrussPy

namespace Pr
variable {F α β : Type}

theorem res_bind (p : Pr F α) (k : α → Pr F β) : (p >>= k).res = p.res >>= fun a => (k a).res := by
  rcases p with ⟨l, r⟩
  cases r <;> rfl

theorem text_bind (p : Pr F α) (k : α → Pr F β) :
    (p >>= k).text = p.text ++ (match p.res with | .ok a => (k a).text | .error _ => []) := by
  rcases p with ⟨l, r⟩
  cases r with
  | ok a => rfl
  | error e => exact (List.append_nil l).symm

theorem text_bind_ok {p : Pr F α} {k : α → Pr F β} {a : α} (h : p.res = .ok a) :
    (p >>= k).text = p.text ++ (k a).text := by
  rw [text_bind, h]

@[simp] theorem res_pure (a : α) : (pure a : Pr F α).res = .ok a := rfl
@[simp] theorem text_pure (a : α) : (pure a : Pr F α).text = [] := rfl
@[simp] theorem res_lift (m : Py α) : (lift m : Pr F α).res = m := rfl
@[simp] theorem text_lift (m : Py α) : (lift m : Pr F α).text = [] := rfl
@[simp] theorem res_say (l : List (Line F)) : (say l).res = .ok () := rfl
@[simp] theorem text_say (l : List (Line F)) : (say l).text = l := rfl
@[simp] theorem res_sayIf (b : Prop) [Decidable b] (l : List (Line F)) : (sayIf b l).res = .ok () := by
  unfold sayIf; split <;> rfl
@[simp] theorem text_sayIf (b : Prop) [Decidable b] (l : List (Line F)) : (sayIf b l).text = if b then l else [] := by
  unfold sayIf; split <;> rfl

theorem res_ite (b : Prop) [Decidable b] (p q : Pr F α) : (if b then p else q).res = if b then p.res else q.res := by
  split <;> rfl

theorem text_ite (b : Prop) [Decidable b] (p q : Pr F α) :
    (if b then p else q).text = if b then p.text else q.text := by
  split <;> rfl

end Pr

variable {F : Type} [Zero F] [One F] [Add F] [Sub F] [Mul F] [Div F] [Neg F] [Flt F]

theorem py_ok_bind {α β : Type} (a : α) (k : α → Py β) : ((Except.ok a : Py α) >>= k) = k a := rfl

theorem newtonLoopP_res {S : Type} (verbose : Int) (f : S → List F → Py (S × List F))
    (df : S → List F → Py (S × List (List F))) (sp : List (List F) → List F → Py (List F)) (ftol xtol : F) :
    ∀ (k : Nat) (n : Int) (s : S) (x : List F),
      (newtonLoopP verbose f df sp ftol xtol k n s x).res = newtonLoop f df sp ftol xtol k n s x
  | 0, _, _, _ => rfl
  | k + 1, n, s, x => by
    unfold newtonLoopP newtonLoop
    simp only [Pr.res_bind, Pr.res_lift, Pr.res_ite, Pr.res_sayIf, py_ok_bind]
    congr 1; funext ⟨s, J⟩
    congr 1; funext ⟨s, fx⟩
    congr 1; funext dx
    split
    · rfl
    · congr 1; funext ⟨s, fx⟩
      simp only [Pr.res_pure]
      split
      · rfl
      · cases k with
        | zero => rfl
        | succ k => exact newtonLoopP_res verbose f df sp ftol xtol _ _ _ _

theorem newtonP_res {S : Type} (verbose : Int) (f : S → List F → Py (S × List F))
    (df : S → List F → Py (S × List (List F))) (sp : List (List F) → List F → Py (List F)) (s : S) (x : List F)
    (nfev : Int) (ftol xtol : F) :
    (newtonP verbose f df sp s x nfev ftol xtol).res = newton f df sp s x nfev ftol xtol :=
  newtonLoopP_res ..

/-- The quotient `1 / reduce` that is printed with the step width does not raise. -/
def PFCfg.Prints (cfg : PFCfg F) : Prop := cfg.stepcontrol = true → Flt.eq cfg.reduce 0 = false

theorem dxmaxControlP_res (cfg : PFCfg F) (h : Flt.eq cfg.reduce 0 = false) (dxmax dxmax0 : List F) (j j0 z : Int)
    (s : Bool) (b n nfev : Int) :
    (dxmaxControlP cfg dxmax dxmax0 j j0 z s b n nfev).res = dxmaxControl cfg dxmax dxmax0 j j0 z s b n nfev := by
  unfold dxmaxControlP dxmaxControl pyInv
  simp only [Pr.res_bind, Pr.res_lift, Pr.res_ite, Pr.res_say, py_ok_bind, Pr.res_pure, h]
  rfl

theorem bigComp_one (env : Env F) (d : List F) : bigComp env d 1 = maxComp env d := by
  unfold bigComp maxComp
  simp only [Nat.sub_self, ← List.head?_eq_getElem?, List.head?_reverse]
  rfl

theorem bigComp_ok {env : Env F} (hr : env.Ranks) {d : List F} {k : Nat} (hk : k < d.length) :
    ∃ p, bigComp env d (k + 1) = .ok p := by
  have hp := hr (d.map Flt.abs)
  have hlen : (env.argsortF (d.map Flt.abs)).reverse.length = d.length := by
    rw [List.length_reverse, hp.length_eq, List.length_range, List.length_map]
  unfold bigComp
  have hk' : k < (env.argsortF (d.map Flt.abs)).reverse.length := by omega
  rw [Nat.add_sub_cancel, List.getElem?_eq_getElem hk']
  have hm : (env.argsortF (d.map Flt.abs)).reverse[k] ∈ List.range (d.map Flt.abs).length :=
    hp.mem_iff.1 (List.mem_reverse.1 (List.getElem_mem hk'))
  rw [List.mem_range, List.length_map] at hm
  dsimp only
  rw [List.getElem?_eq_getElem hm]
  exact ⟨_, rfl⟩

theorem thirdComp_ok {env : Env F} (hr : env.Ranks) (d : List F) : ∃ p, thirdComp env d = .ok p := by
  unfold thirdComp
  split
  · next h => exact bigComp_ok hr h
  · exact ⟨_, rfl⟩

theorem bigComp_two_short {env : Env F} (hr : env.Ranks) {d : List F} (hd : d.length < 2) :
    bigComp env d 2 = .error .indexError := by
  have hp := hr (d.map Flt.abs)
  have hlen : (env.argsortF (d.map Flt.abs)).reverse.length = d.length := by
    rw [List.length_reverse, hp.length_eq, List.length_range, List.length_map]
  unfold bigComp
  rw [List.getElem?_eq_none (by omega)]

theorem nextWidthP_res {cfg : PFCfg F} (h : cfg.Prints) (rc : RCtx F) (st : RState F) (j : Int) (nr : NewtonOut F) :
    (nextWidthP cfg rc st j nr).res = nextWidth cfg rc st j nr := by
  unfold nextWidthP nextWidth
  by_cases hs : cfg.stepcontrol = true
  · rw [if_pos hs, if_pos hs]
    exact dxmaxControlP_res cfg (h hs) ..
  · rw [if_neg hs, if_neg hs]
    rfl

theorem attemptP_res {env : Env F} (hr : env.Ranks) (verbose : Int) (P : Problem F) {cfg : PFCfg F} (h : cfg.Prints)
    (rc : RCtx F) (st : RState F) : (attemptP verbose env P cfg rc st).res = attempt env P cfg rc st := by
  unfold attemptP attempt
  simp only [Pr.res_bind, Pr.res_lift, Pr.res_sayIf, py_ok_bind, newtonP_res]
  congr 1; funext xmax
  congr 1; funext ⟨a, nr⟩
  simp only [bigComp_one]
  congr 1; funext ⟨i1, v1⟩
  by_cases hd : (vdiv (vsub nr.x rc.x0) st.dxmax).length < 2
  · rw [bigComp_two_short hr hd, if_pos hd]
    rfl
  · rw [if_neg hd]
    obtain ⟨⟨i2, v2⟩, h2⟩ := bigComp_ok hr (d := vdiv (vsub nr.x rc.x0) st.dxmax) (k := 1) (by omega)
    obtain ⟨⟨i3, v3⟩, h3⟩ := thirdComp_ok hr (vdiv (vsub nr.x rc.x0) st.dxmax)
    rw [h2, py_ok_bind]
    simp only [h3, py_ok_bind]
    congr 1; funext j
    simp only [nextWidthP_res h]
    congr 1; funext valid
    congr 1; funext dc
    simp only [Pr.res_bind, Pr.res_lift, Pr.res_ite, Pr.res_say, Pr.res_pure, py_ok_bind]
    rfl

theorem recycleP_res {env : Env F} (hr : env.Ranks) (verbose : Int) (P : Problem F) {cfg : PFCfg F} (h : cfg.Prints)
    (rc : RCtx F) : ∀ (k : Nat) (st : RState F),
      (recycleP verbose env P cfg rc k st).res = recycle env P cfg rc k st
  | 0, _ => rfl
  | k + 1, st => by
    unfold recycleP recycle
    simp only [Pr.res_bind, attemptP_res hr verbose P h]
    congr 1; funext ⟨st, o⟩
    cases o with
    | none => exact recycleP_res hr verbose P h rc k st
    | some o => rfl

theorem predictorP_res (verbose : Int) (env : Env F) (P : Problem F) (cfg : PFCfg F) (s : PState F) :
    (predictorP verbose env P cfg s).res = predictor env P cfg s := by
  unfold predictorP predictor
  simp only [Pr.res_ite, Pr.res_pure, Pr.res_bind, Pr.res_lift, newtonP_res, bigComp_one, Pr.res_sayIf, py_ok_bind]
  rfl

theorem solveIncP_res {env : Env F} (hr : env.Ranks) (verbose : Int) (P : Problem F) {cfg : PFCfg F} (h : cfg.Prints)
    (dxmax0 : List F) (fuel i : Nat) (s : PState F) :
    (solveIncP verbose env P cfg dxmax0 fuel i s).res = solveInc env P cfg dxmax0 fuel s := by
  unfold solveIncP solveInc
  simp only [Pr.res_bind, Pr.res_sayIf, py_ok_bind, predictorP_res, Pr.res_ite, Pr.res_pure, recycleP_res hr verbose P h]
  rfl

theorem incrementP_res {env : Env F} (hr : env.Ranks) (verbose : Int) (P : Problem F) {cfg : PFCfg F} (h : cfg.Prints)
    (dxmax0 : List F) (fuel i : Nat) (s : PState F) :
    (incrementP verbose env P cfg dxmax0 fuel i s).res = increment env P cfg dxmax0 fuel s := by
  unfold incrementP increment
  simp only [Pr.res_bind, solveIncP_res hr verbose P h]
  congr 1; funext ⟨jp, st, o⟩
  cases hl : st.x.getLast? with
  | none => rfl
  | some l => simp only [Pr.res_bind, Pr.res_sayIf, py_ok_bind]; rfl

theorem incrLoopP_res {env : Env F} (hr : env.Ranks) (verbose : Int) (P : Problem F) {cfg : PFCfg F} (h : cfg.Prints)
    (dxmax0 : List F) (fuel : Nat) : ∀ (k i : Nat) (s : PState F),
      (incrLoopP verbose env P cfg dxmax0 fuel k i s).res = incrLoop env P cfg dxmax0 fuel k s
  | 0, _, _ => rfl
  | k + 1, i, s => by
    unfold incrLoopP incrLoop
    simp only [Pr.res_bind, incrementP_res hr verbose P h]
    congr 1; funext ⟨s, o⟩
    simp only [Pr.res_bind, Pr.res_ite, Pr.res_lift, Pr.res_pure, Pr.res_say, py_ok_bind,
      incrLoopP_res hr verbose P h dxmax0 fuel k]
    rfl

theorem pathfollowP_res {env : Env F} (hr : env.Ranks) (verbose : Int) (P : Problem F) {cfg : PFCfg F} (h : cfg.Prints)
    (fuel : Nat) (x : List F) (a : Analysis F) :
    (pathfollowP verbose env P cfg fuel x a).res = pathfollow env P cfg fuel x a := by
  unfold pathfollowP pathfollow
  simp only [Pr.res_bind, Pr.res_ite, Pr.res_lift, Pr.res_pure, incrLoopP_res hr verbose P h]
  rfl

theorem runStepP_res {env : Env F} (hr : env.Ranks) (fuel : Nat) (c : Ctx F) {s : Settings F}
    (h : s.stepcontrol = true → Flt.eq s.reduce 0 = false) (rows : List (List F)) (st : Analysis F × Results F)
    (step : Nat) : (runStepP env fuel c s rows st step).res = runStep env fuel c s rows st step := by
  obtain ⟨a, res⟩ := st
  unfold runStepP runStep
  simp only [Pr.res_bind, Pr.res_lift, Pr.res_sayIf, py_ok_bind, Pr.res_ite, Pr.res_pure]
  congr 1; funext incs
  congr 1; funext xl
  have hp : (stepCfg s incs xl).Prints := h
  simp only [pathfollowP_res hr _ _ hp]
  unfold setStep
  cases hc : constLoad rows res.stepLpfEnd step with
  | error e => rfl
  | ok fc => rfl

theorem stepsP_res {env : Env F} (hr : env.Ranks) (fuel : Nat) (c : Ctx F) {s : Settings F}
    (h : s.stepcontrol = true → Flt.eq s.reduce 0 = false) (rows : List (List F)) :
    ∀ (ks : List Nat) (st : Analysis F × Results F),
      (stepsP env fuel c s rows ks st).res = ks.foldlM (runStep env fuel c s rows) st
  | [], _ => rfl
  | k :: ks, st => by
    unfold stepsP
    rw [List.foldlM_cons, Pr.res_bind, runStepP_res hr fuel c h]
    congr 1; funext st
    exact stepsP_res hr fuel c h rows ks st

theorem paramsP_res {s : Settings F} (h : s.stepcontrol = true → Flt.eq s.reduce 0 = false) :
    (paramsP s).res = if 1 < s.log ∧ s.j0 ≠ none then .error .typeError else .ok () := by
  unfold paramsP
  by_cases hl : 1 < s.log
  · rw [if_pos hl]
    simp only [Pr.res_bind, Pr.res_say, py_ok_bind]
    cases hj : s.j0 with
    | some j => simp [hl]; rfl
    | none =>
      simp only [Pr.res_bind, Pr.res_say, py_ok_bind, Pr.res_ite, Pr.res_lift, Pr.res_pure]
      by_cases hs : s.stepcontrol = true
      · simp [hs, pyInv, h hs, j0P]
      · simp [hs, j0P]
  · simp [hl]

theorem runP_res {env : Env F} (hr : env.Ranks) (fuel : Nat) (t : Times F) {m : Model F}
    (h : m.settings.stepcontrol = true → Flt.eq m.settings.reduce 0 = false) :
    (m.runP env fuel t).res = m.run env fuel := by
  unfold Model.runP Model.run
  rw [Pr.res_bind, paramsP_res h]
  split
  · rfl
  · rw [py_ok_bind]
    cases m.ctx <;> cases m.analysis <;> cases m.results <;> cases m.forces <;>
      first
      | rfl
      | simp only [Pr.res_bind, Pr.res_lift, Pr.res_sayIf, py_ok_bind, Pr.res_pure, stepsP_res hr fuel _ h]
        rfl

/-! ## Which lines -/

namespace Pr
variable {α β : Type}

/-- Every printed line satisfies `p`. -/
def Every (p : Line F → Prop) (c : Pr F α) : Prop := ∀ l ∈ c.text, p l

theorem Every.bind {p : Line F → Prop} {c : Pr F α} {k : α → Pr F β} (hc : c.Every p)
    (hk : ∀ a, c.res = .ok a → (k a).Every p) : (c >>= k).Every p := by
  intro l hl
  rw [text_bind, List.mem_append] at hl
  rcases hl with hl | hl
  · exact hc l hl
  · cases hr : c.res with
    | ok a => rw [hr] at hl; exact hk a hr l hl
    | error e => rw [hr] at hl; cases hl

theorem Every.pure {p : Line F → Prop} (a : α) : (Pure.pure a : Pr F α).Every p := by
  intro l hl; cases hl

theorem Every.lift {p : Line F → Prop} (m : Py α) : (Pr.lift m : Pr F α).Every p := by
  intro l hl; cases hl

theorem Every.say {p : Line F → Prop} {ls : List (Line F)} (h : ∀ l ∈ ls, p l) : (Pr.say ls).Every p := h

theorem Every.sayIf {p : Line F → Prop} {b : Prop} [Decidable b] {ls : List (Line F)} (h : b → ∀ l ∈ ls, p l) :
    (Pr.sayIf b ls).Every p := by
  intro l hl
  rw [text_sayIf] at hl
  split at hl
  · next hb => exact h hb l hl
  · cases hl

theorem Every.ite {p : Line F → Prop} {b : Prop} [Decidable b] {c d : Pr F α} (hc : b → c.Every p)
    (hd : ¬ b → d.Every p) : (if b then c else d).Every p := by
  split
  · next h => exact hc h
  · next h => exact hd h

/-- A sequence that returns. -/
theorem bind_ok {c : Pr F α} {k : α → Pr F β} {b : β} (h : (c >>= k).res = .ok b) :
    ∃ a, c.res = .ok a ∧ (k a).res = .ok b ∧ (c >>= k).text = c.text ++ (k a).text := by
  rw [res_bind] at h
  obtain ⟨a, h1, h2⟩ := py_bind_eq_ok.1 h
  exact ⟨a, h1, h2, text_bind_ok h1⟩

end Pr

/-- Rows of Newton iterations, only if `verbose > 0`. -/
def Line.isIter (verbose : Int) : Line F → Prop
  | .iterRow .. => 0 < verbose
  | _ => False

theorem newtonLoopP_every {S : Type} (verbose : Int) (f : S → List F → Py (S × List F))
    (df : S → List F → Py (S × List (List F))) (sp : List (List F) → List F → Py (List F)) (ftol xtol : F) :
    ∀ (k : Nat) (n : Int) (s : S) (x : List F),
      (newtonLoopP verbose f df sp ftol xtol k n s x).Every (Line.isIter verbose)
  | 0, _, _, _ => .lift _
  | k + 1, n, s, x => by
    unfold newtonLoopP
    refine .bind (.lift _) fun ⟨s, J⟩ _ => .bind (.lift _) fun ⟨s, fx⟩ _ => .bind (.lift _) fun dx _ => ?_
    refine .ite (fun _ => .lift _) fun _ => .bind (.lift _) fun ⟨s, fx⟩ _ => .bind (.sayIf ?_) fun _ _ => ?_
    · intro hv l hl
      cases List.mem_singleton.1 hl
      exact hv
    · refine .ite (fun _ => .pure _) fun _ => ?_
      cases k with
      | zero => exact .pure _
      | succ k => exact newtonLoopP_every verbose f df sp ftol xtol _ _ _ _

theorem dxmaxControlP_every (cfg : PFCfg F) (dxmax dxmax0 : List F) (j j0 z : Int)
    (s : Bool) (b n nfev : Int) :
    (dxmaxControlP cfg dxmax dxmax0 j j0 z s b n nfev).Every (fun l => l.isWidth = true) := by
  unfold dxmaxControlP
  refine .bind (.lift _) fun d _ => .bind (.lift _) fun d0 _ => .ite (fun _ => .ite (fun _ => ?_) fun _ => .pure _) fun _ => ?_
  · refine .bind (.say ?_) fun _ _ => .ite (fun _ => .bind (.lift _) fun v _ => .bind (.say ?_) fun _ _ => .pure _) fun _ => .pure _
    · intro l hl
      cases List.mem_singleton.1 hl
      split <;> rfl
    · intro l hl
      cases List.mem_singleton.1 hl
      rfl
  · refine .ite (fun _ => .ite (fun _ => .ite (fun _ => .pure _) fun _ => .ite (fun _ => ?_) fun _ => ?_) fun _ => .pure _)
      fun _ => .ite (fun _ => .pure _) fun _ => .pure _
    · refine .bind (.say ?_) fun _ _ => .pure _
      intro l hl
      cases List.mem_singleton.1 hl
      rfl
    · refine .bind (.say ?_) fun _ _ => .pure _
      intro l hl
      cases List.mem_singleton.1 hl
      rfl

/-- The lines of `dxmax_control`, only with step control. -/
def Line.isWidthOf (cfg : PFCfg F) (l : Line F) : Prop := cfg.stepcontrol = true ∧ l.isWidth = true

theorem nextWidthP_every (cfg : PFCfg F) (rc : RCtx F) (st : RState F) (j : Int) (nr : NewtonOut F) :
    (nextWidthP cfg rc st j nr).Every (Line.isWidthOf cfg) := by
  unfold nextWidthP
  refine .ite (fun h => ?_) fun _ => .pure _
  intro l hl
  exact ⟨h, dxmaxControlP_every _ _ _ _ _ _ _ _ _ _ l hl⟩

/-- The last line of a pass of the recycle loop. -/
def endText : Option Outcome → List (Line F)
  | none => [.recycling]
  | some .error1 => [.error1]
  | some .error2 => [.error2]
  | some _ => []

/-- The text of a pass of the recycle loop that returns. -/
theorem attemptP_text {env : Env F} {verbose : Int} {P : Problem F} {cfg : PFCfg F} {rc : RCtx F} {st st' : RState F}
    {o : Option Outcome} (h : (attemptP verbose env P cfg rc st).res = .ok (st', o)) :
    ∃ T W : List (Line F), ∃ a nr i1 v1 i2 v2 i3 v3 xmax start,
      newton (extF P rc.x0 st.j xmax false) (extDf P st.j) env.spsolve st.a start (cfg.nfev - st.nPre) cfg.ftol cfg.xtol
        = .ok (a, nr) ∧
      T = (newtonP verbose (extF P rc.x0 st.j xmax false) (extDf P st.j) env.spsolve st.a start (cfg.nfev - st.nPre)
        cfg.ftol cfg.xtol).text ∧ st'.x = nr.x ∧ bigComp env (vdiv (vsub nr.x rc.x0) st.dxmax) 1 = .ok (i1, v1) ∧
      bigComp env (vdiv (vsub nr.x rc.x0) st.dxmax) 2 = .ok (i2, v2) ∧
      thirdComp env (vdiv (vsub nr.x rc.x0) st.dxmax) = .ok (i3, v3) ∧
      (o = some .accepted → nr.success = true) ∧
      (∀ l ∈ W, Line.isWidthOf cfg l) ∧ o ≠ some .predictor ∧
      (attemptP verbose env P cfg rc st).text = (if 1 < verbose then [.tableHead] else []) ++ T ++
        (if 1 < verbose then [.totalRow (st.z + 1) (nr.n + st.nPre) st.j nr.fnorm i1 v1 i2 v2 i3 v3] else []) ++ W ++
        endText o := by
  unfold attemptP at h ⊢
  obtain ⟨_, -, h, t0⟩ := Pr.bind_ok h
  rw [t0]; clear t0
  obtain ⟨xmax, h1, h, t0⟩ := Pr.bind_ok h
  rw [t0]; clear t0
  obtain ⟨⟨a, nr⟩, h2, h, t0⟩ := Pr.bind_ok h
  rw [t0]; clear t0
  obtain ⟨⟨i1, v1⟩, h3, h, t0⟩ := Pr.bind_ok h
  rw [t0]; clear t0
  obtain ⟨⟨i2, v2⟩, h4, h, t0⟩ := Pr.bind_ok h
  rw [t0]; clear t0
  obtain ⟨⟨i3, v3⟩, h5, h, t0⟩ := Pr.bind_ok h
  rw [t0]; clear t0
  obtain ⟨_, -, h, t0⟩ := Pr.bind_ok h
  rw [t0]; clear t0
  obtain ⟨j, h6, h, t0⟩ := Pr.bind_ok h
  rw [t0]; clear t0
  obtain ⟨valid, h7, h, t0⟩ := Pr.bind_ok h
  rw [t0]; clear t0
  obtain ⟨dc, h8, h, t0⟩ := Pr.bind_ok h
  rw [t0]; clear t0
  rw [newtonP_res] at h2
  simp only [Pr.text_lift, Pr.text_sayIf, List.nil_append]
  refine ⟨_, (nextWidthP cfg rc st j nr).text, a, nr, i1, v1, i2, v2, i3, v3, xmax, _, h2, rfl, ?_, h3, h4, h5, ?_,
    nextWidthP_every cfg rc st j nr, ?_, ?_⟩
  rotate_left 3
  · simp only [List.append_assoc, List.append_cancel_left_eq]
    clear h2 h3 h4 h5 h7 h6 h8
    split at h
    · next hv =>
      rw [if_pos hv]
      obtain ⟨⟨a2, w⟩, -, h, t0⟩ := Pr.bind_ok h
      rw [t0]; cases h; rfl
    · next hv =>
      rw [if_neg hv]
      split at h
      · next hz =>
        rw [if_pos hz]
        obtain ⟨_, -, h, t0⟩ := Pr.bind_ok h
        rw [t0]; cases h; rfl
      · next hz =>
        rw [if_neg hz]
        split at h
        · next hj =>
          rw [if_pos hj]
          obtain ⟨_, -, h, t0⟩ := Pr.bind_ok h
          rw [t0]; cases h; rfl
        · next hj =>
          rw [if_neg hj]
          obtain ⟨_, -, h, t0⟩ := Pr.bind_ok h
          rw [t0]; cases h; rfl
  all_goals
    clear h2 h3 h4 h5 h7 h6 h8
    split at h
    · next hv =>
      obtain ⟨⟨a2, w⟩, -, h, -⟩ := Pr.bind_ok h
      rw [Bool.and_eq_true] at hv
      cases h; first | rfl | exact fun _ => hv.2 | simp
    · split at h
      · obtain ⟨_, -, h, -⟩ := Pr.bind_ok h
        cases h; first | rfl | simp
      · split at h
        · obtain ⟨_, -, h, -⟩ := Pr.bind_ok h
          cases h; first | rfl | simp
        · obtain ⟨_, -, h, -⟩ := Pr.bind_ok h
          cases h; first | rfl | simp

/-- A line of the iterations of an increment that may appear. -/
def Line.InnerOf (verbose : Int) (cfg : PFCfg F) (l : Line F) : Prop :=
  l.isInner = true ∧ l.Shown verbose (cfg.stepcontrol = true) False False

theorem Line.isIter.inner {verbose : Int} {cfg : PFCfg F} {l : Line F} (h : l.isIter verbose) : l.InnerOf verbose cfg := by
  cases l with
  | iterRow n f =>
    have hv : 0 < verbose := h
    exact ⟨rfl, .inr (show (1 : Int) ≤ verbose by omega), nofun, nofun, rfl, fun h => h rfl⟩
  | _ => exact h.elim

theorem Line.isWidthOf.inner {verbose : Int} {cfg : PFCfg F} {l : Line F} (h : Line.isWidthOf cfg l) :
    l.InnerOf verbose cfg := by
  obtain ⟨h1, h2⟩ := h
  cases l <;> first | exact ⟨rfl, .inl rfl, fun _ => h1, nofun, rfl, fun h => h rfl⟩ | cases h2

theorem inner_of_level {verbose : Int} {cfg : PFCfg F} {l : Line F} (h1 : l.isInner = true)
    (h2 : l.level = 0 ∨ l.level ≤ verbose) (h3 : l.isWidth = false) (h4 : l.isCarry = false) : l.InnerOf verbose cfg :=
  ⟨h1, h2, fun h => (by rw [h3] at h; cases h), fun h => (by rw [h4] at h; cases h),
    (by cases l <;> first | rfl | cases h1), (by cases l <;> first | exact fun h => h rfl | cases h1)⟩

theorem attemptP_every (verbose : Int) (env : Env F) (P : Problem F) (cfg : PFCfg F) (rc : RCtx F) (st : RState F) :
    (attemptP verbose env P cfg rc st).Every (Line.InnerOf verbose cfg) := by
  unfold attemptP
  have one : ∀ {l l' : Line F} (_ : l' ∈ [l]) (_ : l.InnerOf verbose cfg), l'.InnerOf verbose cfg := by
    intro l l' h1 h2
    rw [List.mem_singleton.1 h1]; exact h2
  refine .bind (.sayIf fun hv l hl => one hl (inner_of_level rfl (.inr ?_) rfl rfl)) fun _ _ => ?_
  · exact (show (2 : Int) ≤ verbose by omega)
  refine .bind (.lift _) fun xmax _ => .bind (fun l hl => (newtonLoopP_every _ _ _ _ _ _ _ _ _ _ l hl).inner) fun ⟨a, nr⟩ _ => ?_
  refine .bind (.lift _) fun ⟨i1, v1⟩ _ => .bind (.lift _) fun ⟨i2, v2⟩ _ => .bind (.lift _) fun ⟨i3, v3⟩ _ => ?_
  refine .bind (.sayIf fun hv l hl => one hl (inner_of_level rfl (.inr ?_) rfl rfl)) fun _ _ => ?_
  · exact (show (2 : Int) ≤ verbose by omega)
  refine .bind (.lift _) fun j _ => .bind (.lift _) fun valid _ => .bind (fun l hl => (nextWidthP_every _ _ _ _ _ l hl).inner) fun dc _ => ?_
  refine .ite (fun _ => .bind (.lift _) fun ⟨_, _⟩ _ => .pure _) fun _ => .ite (fun _ => ?_) fun _ => .ite (fun _ => ?_) fun _ => ?_
  all_goals
    exact .bind (.say fun l hl => one hl (inner_of_level rfl (.inl rfl) rfl rfl)) fun _ _ => .pure _

theorem recycleP_every (verbose : Int) (env : Env F) (P : Problem F) (cfg : PFCfg F) (rc : RCtx F) :
    ∀ (k : Nat) (st : RState F), (recycleP verbose env P cfg rc k st).Every (Line.InnerOf verbose cfg)
  | 0, _ => .lift _
  | k + 1, st => by
    unfold recycleP
    refine .bind (attemptP_every verbose env P cfg rc st) fun ⟨st, o⟩ _ => ?_
    cases o with
    | none => exact recycleP_every verbose env P cfg rc k st
    | some o => exact .pure _

theorem predictorP_text {verbose : Int} {env : Env F} {P : Problem F} {cfg : PFCfg F} {s : PState F} :
    (predictorP verbose env P cfg s).Every (fun l => 1 < verbose ∧ ∃ c i j f i1 v1, l = .preRow c i j f i1 v1) := by
  unfold predictorP
  refine .ite (fun _ => ?_) fun _ => .pure _
  refine .bind (.lift _) fun xmax _ => .bind ?_ fun ⟨a, nr⟩ _ => .bind (.lift _) fun ⟨i1, v1⟩ _ => .bind (.lift _) fun j _ => ?_
  · intro l hl
    have := newtonLoopP_every _ _ _ _ _ _ _ _ _ _ l hl
    cases l with
    | iterRow n f => exact absurd (show (0 : Int) < 0 from this) (by omega)
    | _ => exact this.elim
  · refine .bind (.sayIf fun hv l hl => ⟨hv, ?_⟩) fun _ _ => .pure _
    rw [List.mem_singleton.1 hl]
    exact ⟨_, _, _, _, _, _, rfl⟩

/-- Nothing in `T` is selected by `φ`. -/
theorem filterMap_nil {α β : Type} {φ : α → Option β} {T : List α} (h : ∀ l ∈ T, φ l = none) : T.filterMap φ = [] :=
  List.filterMap_eq_nil_iff.2 h

theorem recycleP_failure {verbose : Int} {env : Env F} {P : Problem F} {cfg : PFCfg F} {rc : RCtx F} :
    ∀ (k : Nat) {st st' : RState F} {o : Outcome}, (recycleP verbose env P cfg rc k st).res = .ok (st', o) →
      (recycleP verbose env P cfg rc k st).text.filterMap Line.failure? = o.failure?.toList ∧ o ≠ .predictor
  | 0, _, _, _, h => by cases h
  | k + 1, st, st', o, h => by
    unfold recycleP at h ⊢
    obtain ⟨⟨st1, o1⟩, h1, h, t⟩ := Pr.bind_ok h
    rw [t, List.filterMap_append]; clear t
    obtain ⟨T, W, a, nr, i1, v1, i2, v2, i3, v3, xmax, start, -, e2, -, -, -, -, -, e8, e9, e10⟩ := attemptP_text h1
    have hT : T.filterMap Line.failure? = [] := by
      apply filterMap_nil
      intro l hl
      rw [e2] at hl
      have := newtonLoopP_every _ _ _ _ _ _ _ _ _ _ l hl
      cases l with
      | iterRow n f => rfl
      | _ => exact this.elim
    have hW : W.filterMap Line.failure? = [] := by
      apply filterMap_nil
      intro l hl
      have := (e8 l hl).2
      cases l <;> first | rfl | cases this
    have hA : (attemptP verbose env P cfg rc st).text.filterMap Line.failure? = (endText o1 : List (Line F)).filterMap Line.failure? := by
      rw [e10]
      simp only [List.filterMap_append, hT, hW]
      split <;> rfl
    rw [hA]
    cases o1 with
    | none =>
      obtain ⟨h3, h4⟩ := recycleP_failure k h
      exact ⟨by rw [h3]; rfl, h4⟩
    | some o1 =>
      cases h
      refine ⟨?_, fun h => e9 (by rw [h])⟩
      cases o <;> rfl

/-- Head, inner part and `final LPF` of one increment. -/
theorem incrementP_text {verbose : Int} {env : Env F} {P : Problem F} {cfg : PFCfg F} {dxmax0 : List F} {fuel i : Nat}
    {s s' : PState F} {o : Outcome} (h : (incrementP verbose env P cfg dxmax0 fuel i s).res = .ok (s', o)) :
    ∃ T : List (Line F), ∃ lpf, (∀ l ∈ T, l.InnerOf verbose cfg) ∧ T.filterMap Line.failure? = o.failure?.toList ∧
      s'.a.lpf = some lpf ∧ s'.x.getLast? = some lpf ∧
      (incrementP verbose env P cfg dxmax0 fuel i s).text = (if 0 < verbose then [.incHead i] else []) ++ T ++
        (if 0 < verbose then [.finalLpf lpf] else []) := by
  unfold incrementP at h ⊢
  obtain ⟨⟨jp, st, o'⟩, h1, h, t⟩ := Pr.bind_ok h
  rw [t]; clear t
  cases hl : st.x.getLast? with
  | none => simp only [hl] at h; cases h
  | some lpf =>
    simp only [hl] at h ⊢
    obtain ⟨_, -, h, t⟩ := Pr.bind_ok h
    rw [t]; clear t
    cases h
    simp only [Pr.text_sayIf, Pr.text_pure, List.append_nil]
    unfold solveIncP at h1 ⊢
    obtain ⟨_, -, h1, t⟩ := Pr.bind_ok h1
    rw [t]; clear t
    obtain ⟨_, -, h1, t⟩ := Pr.bind_ok h1
    rw [t]; clear t
    obtain ⟨pre, h2, h1, t⟩ := Pr.bind_ok h1
    rw [t]; clear t
    rename_i q1 q2 q3 q4 q5 q6
    clear q1 q2 q3 q4 q5 q6
    simp only [Pr.text_sayIf]
    have hpre : ∀ l ∈ (predictorP verbose env P cfg s).text, l.InnerOf verbose cfg ∧ l.failure? = none := by
      intro l hl
      obtain ⟨hv, c, i, j, f, i1, v1, rfl⟩ := predictorP_text l hl
      exact ⟨inner_of_level rfl (.inr (show (2 : Int) ≤ verbose by omega)) rfl rfl, rfl⟩
    have hhd : ∀ l ∈ (if 1 < verbose then [Line.tableHead] else [] : List (Line F)), l.InnerOf verbose cfg ∧ l.failure? = none := by
      intro l hl
      split at hl
      · next hv =>
        rw [List.mem_singleton.1 hl]
        exact ⟨inner_of_level rfl (.inr (show (2 : Int) ≤ verbose by omega)) rfl rfl, rfl⟩
      · cases hl
    cases hs : pre.success with
    | true =>
      simp only [hs, if_true] at h1 ⊢
      cases h1
      refine ⟨(if 1 < verbose then [Line.tableHead] else []) ++ (predictorP verbose env P cfg s).text, lpf, ?_, ?_, rfl, hl, ?_⟩
      · intro l hl
        rcases List.mem_append.1 hl with hl | hl
        · exact (hhd l hl).1
        · exact (hpre l hl).1
      · rw [List.filterMap_append, filterMap_nil fun l hl => (hhd l hl).2, filterMap_nil fun l hl => (hpre l hl).2]
        rfl
      · simp
    | false =>
      simp only [hs] at h1 ⊢
      rw [if_neg (show ¬ (false = true) by simp)] at h1 ⊢
      obtain ⟨⟨st2, o2⟩, h3, h1, t⟩ := Pr.bind_ok h1
      rw [t]; clear t
      cases h1
      obtain ⟨f1, -⟩ := recycleP_failure fuel h3
      refine ⟨(if 1 < verbose then [Line.tableHead] else []) ++ (predictorP verbose env P cfg s).text ++
        (recycleP verbose env P cfg ⟨s.x, dxmax0, pre.jPre, pre.DxPre, pre.vPre⟩ fuel
          ⟨s.x, 0, pre.nPre, s.dxmax, pre.j, s.b, pre.a⟩).text, lpf, ?_, ?_, rfl, hl, ?_⟩
      · intro l hl
        rcases List.mem_append.1 hl with hl | hl
        · rcases List.mem_append.1 hl with hl | hl
          · exact (hhd l hl).1
          · exact (hpre l hl).1
        · exact recycleP_every _ _ _ _ _ _ _ l hl
      · rw [List.filterMap_append, List.filterMap_append, filterMap_nil fun l hl => (hhd l hl).2,
          filterMap_nil fun l hl => (hpre l hl).2, f1]
        rfl
      · simp

/-- Inner lines are of none of the kinds that are counted. -/
theorem inner_none {l : Line F} (h : l.isInner = true) : l.finalLpf? = none ∧ l.incHead? = none ∧ l.written? = none ∧
    l.stepHead? = none ∧ l.stepEnd? = none ∧ l.exit? = none := by
  cases l <;> first | exact ⟨rfl, rfl, rfl, rfl, rfl, rfl⟩ | cases h

theorem inner_filterMap {T : List (Line F)} (h : ∀ l ∈ T, l.isInner = true) : T.filterMap Line.finalLpf? = [] ∧
    T.filterMap Line.incHead? = [] ∧ T.filterMap Line.written? = [] ∧ T.filterMap Line.stepHead? = [] ∧
    T.filterMap Line.stepEnd? = [] ∧ T.filterMap Line.exit? = [] :=
  ⟨filterMap_nil fun l hl => (inner_none (h l hl)).1, filterMap_nil fun l hl => (inner_none (h l hl)).2.1,
    filterMap_nil fun l hl => (inner_none (h l hl)).2.2.1, filterMap_nil fun l hl => (inner_none (h l hl)).2.2.2.1,
    filterMap_nil fun l hl => (inner_none (h l hl)).2.2.2.2.1, filterMap_nil fun l hl => (inner_none (h l hl)).2.2.2.2.2⟩

/-- What the text `T` of the increments `recs`, numbered from `i`, contains. -/
structure LoopText (verbose : Int) (xl : Option (Int × F)) (i : Nat) (recs : List (Rec F)) (T : List (Line F)) : Prop where
  lpf : (T.filterMap Line.finalLpf?).map some = if 0 < verbose then recs.map (·.a.lpf) else []
  heads : T.filterMap Line.incHead? = if 0 < verbose then List.range' i recs.length else []
  failures : T.filterMap Line.failure? = recs.filterMap (·.out.failure?)
  written : T.filterMap Line.written? = []
  steps : T.filterMap Line.stepHead? = []
  ends : T.filterMap Line.stepEnd? = []
  exit : T.filterMap Line.exit? ≠ [] ↔ ∃ r, recs.getLast? = some r ∧ r.out.isStop = false ∧ ExceedsLimit r.x xl

theorem limitReached_true {x : List F} {xl : Option (Int × F)} (h : limitReached x xl = .ok true) :
    ExceedsLimit x xl := by
  unfold limitReached at h
  cases xl with
  | none => cases h
  | some p =>
    obtain ⟨v, h1, h⟩ := py_bind_eq_ok.1 h
    exact ⟨p.1, p.2, v, rfl, h1, Except.ok.inj h⟩

theorem limitReached_false {x : List F} {xl : Option (Int × F)} (h : limitReached x xl = .ok false) :
    ¬ ExceedsLimit x xl := by
  rintro ⟨i, lim, v, rfl, h1, h2⟩
  unfold limitReached at h
  simp only [h1] at h
  have h := Except.ok.inj h
  rw [h2] at h
  cases h

theorem failure_of_stop {o : Outcome} (h : o.isStop = false) : o.failure? = none := by
  cases o <;> first | rfl | cases h

/-- One increment, followed by the text of the others. -/
theorem LoopText.cons {verbose : Int} {xl : Option (Int × F)} {i : Nat} {recs : List (Rec F)} {T T' : List (Line F)}
    {r : Rec F} {lpf : F} (hT : ∀ l ∈ T, l.isInner = true) (hf : T.filterMap Line.failure? = r.out.failure?.toList)
    (hl : r.a.lpf = some lpf) (h : LoopText verbose xl (i + 1) recs T')
    (he : recs = [] → ¬ ExceedsLimit r.x xl ∨ r.out.isStop = true) : LoopText verbose xl i (r :: recs)
      ((if 0 < verbose then [.incHead i] else []) ++ T ++ (if 0 < verbose then [.finalLpf lpf] else []) ++ T') := by
  obtain ⟨t1, t2, t3, t4, t5, t6⟩ := inner_filterMap hT
  have hfl : (r :: recs).filterMap (·.out.failure?) = r.out.failure?.toList ++ recs.filterMap (·.out.failure?) := by
    rw [List.filterMap_cons]
    cases r.out.failure? <;> rfl
  by_cases hv : 0 < verbose
  · simp only [if_pos hv]
    constructor
    · simp only [List.filterMap_append, t1, List.map_append, h.lpf, if_pos hv, List.map_cons, hl]
      rfl
    · simp only [List.filterMap_append, t2, h.heads, if_pos hv, List.length_cons, List.range'_succ]
      rfl
    · simp only [List.filterMap_append, hf, h.failures, hfl]
      rw [show [Line.incHead i].filterMap Line.failure? = [] from rfl,
        show [Line.finalLpf lpf].filterMap Line.failure? = [] from rfl]
      simp
    · simp only [List.filterMap_append, t3, h.written]; rfl
    · simp only [List.filterMap_append, t4, h.steps]; rfl
    · simp only [List.filterMap_append, t5, h.ends]; rfl
    · simp only [List.filterMap_append, t6]
      rw [show [Line.incHead i].filterMap Line.exit? = [] from rfl,
        show [Line.finalLpf lpf].filterMap Line.exit? = [] from rfl, List.nil_append, List.nil_append, List.nil_append, h.exit]
      cases recs with
      | nil =>
        constructor
        · rintro ⟨_, h, _⟩; cases h
        · rintro ⟨r', h1, h2, h3⟩
          cases h1
          rcases he rfl with he | he
          · exact absurd h3 he
          · exact absurd (he.symm.trans h2) (by decide)
      | cons r' recs => rw [List.getLast?_cons_cons]
  · simp only [if_neg hv, List.nil_append, List.append_nil]
    constructor
    · simp only [List.filterMap_append, t1, List.map_append, h.lpf, if_neg hv]; rfl
    · simp only [List.filterMap_append, t2, h.heads, if_neg hv]; rfl
    · simp only [List.filterMap_append, hf, h.failures, hfl]
    · simp only [List.filterMap_append, t3, h.written]; rfl
    · simp only [List.filterMap_append, t4, h.steps]; rfl
    · simp only [List.filterMap_append, t5, h.ends]; rfl
    · simp only [List.filterMap_append, t6]
      rw [List.nil_append, h.exit]
      cases recs with
      | nil =>
        constructor
        · rintro ⟨_, h, _⟩; cases h
        · rintro ⟨r', h1, h2, h3⟩
          cases h1
          rcases he rfl with he | he
          · exact absurd h3 he
          · exact absurd (he.symm.trans h2) (by decide)
      | cons r' recs => rw [List.getLast?_cons_cons]

theorem LoopText.nil (verbose : Int) (xl : Option (Int × F)) (i : Nat) : LoopText verbose xl i [] [] := by
  constructor <;> simp

theorem incrLoopP_text {verbose : Int} {env : Env F} {P : Problem F} {cfg : PFCfg F} {dxmax0 : List F} {fuel : Nat} :
    ∀ (k i : Nat) {s s' : PState F} {recs : List (Rec F)},
      (incrLoopP verbose env P cfg dxmax0 fuel k i s).res = .ok (s', recs) →
      LoopText verbose cfg.xlimit i recs (incrLoopP verbose env P cfg dxmax0 fuel k i s).text
  | 0, i, s, s', recs, h => by cases h; exact .nil ..
  | k + 1, i, s, s', recs, h => by
    unfold incrLoopP at h ⊢
    obtain ⟨⟨s1, o⟩, h1, h, t⟩ := Pr.bind_ok h
    rw [t]; clear t
    obtain ⟨T, lpf, e1, e2, e3, -, e5⟩ := incrementP_text h1
    rw [e5]
    simp only at h ⊢
    cases ho : o.isStop with
    | true =>
      simp only [ho, if_true] at h ⊢
      cases h
      exact .cons (r := ⟨s'.x, s'.a, o⟩) (fun l hl => (e1 l hl).1) e2 e3 (.nil ..) fun _ => .inr ho
    | false =>
      simp only [ho] at h ⊢
      rw [if_neg (show ¬ (false = true) by simp)] at h ⊢
      obtain ⟨lim, h2, h, t⟩ := Pr.bind_ok h
      rw [t]; clear t
      rw [Pr.text_lift, List.nil_append]
      cases lim with
      | true =>
        rw [if_pos rfl] at h ⊢
        obtain ⟨_, -, h, t⟩ := Pr.bind_ok h
        rw [t]; clear t
        cases h
        have hc := LoopText.cons (verbose := verbose) (xl := none) (i := i) (r := ⟨s'.x, s'.a, o⟩) (fun l hl => (e1 l hl).1) e2 e3
          (.nil ..) fun _ => .inl (by rintro ⟨_, _, _, h, _⟩; cases h)
        simp only [List.append_nil] at hc
        have hx : ∀ {β : Type} (φ : Line F → Option β), φ .exit1 = none → ∀ T : List (Line F),
            (T ++ ((Pr.say [Line.exit1]).text ++ (pure (s', [(⟨s'.x, s'.a, o⟩ : Rec F)]) : Pr F (PState F × List (Rec F))).text)).filterMap φ = T.filterMap φ := by
          intro β φ h T
          simp [h]
        constructor
        · rw [hx _ rfl]; exact hc.lpf
        · rw [hx _ rfl]; exact hc.heads
        · rw [hx _ rfl]; exact hc.failures
        · rw [hx _ rfl]; exact hc.written
        · rw [hx _ rfl]; exact hc.steps
        · rw [hx _ rfl]; exact hc.ends
        · constructor
          · intro _
            exact ⟨_, rfl, ho, limitReached_true h2⟩
          · intro _
            simp [Line.exit?]
      | false =>
        rw [if_neg (show ¬ (false = true) by simp)] at h ⊢
        obtain ⟨⟨s2, rest⟩, h3, h, t⟩ := Pr.bind_ok h
        rw [t]; clear t
        cases h
        rw [Pr.text_pure, List.append_nil]
        exact .cons (r := ⟨s1.x, s1.a, o⟩) (fun l hl => (e1 l hl).1) e2 e3 (incrLoopP_text k (i + 1) h3)
          fun _ => .inl (limitReached_false h2)

theorem pathfollowP_text {verbose : Int} {env : Env F} {P : Problem F} {cfg : PFCfg F} {fuel : Nat} {x : List F}
    {a : Analysis F} {o : PFOut F} (h : (pathfollowP verbose env P cfg fuel x a).res = .ok o) :
    LoopText verbose cfg.xlimit 1 o.recs (pathfollowP verbose env P cfg fuel x a).text := by
  unfold pathfollowP at h ⊢
  obtain ⟨j, h1, h, t⟩ := Pr.bind_ok h
  rw [t]; clear t
  rw [Pr.text_lift, List.nil_append]
  by_cases hd : (initDxmax (x ++ [0]) cfg.dxmax).length ≠ (x ++ [0]).length ∧ cfg.incs ≠ 0
  · simp only [if_pos hd] at h; cases h
  · simp only [if_neg hd] at h ⊢
    obtain ⟨⟨s, recs⟩, h2, h, t⟩ := Pr.bind_ok h
    rw [t]; clear t
    cases h
    rw [Pr.text_pure, List.append_nil]
    exact incrLoopP_text _ _ h2

end TrussPy
