import Verif.Spec.Run
import Verif.Lemmas.Trial
import Verif.Lemmas.Build
import Verif.Lemmas.StepArgs
/-!
# The step loop of `Model.run`
-/

set_option linter.unusedSectionVars false

namespace TrussPy

variable {F : Type} [Zero F] [One F] [Add F] [Sub F] [Mul F] [Div F] [Neg F] [Flt F]

/-- The step loop as a relation: after the steps `outs` the loop holds the given analysis object and
results, if another step follows. -/
inductive Steps (env : Env F) (fuel : Nat) (c : Ctx F) (s : Settings F) (rows : List (List F)) (a0 : Analysis F)
    (r0 : Results F) : List (PFOut F) → Analysis F → Results F → Prop
  | nil : Steps env fuel c s rows a0 r0 [] a0 r0
  | snoc {outs a res incs xl a1 o R l} : Steps env fuel c s rows a0 r0 outs a res →
      stepIncs s outs.length = .ok incs → stepXlimit s outs.length = .ok xl →
      setStep rows res.stepLpfEnd outs.length a = .ok a1 →
      pathfollow env (modelProblem c) (stepCfg s incs xl) fuel a1.Ured a1 = .ok o →
      syncU0 ((o.recs.map (·.a)).foldl recordOne res.R) = .ok R → lastLpf R = .ok l →
      Steps env fuel c s rows a0 r0 (outs ++ [o]) (resetLpf o.final) ⟨R, res.stepLpfEnd ++ [l]⟩

/-- One pass of the step loop. -/
theorem runStep_ok {env : Env F} {fuel : Nat} {c : Ctx F} {s : Settings F} {rows : List (List F)} {a a' : Analysis F}
    {res res' : Results F} {k : Nat} (h : runStep env fuel c s rows (a, res) k = .ok (a', res')) :
    ∃ incs xl a1 o R l, stepIncs s k = .ok incs ∧ stepXlimit s k = .ok xl ∧
      setStep rows res.stepLpfEnd k a = .ok a1 ∧
      pathfollow env (modelProblem c) (stepCfg s incs xl) fuel a1.Ured a1 = .ok o ∧
      syncU0 ((o.recs.map (·.a)).foldl recordOne res.R) = .ok R ∧ lastLpf R = .ok l ∧
      if k + 1 < s.nsteps then a' = resetLpf o.final ∧ res' = ⟨R, res.stepLpfEnd ++ [l]⟩
      else a' = o.final ∧ res' = ⟨R.dropLast, res.stepLpfEnd ++ [l]⟩ := by
  unfold runStep at h
  simp only at h
  obtain ⟨incs, h1, h⟩ := py_bind_eq_ok.1 h
  obtain ⟨xl, h2, h⟩ := py_bind_eq_ok.1 h
  obtain ⟨a1, h3, h⟩ := py_bind_eq_ok.1 h
  obtain ⟨o, h4, h⟩ := py_bind_eq_ok.1 h
  obtain ⟨R, h5, h⟩ := py_bind_eq_ok.1 h
  obtain ⟨l, h6, h⟩ := py_bind_eq_ok.1 h
  refine ⟨incs, xl, a1, o, R, l, h1, h2, h3, h4, h5, h6, ?_⟩
  split at h
  · next hk => rw [if_pos hk]; cases h; exact ⟨rfl, rfl⟩
  · next hk => rw [if_neg hk]; cases h; exact ⟨rfl, rfl⟩

theorem foldSteps_ok {env : Env F} {fuel : Nat} {c : Ctx F} {s : Settings F} {rows : List (List F)} {a0 : Analysis F}
    {r0 : Results F} : ∀ (n : Nat) {a : Analysis F} {res : Results F}, n < s.nsteps →
      (List.range n).foldlM (runStep env fuel c s rows) (a0, r0) = .ok (a, res) →
      ∃ outs, outs.length = n ∧ Steps env fuel c s rows a0 r0 outs a res
  | 0, a, res, _, h => by cases h; exact ⟨[], rfl, .nil⟩
  | n + 1, a, res, hn, h => by
    rw [List.range_succ, List.foldlM_append] at h
    obtain ⟨⟨a1, res1⟩, h1, h⟩ := py_bind_eq_ok.1 h
    obtain ⟨outs, hl, hs⟩ := foldSteps_ok n (by omega) h1
    rw [List.foldlM_cons] at h
    obtain ⟨⟨a2, res2⟩, h2, h⟩ := py_bind_eq_ok.1 h
    cases h
    obtain ⟨incs, xl, a1', o, R, l, g1, g2, g3, g4, g5, g6, g7⟩ := runStep_ok h2
    rw [if_pos hn] at g7
    obtain ⟨rfl, rfl⟩ := g7
    rw [← hl] at g1 g2 g3
    exact ⟨outs ++ [o], by simp [hl], .snoc hs g1 g2 g3 g4 g5 g6⟩

/-- A returning `run`. -/
theorem run_ok {env : Env F} {fuel : Nat} {m m' : Model F} (h : m.run env fuel = .ok m') :
    ∃ c a res ft r0 rest, m.ctx = some c ∧ m.analysis = some a ∧ m.results = some res ∧ m.forces = some ft ∧
      res.R = r0 :: rest ∧ (1 < m.settings.log → m.settings.j0 = none) ∧ m'.nodes = m.nodes ∧ m'.elems = m.elems ∧
      m'.bounds = m.bounds ∧ m'.forces = m.forces ∧ m'.settings = m.settings ∧ m'.dims = m.dims ∧
      ∃ outs a1 R le, outs.length = m.settings.nsteps ∧
        Steps env fuel c m.settings ft.forces.rows { a with Vred := a.Ured ++ [0], lpf := some 0 }
          ⟨r0 :: r0 :: rest, res.stepLpfEnd⟩ outs a1 ⟨R, le⟩ ∧
        ((m.settings.nsteps = 0 ∧ m'.results = some ⟨R, le⟩ ∧ m'.analysis = some a1) ∨
          (0 < m.settings.nsteps ∧ m'.results = some ⟨R.dropLast, le⟩ ∧
            ∃ o, outs.getLast? = some o ∧ m'.analysis = some o.final)) := by
  unfold Model.run at h
  split at h
  · cases h
  next hlog =>
  split at h
  case h_2 => cases h
  next c a res ft h1 h2 h3 h4 =>
  simp only at h
  obtain ⟨R, h5, h⟩ := py_bind_eq_ok.1 h
  have hR : ∃ r0 rest, res.R = r0 :: rest ∧ R = r0 :: r0 :: rest := by
    unfold dupFirst at h5
    split at h5
    · cases h5
    · next r0 rest he => cases h5; exact ⟨r0, rest, he, by rw [he]⟩
  obtain ⟨r0, rest, e1, rfl⟩ := hR
  obtain ⟨⟨a2, res2⟩, h6, h⟩ := py_bind_eq_ok.1 h
  cases h
  refine ⟨c, a, res, ft, r0, rest, h1, h2, h3, h4, e1, ?_, rfl, rfl, rfl, rfl, rfl, rfl, ?_⟩
  · intro hl
    by_contra hc
    exact hlog ⟨hl, hc⟩
  cases hn : m.settings.nsteps with
  | zero =>
    rw [hn] at h6
    cases h6
    exact ⟨[], _, _, _, rfl, .nil, .inl ⟨rfl, rfl, rfl⟩⟩
  | succ n =>
    rw [hn, List.range_succ, List.foldlM_append] at h6
    obtain ⟨⟨a1, res1⟩, h7, h6⟩ := py_bind_eq_ok.1 h6
    obtain ⟨outs, hl, hs⟩ := foldSteps_ok n (by omega) h7
    rw [List.foldlM_cons] at h6
    obtain ⟨⟨a3, res3⟩, h8, h6⟩ := py_bind_eq_ok.1 h6
    cases h6
    obtain ⟨incs, xl, a1', o, R, l, g1, g2, g3, g4, g5, g6, g7⟩ := runStep_ok h8
    rw [if_neg (by omega)] at g7
    obtain ⟨rfl, rfl⟩ := g7
    rw [← hl] at g1 g2 g3
    exact ⟨outs ++ [o], _, _, _, by simp [hl], .snoc hs g1 g2 g3 g4 g5 g6, .inr ⟨by omega, rfl, o, by simp, rfl⟩⟩

/-! ## Layout of the results -/

theorem foldl_recordOne (as : List (Analysis F)) : ∀ (X : List (Analysis F)) (j : Analysis F),
    as.foldl recordOne (X ++ [j]) = X ++ as ++ [as.getLastD j] := by
  induction as with
  | nil => intro X j; simp
  | cons a as ih =>
    intro X j
    rw [List.foldl_cons]
    have : recordOne (X ++ [j]) a = (X ++ [a]) ++ [a] := by simp [recordOne]
    rw [this, ih, List.getLastD_cons]
    simp

/-- A copy with another `U0`. -/
def Analysis.setU0 (a : Analysis F) (u : List F) : Analysis F := { a with U0 := u }

theorem syncU0_snoc (X : List (Analysis F)) (j : Analysis F) :
    syncU0 (X ++ [j]) = .ok (X ++ [j.setU0 j.U]) := by
  simp [syncU0, Analysis.setU0]

/-- The results held by the step loop: the entries before the run (without the last), all increments, and one
more entry that the next increment replaces. -/
theorem Steps.layout {env : Env F} {fuel : Nat} {c : Ctx F} {s : Settings F} {rows : List (List F)} {a0 : Analysis F}
    {X : List (Analysis F)} {j0 : Analysis F} {l0 : List F} {outs : List (PFOut F)} {a : Analysis F} {res : Results F}
    (h : Steps env fuel c s rows a0 ⟨X ++ [j0], l0⟩ outs a res) :
    ∃ u0, res.R = X ++ (recorded outs).map (·.a) ++ [(((recorded outs).map (·.a)).getLastD j0).setU0 u0] := by
  generalize hr : (⟨X ++ [j0], l0⟩ : Results F) = r0 at h
  induction h with
  | nil => subst hr; exact ⟨j0.U0, by simp [recorded, Analysis.setU0]⟩
  | @snoc outs a res incs xl a1 o R l _ _ _ _ _ h5 _ ih =>
    obtain ⟨u0, hu⟩ := ih
    rw [hu, foldl_recordOne, syncU0_snoc] at h5
    have h5 := Except.ok.inj h5
    subst h5
    simp only
    have hrec : (recorded (outs ++ [o])).map (·.a) = (recorded outs).map (·.a) ++ o.recs.map (·.a) := by
      simp [recorded]
    rw [hrec]
    generalize o.recs.map (·.a) = as
    generalize (recorded outs).map (·.a) = bs
    rcases List.eq_nil_or_concat as with rfl | ⟨as, x, rfl⟩
    · exact ⟨(bs.getLastD j0).U, by simp [Analysis.setU0]⟩
    · exact ⟨x.U, by simp⟩

theorem Steps.calls {env : Env F} {fuel : Nat} {c : Ctx F} {s : Settings F} {rows : List (List F)} {a0 : Analysis F}
    {r0 : Results F} {outs : List (PFOut F)} {a : Analysis F} {res : Results F}
    (h : Steps env fuel c s rows a0 r0 outs a res) :
    ∀ k o, outs[k]? = some o → StepCall env fuel c s k o := by
  induction h with
  | nil => intro k o hk; simp at hk
  | @snoc outs a res incs xl a1 o R l _ h1 h2 h3 h4 _ _ ih =>
    intro k o' hk
    rw [List.getElem?_append] at hk
    split at hk
    · exact ih k o' hk
    · next hlt =>
      have : k = outs.length := by
        by_contra hne
        have : [o][k - outs.length]? = none := by
          rw [List.getElem?_eq_none_iff]; simp; omega
        rw [this] at hk; cases hk
      subst this
      simp at hk
      subst hk
      obtain ⟨-, e2, -⟩ := pathfollow_ok h4
      refine ⟨_, .of h1 h2, ?_, by rw [e2]; exact h4⟩
      rw [e2]
      unfold setStep at h3
      obtain ⟨fc, -, h3⟩ := py_bind_eq_ok.1 h3
      obtain ⟨f0, -, h3⟩ := py_bind_eq_ok.1 h3
      cases h3
      exact Nat.add_comm _ _

/-- The load factor noted at the end of a step is that of its last increment. -/
theorem lastLpf_recorded {R R' : List (Analysis F)} {recs : List (Rec F)} {r : Rec F} {l : F}
    (h1 : syncU0 ((recs.map (·.a)).foldl recordOne R) = .ok R') (h2 : lastLpf R' = .ok l)
    (hr : recs.getLast? = some r) : r.a.lpf = some l := by
  obtain ⟨ys, rfl⟩ := List.getLast?_eq_some_iff.1 hr
  rw [List.map_append, List.foldl_append] at h1
  have : syncU0 ((((ys.map (·.a)).foldl recordOne R).dropLast ++ [r.a]) ++ [r.a]) = .ok R' := h1
  rw [syncU0_snoc] at this
  cases this
  unfold lastLpf at h2
  rw [List.getLast?_concat] at h2
  simp only [Analysis.setU0] at h2
  split at h2
  · cases h2
  · next l' hl => cases h2; exact hl

theorem lastLpf_iff {R : List (Analysis F)} {l : F} : lastLpf R = .ok l ↔ R.getLast?.bind (·.lpf) = some l := by
  unfold lastLpf
  cases R.getLast? with
  | none => simp
  | some a =>
    cases h : a.lpf with
    | none => simp [h]
    | some x => simp [h]

/-- The load factor noted at the end of a step without increments is that of the entry before. -/
theorem lastLpf_sync {R R' : List (Analysis F)} (h : syncU0 R = .ok R') :
    R'.getLast?.bind (·.lpf) = R.getLast?.bind (·.lpf) := by
  rcases List.eq_nil_or_concat R with rfl | ⟨X, j, rfl⟩
  · simp [syncU0] at h
  · rw [List.concat_eq_append] at h ⊢
    rw [syncU0_snoc] at h
    cases h
    simp [Analysis.setU0]

/-- How the steps are chained. -/
theorem Steps.chain {env : Env F} {fuel : Nat} {c : Ctx F} {s : Settings F} {rows : List (List F)} {a0 : Analysis F}
    {r0 : Results F} {outs : List (PFOut F)} {a : Analysis F} {res : Results F}
    (h : Steps env fuel c s rows { a0 with Vred := a0.Ured ++ [0], lpf := some 0 } r0 outs a res) :
    ∃ ends, res.R.getLast?.bind (·.lpf) = ends.getLast?.or (r0.R.getLast?.bind (·.lpf)) ∧
      res.stepLpfEnd = r0.stepLpfEnd ++ ends ∧ ends.length = outs.length ∧
      beforeStep a0 outs outs.length = some a ∧ ∀ k o, outs[k]? = some o →
      (∃ p, beforeStep a0 outs k = some p ∧ setStep rows (r0.stepLpfEnd ++ ends.take k) k p = .ok o.startA) ∧
      ends[k]? = match o.recs.getLast? with
        | some r => r.a.lpf
        | none => factorBefore r0.R ends k := by
  induction h with
  | nil => exact ⟨[], by simp, by simp, rfl, rfl, fun k o hk => by simp at hk⟩
  | @snoc outs a res incs xl a1 o R l _ h1 h2 h3 h4 h5 h6 ih =>
    obtain ⟨ends, i0, i1, i2, i3, i4⟩ := ih
    have hb : ∀ k, k ≤ outs.length → beforeStep a0 (outs ++ [o]) k = beforeStep a0 outs k := by
      intro k hk
      cases k with
      | zero => rfl
      | succ k =>
        show ((outs ++ [o])[k]?).map _ = (outs[k]?).map _
        rw [List.getElem?_append_left (by omega)]
    refine ⟨ends ++ [l], by simpa using lastLpf_iff.1 h6, by rw [i1, List.append_assoc], by simp [i2], ?_, ?_⟩
    · rw [List.length_append, List.length_singleton]
      unfold beforeStep
      simp [resetLpf]
    · intro k o' hk
      rw [List.getElem?_append] at hk
      split at hk
      · next hlt =>
        obtain ⟨j1, j2⟩ := i4 k o' hk
        rw [hb k (by omega), List.take_append_of_le_length (by omega), List.getElem?_append_left (by omega)]
        refine ⟨j1, j2.trans ?_⟩
        split
        · rfl
        · cases k with
          | zero => rfl
          | succ k =>
            show ends[k]? = (ends ++ [l])[k]?
            rw [List.getElem?_append_left (by omega)]
      · next hlt =>
        have : k = outs.length := by
          by_contra hne
          have : [o][k - outs.length]? = none := by
            rw [List.getElem?_eq_none_iff]; simp; omega
          rw [this] at hk; cases hk
        subst this
        simp at hk
        subst hk
        obtain ⟨-, e2, -⟩ := pathfollow_ok h4
        rw [hb _ (le_refl _), i3, e2, List.take_append_of_le_length (by omega), List.take_of_length_le (by omega), ← i1]
        refine ⟨⟨a, rfl, h3⟩, ?_⟩
        rw [← i2, List.getElem?_concat_length]
        split
        · next r hr => exact (lastLpf_recorded h5 h6 hr).symm
        · next hr =>
          have hn : o.recs = [] := List.getLast?_eq_none_iff.1 hr
          rw [hn] at h5
          have h7 : syncU0 res.R = .ok R := h5
          rw [lastLpf_iff, lastLpf_sync h7, i0] at h6
          rw [i2, ← h6]
          rcases List.eq_nil_or_concat ends with rfl | ⟨X, j, rfl⟩
          · cases outs with
            | nil => rfl
            | cons _ _ => simp at i2
          · cases outs with
            | nil => simp at i2
            | cons x outs =>
              simp only [List.concat_eq_append, List.length_append, List.length_cons, List.length_nil] at i2
              have : X.length = outs.length := by omega
              show _ = (X.concat j ++ [_])[outs.length]?
              rw [← this]
              simp

theorem Steps.runCalls {env : Env F} {fuel : Nat} {m : Model F} {c : Ctx F} {a : Analysis F} {r0 : Results F} {ft : ForceTab F}
    (ha : m.analysis = some a) (hres : m.results = some r0) (hf : m.forces = some ft) {R : List (Analysis F)}
    {outs : List (PFOut F)} {a1 : Analysis F} {res : Results F}
    (h : Steps env fuel c m.settings ft.forces.rows { a with Vred := a.Ured ++ [0], lpf := some 0 } ⟨R, r0.stepLpfEnd⟩
      outs a1 res) (hl : outs.length = m.settings.nsteps)
    (h0 : R.getLast?.bind (·.lpf) = r0.R.getLast?.bind (·.lpf)) : RunCalls env fuel m c outs := by
  obtain ⟨ends, -, -, -, -, h4⟩ := h.chain
  have hb : ∀ k, factorBefore R ends k = factorBefore r0.R ends k := fun k => by cases k <;> simp [factorBefore, h0]
  simp only [hb] at h4
  exact ⟨hl, h.calls, a, r0, ft, ends, ha, hres, hf, fun k o hk => by
    obtain ⟨⟨p, j1, j2⟩, j3⟩ := h4 k o hk
    exact ⟨⟨p, j1, beginsStep_iff.2 j2⟩, j3⟩⟩

/-! ## The analysis object along the increments -/

/-- `a` is `p` up to load data, load factor and step number. -/
structure Carry (p a : Analysis F) : Prop where
  stress0 : a.elementStress0 = p.elementStress0
  dof0 : a.DOF0 = p.DOF0
  dof1 : a.DOF1 = p.DOF1
  Ured : a.Ured = p.Ured
  U : a.U = p.U
  U0 : a.U0 = p.U0
  r : a.r = p.r
  K : a.K = p.K
  stretch : a.stretch = p.stretch
  force : a.elementForce = p.elementForce
  stress : a.elementStress = p.elementStress
  statev : a.statev = p.statev
  rred : a.rred = p.rred

theorem Carry.refl (a : Analysis F) : Carry a a := by constructor <;> rfl

theorem Carry.trans {a b d : Analysis F} (h1 : Carry a b) (h2 : Carry b d) : Carry a d := by
  constructor <;> first
    | exact h2.stress0.trans h1.stress0
    | exact h2.dof0.trans h1.dof0
    | exact h2.dof1.trans h1.dof1
    | exact h2.Ured.trans h1.Ured
    | exact h2.U.trans h1.U
    | exact h2.U0.trans h1.U0
    | exact h2.r.trans h1.r
    | exact h2.K.trans h1.K
    | exact h2.stretch.trans h1.stretch
    | exact h2.force.trans h1.force
    | exact h2.stress.trans h1.stress
    | exact h2.statev.trans h1.statev
    | exact h2.rred.trans h1.rred

theorem carry_resetLpf (a : Analysis F) : Carry a (resetLpf a) := by constructor <;> rfl

theorem setStep_ok {rows : List (List F)} {le : List F} {k : Nat} {a a1 : Analysis F}
    (h : setStep rows le k a = .ok a1) : Carry a a1 ∧ a1.step = k + 1 ∧ a1.lpf = a.lpf ∧ ∃ fc,
      constLoad rows le k = .ok fc ∧ a1.extForces = some ⟨(stepSlice rows k).flatten, fc⟩ ∧
      npTake (stepSlice rows k).flatten a.DOF1 = .ok a1.f0red := by
  unfold setStep at h
  obtain ⟨fc, h1, h⟩ := py_bind_eq_ok.1 h
  obtain ⟨f0, h2, h⟩ := py_bind_eq_ok.1 h
  cases h
  exact ⟨by constructor <;> rfl, Nat.add_comm _ _, rfl, fc, h1, rfl, h2⟩

theorem Path.final {env : Env F} {P : Problem F} {cfg : PFCfg F} {dxmax0 : List F} {k : Nat} {s s' : PState F}
    {recs : List (Rec F)} (h : Path env P cfg dxmax0 k s recs s') :
    s'.a = (recs.map (·.a)).getLastD s.a ∧ s'.x = (recs.map (·.x)).getLastD s.x := by
  induction h with
  | nil => exact ⟨rfl, rfl⟩
  | stop => exact ⟨rfl, rfl⟩
  | limit => exact ⟨rfl, rfl⟩
  | cons _ _ _ _ ih =>
    rw [List.map_cons, List.map_cons, List.getLastD_cons, List.getLastD_cons]
    exact ih

theorem pathfollow_final {env : Env F} {P : Problem F} {cfg : PFCfg F} {fuel : Nat} {x : List F}
    {a : Analysis F} {o : PFOut F} (h : pathfollow env P cfg fuel x a = .ok o) :
    o.final = (o.recs.map (·.a)).getLastD a := by
  obtain ⟨-, -, j, s', -, -, h4, h5⟩ := pathfollow_ok h
  rw [h4, h5.final.1]
  rfl

/-- Every record of a path-following call comes from one increment that starts at the previous record. -/
theorem pathfollow_increments {env : Env F} {c : Ctx F} {cfg : PFCfg F} {fuel : Nat}
    {a : Analysis F} {o : PFOut F} (h : pathfollow env (modelProblem c) cfg fuel a.Ured a = .ok o) {k : Nat}
    {p : Analysis F} {r : Rec F} (h1 : (a :: o.recs.map (·.a))[k]? = some p) (h2 : o.recs[k]? = some r) :
    ∃ dxmax0 s s', IsInc env (modelProblem c) cfg dxmax0 s s' r.out ∧ s'.x = r.x ∧ s'.a = r.a ∧ s.a = p ∧
      s.x.dropLast = p.Ured ∧ s.x.length = p.Ured.length + 1 ∧ r.x.length = s.x.length := by
  obtain ⟨px, hpx⟩ := resX_prev h2
  obtain ⟨pa, hpa, hQ⟩ := pathfollow_forall h
    (fun s => s.x.dropLast = s.a.Ured ∧ s.x.length = a.Ured.length + 1 ∧ s.dxmax.length = a.Ured.length + 1 ∧
      (initDxmax (a.Ured ++ [0]) cfg.dxmax).length = a.Ured.length + 1)
    (fun j _ _ hl => ⟨by simp [pfStart], by simp [pfStart], hl, hl⟩)
    (fun s s' o hI hi _ => by
      obtain ⟨i1, i2, i3, i4⟩ := hI
      have hl := hi.length (i4.trans i2.symm) (i3.trans i2.symm)
      refine ⟨?_, hl.1.trans i2, hl.2.trans i2, i4⟩
      cases hi <;> rfl)
    (fun px pa r => ∃ dxmax0 s s', IsInc env (modelProblem c) cfg dxmax0 s s' r.out ∧ s'.x = r.x ∧ s'.a = r.a ∧
      s.a = pa ∧ s.x.dropLast = pa.Ured ∧ s.x.length = pa.Ured.length + 1 ∧ r.x.length = s.x.length)
    (fun s s' o hI hi => by
      obtain ⟨i1, i2, i3, i4⟩ := hI
      have hl := hi.length (i4.trans i2.symm) (i3.trans i2.symm)
      refine ⟨_, s, s', hi, rfl, rfl, rfl, i1, ?_, hl.1⟩
      rw [← i1, List.length_dropLast]
      omega)
    hpx h2
  obtain ⟨-, e2, -⟩ := pathfollow_ok h
  unfold PFOut.resA at hpa
  rw [e2, h1] at hpa
  cases hpa
  exact hQ

theorem getLastD_append {α : Type} (as bs : List α) (d : α) : (as ++ bs).getLastD d = bs.getLastD (as.getLastD d) := by
  rcases List.eq_nil_or_concat bs with rfl | ⟨bs, x, rfl⟩
  · simp
  · simp

theorem recorded_snoc (outs : List (PFOut F)) (o : PFOut F) : recorded (outs ++ [o]) = recorded outs ++ o.recs := by
  simp [recorded]

theorem Steps.carry {env : Env F} {fuel : Nat} {c : Ctx F} {s : Settings F} {rows : List (List F)} {a0 : Analysis F}
    {r0 : Results F} {outs : List (PFOut F)} {a : Analysis F} {res : Results F}
    (h : Steps env fuel c s rows a0 r0 outs a res) : Carry (((recorded outs).map (·.a)).getLastD a0) a := by
  induction h with
  | nil => exact Carry.refl _
  | @snoc outs a res incs xl a1 o R l _ _ _ h3 h4 _ _ ih =>
    rw [recorded_snoc, List.map_append, getLastD_append]
    rcases List.eq_nil_or_concat o.recs with hn | ⟨rs, x, hn⟩
    · rw [hn]
      refine ih.trans ((setStep_ok h3).1.trans ?_)
      rw [pathfollow_final h4, hn]
      exact carry_resetLpf _
    · have : (o.recs.map (·.a)).getLastD (((recorded outs).map (·.a)).getLastD a0) = o.final := by
        rw [pathfollow_final h4, hn]; simp
      rw [this]
      exact carry_resetLpf _

/-- Every recorded increment of a run starts from the record before it. -/
theorem Steps.increments {env : Env F} {fuel : Nat} {c : Ctx F} {σ : Settings F} {rows : List (List F)}
    {a0 : Analysis F} {r0 : Results F} {outs : List (PFOut F)} {a : Analysis F} {res : Results F}
    (h : Steps env fuel c σ rows a0 r0 outs a res) : ∀ {k : Nat} {p : Analysis F} {r : Rec F},
    (a0 :: (recorded outs).map (·.a))[k]? = some p → (recorded outs)[k]? = some r →
    ∃ cfg dxmax0 s s', Carry p s.a ∧ IsInc env (modelProblem c) cfg dxmax0 s s' r.out ∧ s'.x = r.x ∧ s'.a = r.a ∧
      s.x.dropLast = p.Ured ∧ s.x.length = p.Ured.length + 1 ∧ r.x.length = s.x.length ∧
      ∃ incs xl, cfg = stepCfg σ incs xl := by
  induction h with
  | nil => intro k p r _ h2; simp [recorded] at h2
  | @snoc outs a res incs xl a1 o R l hs _ _ h3 h4 _ _ ih =>
    intro k p r h1 h2
    rw [recorded_snoc] at h1 h2
    rw [List.getElem?_append] at h2
    split at h2
    · next hk =>
      refine ih ?_ h2
      rw [← h1, List.map_append, ← List.cons_append, List.getElem?_append, if_pos (by simp; omega)]
    · next hk =>
      obtain ⟨i, rfl⟩ : ∃ i, k = (recorded outs).length + i := ⟨k - (recorded outs).length, by omega⟩
      rw [show (recorded outs).length + i - (recorded outs).length = i by omega] at h2
      have hc := hs.carry.trans (setStep_ok h3).1
      cases i with
      | zero =>
        have hp : p = ((recorded outs).map (·.a)).getLastD a0 := by
          rw [List.map_append, ← List.cons_append, List.getElem?_append, if_pos (by simp)] at h1
          rcases List.eq_nil_or_concat (recorded outs) with hn | ⟨rs, x, hn⟩
          · rw [hn] at h1 ⊢; simpa using h1.symm
          · rw [hn] at h1 ⊢
            simpa using h1.symm
        obtain ⟨d0, t, t', e1, e2, e3, e4, e5, e6, e7⟩ := pathfollow_increments h4 (k := 0) (p := a1) rfl h2
        rw [← hp] at hc
        exact ⟨_, d0, t, t', by rw [e4]; exact hc, e1, e2, e3, by rw [e5, hc.Ured], by rw [e6, hc.Ured], e7, _, _, rfl⟩
      | succ i =>
        have hp : (a1 :: o.recs.map (·.a))[i + 1]? = some p := by
          rw [List.map_append, ← List.cons_append, List.getElem?_append, if_neg (by simp)] at h1
          rw [← h1]
          simp only [List.length_cons, List.length_map, List.getElem?_cons_succ]
          congr 1
          omega
        obtain ⟨d0, t, t', e1, e2, e3, e4, e5, e6, e7⟩ := pathfollow_increments h4 hp h2
        exact ⟨_, d0, t, t', by rw [e4]; exact Carry.refl _, e1, e2, e3, e5, e6, e7, _, _, rfl⟩

/-- A property of analysis objects kept by increments and independent of load data holds for all records. -/
theorem Steps.forall {env : Env F} {fuel : Nat} {c : Ctx F} {s : Settings F} {rows : List (List F)}
    {a0 : Analysis F} {r0 : Results F} {outs : List (PFOut F)} {a : Analysis F} {res : Results F}
    (h : Steps env fuel c s rows a0 r0 outs a res) (I : Analysis F → Prop) (hc : ∀ p q, Carry p q → I p → I q)
    (hi : ∀ (cfg : PFCfg F) (dxmax0 : List F) (t t' : PState F) (o : Outcome),
      IsInc env (modelProblem c) cfg dxmax0 t t' o → t.x.dropLast = t.a.Ured → t.x.length = t.a.Ured.length + 1 →
      t'.x.length = t.x.length → I t.a → I t'.a)
    (h0 : I a0) : ∀ r ∈ a0 :: (recorded outs).map (·.a), I r := by
  have key : ∀ (k : Nat) (p : Analysis F), (a0 :: (recorded outs).map (·.a))[k]? = some p → I p := by
    intro k
    induction k with
    | zero => intro p hp; cases hp; exact h0
    | succ k ih =>
      intro p hp
      simp only [List.getElem?_cons_succ, List.getElem?_map, Option.map_eq_some_iff] at hp
      obtain ⟨r, hr, rfl⟩ := hp
      have hk : k < (recorded outs).length := (List.getElem?_eq_some_iff.1 hr).1
      have hq : (a0 :: (recorded outs).map (·.a))[k]? = some ((a0 :: (recorded outs).map (·.a))[k]'(by simp; omega)) :=
        List.getElem?_eq_getElem _
      obtain ⟨cfg, d0, t, t', e1, e2, e3, e4, e5, e6, e7, -⟩ := h.increments hq hr
      rw [← e4]
      exact hi cfg d0 t t' _ e2 (by rw [e5, e1.Ured]) (by rw [e6, e1.Ured]) (by rw [e3]; exact e7)
        (hc _ _ e1 (ih _ hq))
  intro r hr
  obtain ⟨k, hk⟩ := List.getElem?_of_mem hr
  exact key k r hk

/-! ## After `build` -/

/-- What `build` leaves behind for `run`. -/
theorem build_ready {argsort : List Int → List Nat} {m m1 : Model F} (h : m.build argsort = .ok m1) :
    ∃ c d ft, m1.ctx = some c ∧ m1.dims = some d ∧ m1.forces = some ft ∧ m1.elems = some c.elems ∧
      m1.nodes = some c.nodes ∧ c.nnodes = d.nnodes ∧ c.ndof1 = d.dof1.length ∧ c.nstatev = m1.settings.nstatev ∧
      d.ndof = 3 * d.nnodes ∧
      m1.analysis = some (Analysis.fresh d.nnodes d.nelems d.dof0 d.dof1 c.nstatev) ∧
      m1.results = some ⟨[{ (Analysis.fresh d.nnodes d.nelems d.dof0 d.dof1 c.nstatev : Analysis F) with
        lpf := some 0, extForces := some ⟨ft.forces.rows.flatten, List.replicate (3 * d.nnodes) 0⟩ }], []⟩ ∧
      (Analysis.fresh d.nnodes d.nelems d.dof0 d.dof1 c.nstatev : Analysis F).Fits c := by
  obtain ⟨nt0, et, nt, bt, ft, dof0, dof1, hn, he, hdim, hfn, hfb, hff, hcb, hcf, hd0, hd1, hm'⟩ := build_steps h
  subst hm'
  refine ⟨⟨nt, et, nt0.labels.length, dof1.length, if et.mtype.contains 2 then 2 else m.settings.nstatev⟩, _, _,
    by simp only [Model.ctx, he]; rfl, rfl, rfl, he, rfl, rfl, rfl, rfl, Nat.mul_comm _ _, rfl, ?_, ?_⟩
  · simp [addIncrement, Analysis.fresh]
  · obtain ⟨rfl, hlt⟩ := dofWhere_ok_iff.1 hd1
    constructor
    · simp [Analysis.fresh]
    · simp [Analysis.fresh]
    · simp [Analysis.fresh]
    · simp [Analysis.fresh]
    · intro row hrow
      simp only [Analysis.fresh, List.mem_replicate] at hrow
      rw [hrow.2]; simp
    · simp [Analysis.fresh]
    · simp [Analysis.fresh]
    · simp [Analysis.fresh]
    · intro hpos
      simp only [Analysis.fresh]
      rw [if_pos hpos]
      exact ⟨_, rfl, by simp⟩
    · intro i hi
      have := hlt i hi
      show i < 3 * nt0.labels.length
      omega
    · exact (whereEq_sorted _ _).imp fun h => Nat.ne_of_lt h

/-- `build` followed by `run`. -/
theorem build_run {argsort : List Int → List Nat} {env : Env F} {fuel : Nat} {m m1 m2 : Model F}
    (hb : m.build argsort = .ok m1) (hr : m1.run env fuel = .ok m2) :
    ∃ c d ft r0 outs a1 R le, m1.ctx = some c ∧ m1.dims = some d ∧ m1.forces = some ft ∧ c.nnodes = d.nnodes ∧
      c.ndof1 = d.dof1.length ∧ d.ndof = 3 * d.nnodes ∧ Undeformed d r0 ∧
      Carry r0 (Analysis.fresh d.nnodes d.nelems d.dof0 d.dof1 c.nstatev : Analysis F) ∧
      (Analysis.fresh d.nnodes d.nelems d.dof0 d.dof1 c.nstatev : Analysis F).Fits c ∧
      outs.length = m1.settings.nsteps ∧
      Steps env fuel c m1.settings ft.forces.rows
        { (Analysis.fresh d.nnodes d.nelems d.dof0 d.dof1 c.nstatev : Analysis F) with
          Vred := List.replicate d.dof1.length 0 ++ [0], lpf := some 0 } ⟨[r0] ++ [r0], []⟩ outs a1 ⟨R, le⟩ ∧
      ((m1.settings.nsteps = 0 ∧ m2.results = some ⟨R, le⟩) ∨
        (0 < m1.settings.nsteps ∧ m2.results = some ⟨R.dropLast, le⟩ ∧
          R.dropLast = r0 :: (recorded outs).map (·.a))) := by
  obtain ⟨c, d, ft, h1, h2, h3, h4, h5, h6, h7, h8, h9, h10, h11, h12⟩ := build_ready hb
  obtain ⟨c', a, res, ft', r0, rest, g1, g2, g3, g4, g5, -, -, -, -, -, -, -, outs, a1, R, le, g6, g7, g8⟩ := run_ok hr
  rw [h1] at g1; cases g1
  rw [h10] at g2; cases g2
  rw [h11] at g3; cases g3
  rw [h3] at g4; cases g4
  simp only [List.cons.injEq] at g5
  obtain ⟨rfl, rfl⟩ := g5
  refine ⟨c, d, ft, _, outs, a1, R, le, h1, h2, h3, h6, h7, h9, ?_, ?_, h12, g6, g7, ?_⟩
  · constructor <;> rfl
  · constructor <;> rfl
  · rcases g8 with ⟨e1, e2, -⟩ | ⟨e1, e2, -⟩
    · exact .inl ⟨e1, e2⟩
    · refine .inr ⟨e1, e2, ?_⟩
      obtain ⟨u0, hu⟩ := Steps.layout (X := [_]) g7
      simp only at hu
      rw [hu, List.dropLast_concat]
      rfl

/-! ## Loads -/

theorem pyGet_append {α : Type} {l l' : List α} {i : Nat} {x : α} (h : pyGet l (i : Int) = .ok x) :
    pyGet (l ++ l') (i : Int) = .ok x := by
  rw [pyGet_ok_nat] at h ⊢
  obtain ⟨hi, he⟩ := List.getElem?_eq_some_iff.1 h
  rw [List.getElem?_append, if_pos hi]
  exact h

theorem foldConst_append {rows : List (List F)} {le : List F} (le' : List F) (n : Nat) :
    ∀ {z fc : List F}, (List.range n).foldlM (fun acc (s : Nat) => do
      let l ← pyGet le (s : Int)
      addScaled acc l (stepSlice rows s).flatten) z = .ok fc →
    (List.range n).foldlM (fun acc (s : Nat) => do
      let l ← pyGet (le ++ le') (s : Int)
      addScaled acc l (stepSlice rows s).flatten) z = .ok fc := by
  induction n with
  | zero => intro z fc h; exact h
  | succ n ih =>
    intro z fc h
    rw [List.range_succ, List.foldlM_append] at h ⊢
    obtain ⟨f1, h1, h⟩ := py_bind_eq_ok.1 h
    rw [ih h1, py_bind_ok]
    rw [List.foldlM_cons] at h ⊢
    obtain ⟨f2, h2, h⟩ := py_bind_eq_ok.1 h
    obtain ⟨l, h3, h2⟩ := py_bind_eq_ok.1 h2
    rw [pyGet_append h3, py_bind_ok, h2, py_bind_ok]
    exact h

theorem addScaled_ok {acc f r : List F} {l : F} (h : addScaled acc l f = .ok r) :
    acc.length = f.length ∧ r = List.zipWith (fun p q => p + l * q) acc f := by
  unfold addScaled at h
  split at h
  · next hl => cases h; exact ⟨hl, rfl⟩
  · cases h

theorem foldConst_length {rows : List (List F)} {le : List F} (n : Nat) : ∀ {z fc : List F},
    (List.range n).foldlM (fun acc (s : Nat) => do
      let l ← pyGet le (s : Int)
      addScaled acc l (stepSlice rows s).flatten) z = .ok fc → fc.length = z.length := by
  induction n with
  | zero => intro z fc h; cases h; rfl
  | succ n ih =>
    intro z fc h
    rw [List.range_succ, List.foldlM_append] at h
    obtain ⟨f1, h1, h⟩ := py_bind_eq_ok.1 h
    rw [List.foldlM_cons] at h
    obtain ⟨f2, h2, h⟩ := py_bind_eq_ok.1 h
    obtain ⟨l, h3, h2⟩ := py_bind_eq_ok.1 h2
    obtain ⟨e1, rfl⟩ := addScaled_ok h2
    cases h
    rw [← ih h1]
    simp [e1]

theorem constLoad_length {rows : List (List F)} {le fc : List F} {n : Nat} (h : constLoad rows le n = .ok fc) :
    fc.length = (stepSlice rows n).flatten.length := by
  rw [foldConst_length n h, List.length_map]

/-- The constant load of the next step adds the load at the end of the step before. -/
theorem constLoad_succ {rows : List (List F)} {le fc fc' : List F} {l : F} {n : Nat} (hle : le.length = n)
    (h1 : constLoad rows le n = .ok fc) (h2 : constLoad rows (le ++ [l]) (n + 1) = .ok fc') :
    (stepSlice rows n).flatten.length = fc.length ∧
      fc' = List.zipWith (fun k f => k + l * f) fc (stepSlice rows n).flatten := by
  have hlen := constLoad_length h1
  refine ⟨hlen.symm, ?_⟩
  unfold constLoad at h1 h2
  rw [List.range_succ, List.foldlM_append] at h2
  obtain ⟨f1, h3, h2⟩ := py_bind_eq_ok.1 h2
  rw [List.foldlM_cons] at h2
  obtain ⟨f2, h4, h2⟩ := py_bind_eq_ok.1 h2
  obtain ⟨l', h5, h4⟩ := py_bind_eq_ok.1 h4
  obtain ⟨e1, rfl⟩ := addScaled_ok h4
  cases h2
  have hl : l' = l := by
    rw [pyGet_ok_nat, ← hle] at h5
    simpa using h5.symm
  subst hl
  have hz : (stepSlice rows (n + 1)).flatten.map (fun _ => (0 : F)) = (stepSlice rows n).flatten.map fun _ => 0 := by
    have := foldConst_length n h3
    rw [List.length_map] at this
    rw [List.map_const', List.map_const', ← this, e1]
  rw [hz] at h3
  have := foldConst_append [l'] n h1
  rw [this] at h3
  cases h3
  rfl

/-- Step number and loads do not change within a path-following call, and every record has a load factor. -/
theorem pathfollow_loads {env : Env F} {c : Ctx F} {cfg : PFCfg F} {fuel : Nat}
    {a : Analysis F} {o : PFOut F} (h : pathfollow env (modelProblem c) cfg fuel a.Ured a = .ok o) :
    ∀ r ∈ o.recs, r.a.step = a.step ∧ r.a.extForces = a.extForces ∧ r.a.f0red = a.f0red ∧
      ∃ l, r.a.lpf = some l ∧ r.x.getLast? = some l := by
  intro r hr
  obtain ⟨k, hk⟩ := List.getElem?_of_mem hr
  obtain ⟨px, hpx⟩ := resX_prev hk
  have key : ∀ (s s' : PState F) (oc : Outcome) (d0 : List F), IsInc env (modelProblem c) cfg d0 s s' oc →
      s.a.step = a.step ∧ s.a.extForces = a.extForces ∧ s.a.f0red = a.f0red →
      (s'.a.step = a.step ∧ s'.a.extForces = a.extForces ∧ s'.a.f0red = a.f0red) ∧
        ∃ l, s'.a.lpf = some l ∧ s'.x.getLast? = some l := by
    intro s s' oc d0 hi hs
    rcases hi.model with ⟨-, hx, b, lpf, hb, hl, ha⟩ | ⟨-, ⟨b, b', g, dV, lpf, hb, hev, hl, ha⟩⟩
    · rw [ha, hx]
      exact ⟨⟨hb.step.trans hs.1, hb.ext.trans hs.2.1, hb.f0red.trans hs.2.2⟩, lpf, rfl, hl⟩
    · have hf := (equilibrium_frame hev).1
      rw [ha]
      exact ⟨⟨(hf.step.trans hb.step).trans hs.1, (hf.ext.trans hb.ext).trans hs.2.1,
        (hf.f0red.trans hb.f0red).trans hs.2.2⟩, lpf, rfl, hl⟩
  obtain ⟨pa, -, hQ⟩ := pathfollow_forall h
    (fun s => s.a.step = a.step ∧ s.a.extForces = a.extForces ∧ s.a.f0red = a.f0red)
    (fun j _ _ _ => ⟨rfl, rfl, rfl⟩) (fun s s' oc hI hi _ => (key s s' oc _ hi hI).1)
    (fun _ _ r => r.a.step = a.step ∧ r.a.extForces = a.extForces ∧ r.a.f0red = a.f0red ∧
      ∃ l, r.a.lpf = some l ∧ r.x.getLast? = some l)
    (fun s s' oc hI hi => by
      obtain ⟨⟨k1, k2, k3⟩, k4⟩ := key s s' oc _ hi hI
      exact ⟨k1, k2, k3, k4⟩)
    hpx hk
  exact hQ

theorem pathfollow_nonempty {env : Env F} {P : Problem F} {cfg : PFCfg F} {fuel : Nat} {x : List F}
    {a : Analysis F} {o : PFOut F} (h : pathfollow env P cfg fuel x a = .ok o) (hi : cfg.incs ≠ 0) : o.recs ≠ [] := by
  obtain ⟨-, -, j, s', -, -, -, h5⟩ := pathfollow_ok h
  intro he
  rw [he] at h5
  generalize cfg.incs = n at h5 hi
  cases h5
  exact hi rfl

/-- Loads along a run whose steps all have increments. -/
theorem Steps.loads {env : Env F} {fuel : Nat} {c : Ctx F} {s : Settings F} {rows : List (List F)} {a0 : Analysis F}
    {X : List (Analysis F)} {j0 : Analysis F} {outs : List (PFOut F)} {a : Analysis F} {res : Results F}
    (h : Steps env fuel c s rows a0 ⟨X ++ [j0], []⟩ outs a res) (hinc : ∀ k n, stepIncs s k = .ok n → n ≠ 0) :
    res.stepLpfEnd.length = outs.length ∧
    (∀ (k : Nat) (p q : Rec F), (recorded outs)[k]? = some p → (recorded outs)[k + 1]? = some q → LoadsContinue p.a q.a) ∧
    (∀ r, (recorded outs)[0]? = some r → r.a.step = 1 ∧ ∃ ef, r.a.extForces = some ef ∧
      ef.forces = (stepSlice rows 0).flatten ∧ ef.forcesConst = List.replicate ef.forces.length 0) ∧
    (∀ r, (recorded outs).getLast? = some r → r.a.step = outs.length ∧ ∃ fc l n, outs.length = n + 1 ∧
      constLoad rows (res.stepLpfEnd.take n) n = .ok fc ∧
      r.a.extForces = some ⟨(stepSlice rows n).flatten, fc⟩ ∧ r.a.lpf = some l ∧
      res.stepLpfEnd = res.stepLpfEnd.take n ++ [l]) ∧
    (recorded outs = [] → outs = []) := by
  generalize hr : (⟨X ++ [j0], []⟩ : Results F) = r0 at h
  induction h with
  | nil =>
    subst hr
    refine ⟨rfl, ?_, ?_, ?_, fun _ => rfl⟩
    · intro k p q hp; simp [recorded] at hp
    · intro r h; simp [recorded] at h
    · intro r h; simp [recorded] at h
  | @snoc outs a res incs xl a1 o R l hs h1 h2 h3 h4 h5 h6 ih =>
    obtain ⟨i1, i2, i3, i4, i5⟩ := ih
    subst hr
    have hne : o.recs ≠ [] := pathfollow_nonempty h4 (hinc _ _ h1)
    have hlo := pathfollow_loads h4
    obtain ⟨-, hst, -, fc, hfc, hext, -⟩ := setStep_ok h3
    rcases List.eq_nil_or_concat o.recs with hnil | ⟨rs, x, hx⟩
    · exact absurd hnil hne
    have hxm : x ∈ o.recs := by rw [hx]; simp
    obtain ⟨x1, x2, -, lx, x3, x4⟩ := hlo x hxm
    have hl : lx = l := by
      obtain ⟨u0, hu⟩ := hs.layout
      rw [hu, foldl_recordOne, syncU0_snoc] at h5
      have h5 := Except.ok.inj h5
      subst h5
      unfold lastLpf at h6
      rw [List.getLast?_concat] at h6
      simp only [hx, List.concat_eq_append, List.map_append, List.map_cons, List.map_nil, List.getLastD_concat,
        Analysis.setU0, x3] at h6
      exact Except.ok.inj h6
    subst hl
    refine ⟨by simp [i1], ?_, ?_, ?_, ?_⟩
    · intro k p q hp hq
      rw [recorded_snoc, List.getElem?_append] at hp hq
      split at hq
      · next hk =>
        rw [if_pos (by omega)] at hp
        exact i2 k p q hp hq
      · next hk =>
        have hqm : q ∈ o.recs := List.mem_of_getElem? hq
        obtain ⟨q1, q2, -⟩ := hlo q hqm
        split at hp
        · next hk' =>
          have hpl : (recorded outs).getLast? = some p := by
            rw [List.getLast?_eq_getElem?, show (recorded outs).length - 1 = k by omega]
            exact hp
          obtain ⟨p1, fp, lp, n, p2, p3, p4, p5, p6⟩ := i4 p hpl
          right
          refine ⟨by rw [q1, hst, p1], ⟨(stepSlice rows n).flatten, fp⟩, ⟨(stepSlice rows outs.length).flatten, fc⟩,
            lp, p4, by rw [q2, hext], p5, ?_⟩
          rw [p6, p2] at hfc
          have hlen : (res.stepLpfEnd.take n).length = n := by
            rw [List.length_take, i1, p2]; omega
          exact constLoad_succ hlen p3 hfc
        · next hk' =>
          have hpm : p ∈ o.recs := List.mem_of_getElem? hp
          obtain ⟨p1, p2, -⟩ := hlo p hpm
          exact .inl ⟨by rw [p1, q1], by rw [p2, q2]⟩
    · intro r hr
      by_cases hnil : recorded outs = []
      · have ho := i5 hnil
        subst ho
        rw [recorded_snoc, hnil, List.nil_append] at hr
        obtain ⟨r1, r2, -⟩ := hlo r (List.mem_of_getElem? hr)
        refine ⟨by rw [r1, hst]; rfl, _, by rw [r2, hext], rfl, ?_⟩
        unfold constLoad at hfc
        have hz := Except.ok.inj hfc
        rw [← hz]
        exact List.map_const' ..
      · have hpos : 0 < (recorded outs).length := by
          rw [List.length_pos_iff]; exact hnil
        rw [recorded_snoc, List.getElem?_append, if_pos hpos] at hr
        exact i3 r hr
    · intro r hr
      rw [recorded_snoc, hx, List.concat_eq_append, ← List.append_assoc, List.getLast?_concat] at hr
      cases hr
      refine ⟨by rw [x1, hst]; simp, fc, lx, outs.length, by simp, ?_, by rw [x2, hext], x3, ?_⟩
      · rw [← i1, List.take_left' rfl, i1]
        exact hfc
      · rw [← i1, List.take_left' rfl]
    · intro hnil
      rw [recorded_snoc, List.append_eq_nil_iff] at hnil
      exact absurd hnil.2 hne

/-- Start of a step. -/
theorem Steps.link {env : Env F} {fuel : Nat} {c : Ctx F} {s : Settings F} {rows : List (List F)} {a0 : Analysis F}
    {r0 : Results F} {outs : List (PFOut F)} {a : Analysis F} {res : Results F}
    (h : Steps env fuel c s rows a0 r0 outs a res) (h0 : a0.lpf = some 0) :
    a.lpf = some 0 ∧ (∀ (k : Nat) (o o' : PFOut F), outs[k]? = some o → outs[k + 1]? = some o' →
      Carry ((o.recs.map (·.a)).getLastD o.startA) o'.startA ∧ o'.startA.lpf = some 0 ∧
      o'.startX = ((o.recs.map (·.a)).getLastD o.startA).Ured ++ [0]) ∧
    (∀ o, outs[0]? = some o → Carry a0 o.startA ∧ o.startX = a0.Ured ++ [0] ∧ o.startA.lpf = some 0) ∧
    (∀ o, outs.getLast? = some o → a = resetLpf ((o.recs.map (·.a)).getLastD o.startA)) ∧ (outs = [] → a = a0) := by
  induction h with
  | nil => exact ⟨h0, by simp, by simp, by simp, fun _ => rfl⟩
  | @snoc outs a res incs xl a1 o R l hs h1 h2 h3 h4 h5 h6 ih =>
    obtain ⟨i0, i1, i2, i3, i4⟩ := ih
    obtain ⟨hc, hst, hlpf, -⟩ := setStep_ok h3
    obtain ⟨e1, e2, -⟩ := pathfollow_ok h4
    refine ⟨rfl, ?_, ?_, ?_, by simp⟩
    · intro k p q hp hq
      rw [List.getElem?_append] at hp hq
      split at hq
      · next hk =>
        rw [if_pos (by omega)] at hp
        exact i1 k p q hp hq
      · next hk =>
        have hk1 : k + 1 = outs.length := by
          by_contra hne
          have : [o][k + 1 - outs.length]? = none := by
            rw [List.getElem?_eq_none_iff]; simp; omega
          rw [this] at hq; cases hq
        rw [if_pos (by omega)] at hp
        rw [hk1, Nat.sub_self] at hq
        cases hq
        have hl : outs.getLast? = some p := by
          rw [List.getLast?_eq_getElem?, ← hk1, Nat.add_sub_cancel]
          exact hp
        have ha := i3 p hl
        rw [ha] at hc hlpf
        have hcc := (carry_resetLpf _).trans hc
        rw [e2, e1, hcc.Ured]
        exact ⟨hcc, hlpf, rfl⟩
    · intro p hp
      by_cases hn : outs = []
      · subst hn
        simp only [List.nil_append, List.getElem?_cons_zero, Option.some.injEq] at hp
        subst hp
        have ha := i4 rfl
        subst ha
        rw [e2, e1, hc.Ured]
        exact ⟨hc, rfl, hlpf.trans h0⟩
      · rw [List.getElem?_append, if_pos (List.length_pos_iff.2 hn)] at hp
        exact i2 p hp
    · intro p hp
      rw [List.getLast?_concat] at hp
      cases hp
      rw [pathfollow_final h4, e2]

/-! ## Invariants -/

/-- What every analysis object of a run satisfies. -/
structure Inv (d : Dims) (c : Ctx F) (a : Analysis F) : Prop where
  dof1 : a.DOF1 = d.dof1
  fits : a.Fits c
  red : a.Ured.length = c.ndof1
  U : ∀ i, i < 3 * d.nnodes → i ∉ d.dof1 → a.U[i]? = some 0
  U0 : ∀ i, i < 3 * d.nnodes → i ∉ d.dof1 → a.U0[i]? = some 0

theorem map_length_iff {α : Type} {K K' : List (List α)} {n : Nat} (h : K'.map List.length = K.map List.length)
    (h1 : ∀ row ∈ K, row.length = n) : ∀ row ∈ K', row.length = n := by
  intro row hrow
  have : row.length ∈ K'.map List.length := List.mem_map_of_mem hrow
  rw [h] at this
  obtain ⟨row', h2, h3⟩ := List.mem_map.1 this
  rw [← h3]
  exact h1 row' h2

theorem Trial.fits {c : Ctx F} {a a' : Analysis F} (h : Trial a a') (hf : a.Fits c) : a'.Fits c where
  U := h.Ulen.trans hf.U
  U0 := h.U0len.trans hf.U0
  r := h.rlen.trans hf.r
  K := by rw [← hf.K, ← List.length_map (f := List.length), h.Kshape, List.length_map]
  Krow := map_length_iff h.Kshape hf.Krow
  stretch := h.slen.trans hf.stretch
  force := h.flen.trans hf.force
  stress := h.tlen.trans hf.stress
  statev := by rw [h.statev]; exact hf.statev
  dof := by rw [h.dof1]; exact hf.dof
  dofNodup := by rw [h.dof1]; exact hf.dofNodup

theorem Frame.fits {c : Ctx F} {w : Bool} {a a' : Analysis F} (h : Frame w a a') (hf : a.Fits c) : a'.Fits c where
  U := h.Ulen.trans hf.U
  U0 := h.U0len.trans hf.U0
  r := h.rlen.trans hf.r
  K := by rw [← hf.K, ← List.length_map (f := List.length), h.Kshape, List.length_map]
  Krow := map_length_iff h.Kshape hf.Krow
  stretch := h.slen.trans hf.stretch
  force := h.flen.trans hf.force
  stress := h.tlen.trans hf.stress
  statev := by
    intro hp
    obtain ⟨sv, h1, h2⟩ := hf.statev hp
    have h3 := h.svlen
    rw [h1] at h3
    cases h4 : a'.statev with
    | none => rw [h4] at h3; cases h3
    | some sv' =>
      rw [h4] at h3
      exact ⟨sv', rfl, (Option.some.inj h3).trans h2⟩
  dof := by rw [h.dof1]; exact hf.dof
  dofNodup := by rw [h.dof1]; exact hf.dofNodup

theorem Carry.fits {c : Ctx F} {a a' : Analysis F} (h : Carry a a') (hf : a.Fits c) : a'.Fits c where
  U := by rw [h.U]; exact hf.U
  U0 := by rw [h.U0]; exact hf.U0
  r := by rw [h.r]; exact hf.r
  K := by rw [h.K]; exact hf.K
  Krow := by rw [h.K]; exact hf.Krow
  stretch := by rw [h.stretch]; exact hf.stretch
  force := by rw [h.force]; exact hf.force
  stress := by rw [h.stress]; exact hf.stress
  statev := by rw [h.statev]; exact hf.statev
  dof := by rw [h.dof1]; exact hf.dof
  dofNodup := by rw [h.dof1]; exact hf.dofNodup

/-- Setting `dVmax`, `Vred`, `Ured`, `lpf` does not matter for the sizes. -/
theorem fits_record {c : Ctx F} {a : Analysis F} (hf : a.Fits c) (dV : Option (List F)) (V u : List F) (l : Option F) :
    ({ a with dVmax := dV, Vred := V, Ured := u, lpf := l } : Analysis F).Fits c :=
  ⟨hf.U, hf.U0, hf.r, hf.K, hf.Krow, hf.stretch, hf.force, hf.stress, hf.statev, hf.dof, hf.dofNodup⟩

/-- Widths of the state rows are kept by an evaluation. -/
theorem umat_row {law : Umat} {e de : F} {mp : List F} {row row' : List F} {o : UmatOut F}
    (h : law.call e de mp (some row) = .ok o) (h' : o.statev = some row') : row'.length = row.length := by
  cases law with
  | el =>
    unfold Umat.call umatEl at h
    obtain ⟨E, -, h⟩ := py_bind_eq_ok.1 h
    cases h
    cases h'
    rfl
  | elplast =>
    unfold Umat.call umatElplastIso at h
    obtain ⟨E, -, h⟩ := py_bind_eq_ok.1 h
    obtain ⟨K, -, h⟩ := py_bind_eq_ok.1 h
    obtain ⟨Sy, -, h⟩ := py_bind_eq_ok.1 h
    simp only at h
    obtain ⟨p, -, h⟩ := py_bind_eq_ok.1 h
    obtain ⟨q, -, h⟩ := py_bind_eq_ok.1 h
    have h := Except.ok.inj h
    rw [← h] at h'
    simp only [Option.some.injEq] at h'
    rw [← h']
    simp

theorem Inv.carry {d : Dims} {c : Ctx F} {a a' : Analysis F} (h : Inv d c a) (hc : Carry a a') : Inv d c a' where
  dof1 := hc.dof1.trans h.dof1
  fits := hc.fits h.fits
  red := by rw [hc.Ured]; exact h.red
  U := by rw [hc.U]; exact h.U
  U0 := by rw [hc.U0]; exact h.U0

theorem Inv.trial {d : Dims} {c : Ctx F} {a a' : Analysis F} (h : Inv d c a) (hc : Trial a a') : Inv d c a' where
  dof1 := hc.dof1.trans h.dof1
  fits := hc.fits h.fits
  red := by rw [hc.Ured]; exact h.red
  U i hi hn := by rw [hc.Uout i (by rw [h.dof1]; exact hn)]; exact h.U i hi hn
  U0 i hi hn := by rw [hc.U0out i (by rw [h.dof1]; exact hn)]; exact h.U0 i hi hn

theorem Inv.frame {d : Dims} {c : Ctx F} {w : Bool} {a a' : Analysis F} (h : Inv d c a) (hc : Frame w a a') :
    Inv d c a' where
  dof1 := hc.dof1.trans h.dof1
  fits := hc.fits h.fits
  red := by rw [hc.Ured]; exact h.red
  U i hi hn := by rw [hc.Uout i (by rw [h.dof1]; exact hn)]; exact h.U i hi hn
  U0 i hi hn := by rw [hc.U0out i (by rw [h.dof1]; exact hn)]; exact h.U0 i hi hn

theorem Inv.record {d : Dims} {c : Ctx F} {a : Analysis F} (h : Inv d c a) (dV : Option (List F)) (V u : List F)
    (l : Option F) (hu : u.length = c.ndof1) : Inv d c { a with dVmax := dV, Vred := V, Ured := u, lpf := l } :=
  ⟨h.dof1, fits_record h.fits dV V u l, hu, h.U, h.U0⟩

/-- What two consecutive results of a run have to do with each other. -/
structure Increment (d : Dims) (c : Ctx F) (p : Analysis F) (r : Rec F) : Prop where
  prev : Inv d c p
  next : Inv d c r.a
  len : r.x.length = c.ndof1 + 1
  how : ∃ sA sx, Carry p sA ∧ sx.dropLast = p.Ured ∧ sx.length = c.ndof1 + 1 ∧
    ((r.out = .predictor ∧ r.x = sx ∧ ∃ b lpf, Trial sA b ∧ sx.getLast? = some lpf ∧
      r.a = { b with Vred := sx, Ured := sx.dropLast, lpf := some lpf }) ∨
    (r.out ≠ .predictor ∧ SolvedInc c sA sx r.x (r.out == .accepted) r.a))

theorem Steps.pairs {env : Env F} {fuel : Nat} {c : Ctx F} {d : Dims} {s : Settings F} {rows : List (List F)}
    {a0 : Analysis F} {r0 : Results F} {outs : List (PFOut F)} {a : Analysis F} {res : Results F}
    (h : Steps env fuel c s rows a0 r0 outs a res) (h0 : Inv d c a0) {b0 : Analysis F} (hb : Carry b0 a0)
    (hb' : Inv d c b0) : ∀ {k : Nat} {p : Analysis F} {r : Rec F},
    (b0 :: (recorded outs).map (·.a))[k]? = some p → (recorded outs)[k]? = some r → Increment d c p r := by
  have hall : ∀ r ∈ a0 :: (recorded outs).map (·.a), Inv d c r := by
    refine h.forall (Inv d c) (fun p q hc hp => hp.carry hc) ?_ h0
    intro cfg d0 t t' o hi h1 h2 h3 hI
    have hl : t'.x.dropLast.length = c.ndof1 := by
      rw [List.length_dropLast, h3, h2, hI.red]; omega
    rcases hi.model with ⟨-, hx, b, lpf, hb, hlx, ha⟩ | ⟨-, ⟨b, b', g, dV, lpf, hb, hev, hlx, ha⟩⟩
    · rw [ha]
      have := (hI.trial hb).record b.dVmax t.x t.x.dropLast (some lpf) (by rw [← hx]; exact hl)
      exact this
    · rw [ha]
      exact ((hI.trial hb).frame (equilibrium_frame hev).1).record _ _ _ _ hl
  intro k p r hp hr
  obtain ⟨p', hp', hc⟩ : ∃ p', (a0 :: (recorded outs).map (·.a))[k]? = some p' ∧ Carry p p' := by
    cases k with
    | zero => cases hp; exact ⟨a0, rfl, hb⟩
    | succ k => exact ⟨p, hp, Carry.refl _⟩
  have hI' := hall p' (List.mem_of_getElem? hp')
  have hI : Inv d c p := by
    cases k with
    | zero => cases hp; exact hb'
    | succ k => exact hall p (List.mem_cons_of_mem _ (List.mem_of_getElem? hp))
  have hr' := hall r.a (List.mem_cons_of_mem _ (List.mem_map_of_mem (List.mem_of_getElem? hr)))
  obtain ⟨cfg, d0, t, t', e1, e2, e3, e4, e5, e6, e7, -⟩ := h.increments hp' hr
  have hlen : t.x.length = c.ndof1 + 1 := by rw [e6, hI'.red]
  refine ⟨hI, hr', e7.trans hlen, t.a, t.x, hc.trans e1, ?_, hlen, ?_⟩
  · rw [e5, hc.Ured]
  · rw [← e3, ← e4]
    exact e2.model

/-- A residual evaluation records the residual of the recorded quantities. -/
theorem equilibrium_g {c : Ctx F} {a a' : Analysis F} {V V0 : List F} {w : Bool} {g : List F}
    (h : equilibrium c a V V0 .G w = .ok (a', g)) : ∃ lpf u u0 ef, splitV c a V V0 = .ok (lpf, u, u0) ∧
      a'.extForces = some ef ∧ residual a'.r ef.forcesConst ef.forces lpf = .ok a'.g ∧ npTake a'.g a'.DOF1 = .ok g := by
  unfold equilibrium at h
  obtain ⟨⟨lpf, u, u0⟩, h1, h⟩ := py_bind_eq_ok.1 h
  obtain ⟨a1, h2, h⟩ := py_bind_eq_ok.1 h
  obtain ⟨⟨a2, um⟩, h3, h⟩ := py_bind_eq_ok.1 h
  simp only at h
  split at h
  · cases h
  · next ef he =>
    obtain ⟨gf, h4, h⟩ := py_bind_eq_ok.1 h
    obtain ⟨gr, h5, h⟩ := py_bind_eq_ok.1 h
    cases h
    exact ⟨lpf, u, u0, ef, h1, he, h4, h5⟩

theorem flat3_entry (r : List (V3 F)) : ∀ {i : Nat} {v : V3 F}, r[i]? = some v → ∀ d : Fin 3,
    (flat3 r)[3 * i + d.val]? = some (v d) := by
  unfold flat3
  induction r with
  | nil => intro i v h; simp at h
  | cons w r ih =>
    intro i v h d
    cases i with
    | zero =>
      cases h
      match d with
      | 0 => rfl
      | 1 => rfl
      | 2 => rfl
    | succ i =>
      have := ih (i := i) (v := v) h d
      rw [← this, List.map_cons, List.flatten_cons, List.getElem?_append, if_neg (by simp; omega)]
      congr 1
      simp
      omega

theorem flat3_size (r : List (V3 F)) : (flat3 r).length = 3 * r.length := by
  unfold flat3
  induction r with
  | nil => rfl
  | cons v r ih => simp only [List.map_cons, List.flatten_cons, List.length_append, ih, List.length_cons,
      List.length_nil]; omega

theorem residual_get {r : List (V3 F)} {fc f g : List F} {lpf : F} (h : residual r fc f lpf = .ok g) :
    g.length = 3 * r.length ∧ ∀ (i : Nat) (v : V3 F), r[i]? = some v → ∀ d : Fin 3, ∃ k q, fc[3 * i + d.val]? = some k ∧
      f[3 * i + d.val]? = some q ∧ g[3 * i + d.val]? = some (-(v d) + k + lpf * q) := by
  unfold residual at h
  simp only at h
  split at h
  case isFalse => cases h
  next hl =>
  cases h
  rw [flat3_size] at hl
  refine ⟨by simp [flat3_size, ← hl.1, ← hl.2], ?_⟩
  intro i v hv d
  have hi : i < r.length := (List.getElem?_eq_some_iff.1 hv).1
  have hd := d.isLt
  have h1 : 3 * i + d.val < fc.length := by omega
  have h2 : 3 * i + d.val < f.length := by omega
  refine ⟨fc[3 * i + d.val], f[3 * i + d.val], List.getElem?_eq_getElem _, List.getElem?_eq_getElem _, ?_⟩
  rw [List.getElem?_zipWith, List.getElem?_zipWith, List.getElem?_map, List.getElem?_map, flat3_entry r hv d,
    List.getElem?_eq_getElem h1, List.getElem?_eq_getElem h2]
  rfl

theorem splitV_ext {c : Ctx F} {a : Analysis F} {V V0 u u0 : List F} {lpf : F} (hV : V.length = c.ndof1 + 1)
    (hV0 : V0.length = c.ndof1 + 1) (h : splitV c a V V0 = .ok (lpf, u, u0)) :
    V.getLast? = some lpf ∧ u = V.dropLast ∧ u0 = V0.dropLast := by
  unfold splitV at h
  rw [if_pos (by omega)] at h
  split at h
  · next l hl =>
    cases h
    exact ⟨hl, by rw [List.dropLast_eq_take, hV]; rfl, by rw [List.dropLast_eq_take, hV0]; rfl⟩
  · cases h

/-- A record of an increment that did not end in the predictor. -/
theorem Increment.solved {d : Dims} {c : Ctx F} {p : Analysis F} {r : Rec F} (h : Increment d c p r)
    (hdof : d.dof1.length = c.ndof1) (ho : r.out ≠ .predictor) :
    SelfConsistent r.a ∧ npTake r.a.U0 r.a.DOF1 = .ok p.Ured ∧ r.a.Ured = r.x.dropLast := by
  obtain ⟨sA, sx, hc, h1, h2, h3⟩ := h.how
  rcases h3 with ⟨h3, -⟩ | ⟨-, ⟨b, b', g, dV, lpf, hb, hev, hl, ha⟩⟩
  · exact absurd h3 ho
  have hI := (h.prev.carry hc).trial hb
  obtain ⟨hf, lpf', u, u0, hs, hU, hU0⟩ := equilibrium_frame hev
  obtain ⟨lpf'', u', u0', ef, hs', he, hres, -⟩ := equilibrium_g hev
  rw [hs] at hs'
  cases hs'
  obtain ⟨hl', rfl, rfl⟩ := splitV_ext h.len h2 hs
  rw [hl] at hl'
  cases hl'
  have hlen1 : r.x.dropLast.length = b.DOF1.length := by
    rw [List.length_dropLast, h.len, hI.dof1, hdof]; rfl
  have hlen0 : sx.dropLast.length = b.DOF1.length := by
    rw [List.length_dropLast, h2, hI.dof1, hdof]; rfl
  have hlt : ∀ i ∈ b.DOF1, i < b.U.length := by
    intro i hi; rw [hI.fits.U]; exact hI.fits.dof i hi
  have hlt0 : ∀ i ∈ b.DOF1, i < b.U0.length := by
    intro i hi; rw [hI.fits.U0]; exact hI.fits.dof i hi
  have hx : r.x = r.x.dropLast ++ [lpf] := by
    obtain ⟨ys, hy⟩ := List.getLast?_eq_some_iff.1 hl
    rw [hy, List.dropLast_concat]
  refine ⟨⟨?_, ⟨lpf, by rw [ha], by rw [ha]; exact hx⟩, ?_⟩, ?_, by rw [ha]⟩
  · rw [ha]
    show npTake b'.U b'.DOF1 = .ok r.x.dropLast
    rw [hf.dof1]
    exact npTake_scatter hU hlen1 hI.fits.dofNodup hlt
  · obtain ⟨g1, g2⟩ := residual_get hres
    refine ⟨ef, lpf, by rw [ha]; exact he, by rw [ha], ?_, ?_⟩
    · rw [ha]; exact g1
    · rw [ha]; exact g2
  · rw [ha, ← h1]
    show npTake b'.U0 b'.DOF1 = _
    rw [hf.dof1]
    exact npTake_scatter hU0 hlen0 hI.fits.dofNodup hlt0

/-- Material update of one bar in a committed evaluation. -/
theorem eval_update {b : Bar F} {U U0 old : List F} {o : TrussOut F} (h : b.eval U U0 (some old) = .ok o) :
    ∃ new, o.statev = some new ∧ StateUpdate b U U0 old new := by
  have hs := eval_statev h
  unfold Bar.eval trussCore at h
  obtain ⟨out, h1, h⟩ := py_bind_eq_ok.1 h
  obtain ⟨A, -, h⟩ := py_bind_eq_ok.1 h
  cases h
  obtain ⟨new, hn⟩ := Option.isSome_iff_exists.1 hs
  exact ⟨new, hn, out, h1, hn⟩

/-- State variables over one increment. -/
theorem Increment.state {d : Dims} {c : Ctx F} {p : Analysis F} {r : Rec F} (h : Increment d c p r) :
    (r.out ≠ .accepted → r.a.statev = p.statev) ∧
    (r.out = .accepted → ∀ bars, c.Bars bars → ∀ k b, bars[k]? = some b → ∀ old, stateRow c p.statev k = some old →
      ∃ new, stateRow c r.a.statev k = some new ∧ StateUpdate b r.a.U r.a.U0 old new) := by
  obtain ⟨sA, sx, hc, h1, h2, h3⟩ := h.how
  rcases h3 with ⟨h3, -, b, lpf, hb, -, ha⟩ | ⟨-, ⟨b, b', g, dV, lpf, hb, hev, hl, ha⟩⟩
  · refine ⟨fun _ => ?_, fun ho => ?_⟩
    · rw [ha]; exact hb.statev.trans hc.statev
    · rw [h3] at ho; cases ho
  · refine ⟨fun ho => ?_, fun ho bars hB k bar hk old hold => ?_⟩
    · rw [ha]
      have hw : (r.out == .accepted) = false := by simpa using ho
      exact (((equilibrium_frame hev).1.statev hw).trans hb.statev).trans hc.statev
    · have hw : (r.out == .accepted) = true := by simpa using ho
      rw [hw] at hev
      have hI := (h.prev.carry hc).trial hb
      obtain ⟨lpf', u, u0, U, U0, outs, ef, gg, p1, p2, p3, p4, p5, p6, p7, p8⟩ := equilibrium_G hB hI.fits hev
      have hn : 0 < c.nstatev := by
        unfold stateRow at hold
        by_contra hn
        rw [if_neg hn] at hold
        cases hold
      have hne : bars.isEmpty = false := by
        cases bars with
        | nil => cases hk
        | cons => rfl
      have hU : b'.U = U ∧ b'.U0 = U0 ∧ b'.statev = some (outs.map fun o => o.statev.getD []) := by
        rw [p8]; unfold afterG
        simp [hn, hne]
      obtain ⟨o, ho1, ho2⟩ := evalAll_get p4 hk
      rw [Nat.zero_add, hb.statev, hc.statev, hold] at ho2
      obtain ⟨new, hnew, hup⟩ := eval_update ho2
      refine ⟨new, ?_, ?_⟩
      · unfold stateRow
        rw [if_pos hn, ha]
        show b'.statev.bind (·[k]?) = some new
        rw [hU.2.2]
        show (outs.map fun o => o.statev.getD [])[k]? = some new
        rw [List.getElem?_map, ho1, Option.map_some, hnew]
        rfl
      · rw [ha]
        show StateUpdate bar b'.U b'.U0 old new
        rw [hU.1, hU.2.1]
        exact hup

/-- Every record carries the load columns of its step. -/
theorem Steps.slices {env : Env F} {fuel : Nat} {c : Ctx F} {s : Settings F} {rows : List (List F)}
    {a0 : Analysis F} {r0 : Results F} {outs : List (PFOut F)} {a : Analysis F} {res : Results F}
    (h : Steps env fuel c s rows a0 r0 outs a res) : ∀ r ∈ recorded outs, ∃ k fc, k < outs.length ∧ r.a.step = k + 1 ∧
      r.a.extForces = some ⟨(stepSlice rows k).flatten, fc⟩ := by
  induction h with
  | nil => intro r hr; simp [recorded] at hr
  | @snoc outs a res incs xl a1 o R l hs h1 h2 h3 h4 h5 h6 ih =>
    intro r hr
    rw [recorded_snoc, List.mem_append] at hr
    rcases hr with hr | hr
    · obtain ⟨k, fc, hk, h⟩ := ih r hr
      exact ⟨k, fc, by simp; omega, h⟩
    · obtain ⟨e1, e2, -⟩ := pathfollow_loads h4 r hr
      obtain ⟨-, hst, -, fc, -, hext, -⟩ := setStep_ok h3
      exact ⟨outs.length, fc, by simp, by rw [e1, hst], by rw [e2, hext]⟩

theorem flatten_block {α : Type} (n : Nat) : ∀ {rows : List (List α)}, (∀ r ∈ rows, r.length = n) → ∀ {i c : Nat}
    {row : List α}, rows[i]? = some row → c < n → rows.flatten[n * i + c]? = row[c]? := by
  intro rows
  induction rows with
  | nil => intro _ i c row h; simp at h
  | cons r rows ih =>
    intro hl i c row h hc
    have hr : r.length = n := hl r (by simp)
    rw [List.flatten_cons, List.getElem?_append]
    cases i with
    | zero =>
      cases h
      rw [Nat.mul_zero, Nat.zero_add, if_pos (by omega)]
    | succ i =>
      have := ih (fun r hr => hl r (by simp [hr])) (i := i) (c := c) (row := row) h hc
      rw [if_neg (by rw [hr, Nat.mul_succ]; omega), ← this]
      congr 1
      rw [hr, Nat.mul_succ]; omega

theorem stepSlice_get {rows : List (List F)} {k w : Nat} (hw : ∀ r ∈ rows, r.length = w) (hk : 3 * (k + 1) ≤ w)
    {i c : Nat} {row : List F} (hi : rows[i]? = some row) (hc : c < 3) :
    (stepSlice rows k).flatten[3 * i + c]? = row[3 * k + c]? := by
  have h1 : (stepSlice rows k)[i]? = some ((row.drop (3 * k)).take 3) := by
    unfold stepSlice
    rw [List.getElem?_map, hi]
    rfl
  have h2 : ∀ r ∈ stepSlice rows k, r.length = 3 := by
    intro r hr
    unfold stepSlice at hr
    obtain ⟨r', h3, rfl⟩ := List.mem_map.1 hr
    rw [List.length_take, List.length_drop, hw r' h3]
    omega
  rw [flatten_block 3 h2 h1 hc, List.getElem?_take, if_pos hc, List.getElem?_drop]

/-- The objects `build` and `run` leave behind satisfy the invariant. -/
theorem fresh_inv {d : Dims} {c : Ctx F} (hd : c.ndof1 = d.dof1.length)
    (hf : (Analysis.fresh d.nnodes d.nelems d.dof0 d.dof1 c.nstatev : Analysis F).Fits c) :
    Inv d c (Analysis.fresh d.nnodes d.nelems d.dof0 d.dof1 c.nstatev : Analysis F) := by
  refine ⟨rfl, hf, ?_, ?_, ?_⟩
  · rw [hd]; simp [Analysis.fresh]
  · intro i hi _; simp [Analysis.fresh, hi]
  · intro i hi _; simp [Analysis.fresh, hi]

theorem Carry.symm {a b : Analysis F} (h : Carry a b) : Carry b a :=
  ⟨h.stress0.symm, h.dof0.symm, h.dof1.symm, h.Ured.symm, h.U.symm, h.U0.symm, h.r.symm, h.K.symm, h.stretch.symm,
    h.force.symm, h.stress.symm, h.statev.symm, h.rred.symm⟩

theorem Steps.built {argsort : List Int → List Nat} {env : Env F} {fuel : Nat} {m m1 : Model F} {c : Ctx F} {d : Dims}
    {ft : ForceTab F} (hb : m.build argsort = .ok m1) (hc : m1.ctx = some c) (hd : m1.dims = some d)
    (hf : m1.forces = some ft) {r0 : Analysis F} {outs : List (PFOut F)} {a1 : Analysis F} {res : Results F}
    (h : Steps env fuel c m1.settings ft.forces.rows
        { (Analysis.fresh d.nnodes d.nelems d.dof0 d.dof1 c.nstatev : Analysis F) with
          Vred := List.replicate d.dof1.length 0 ++ [0], lpf := some 0 } ⟨[r0] ++ [r0], []⟩ outs a1 res)
    (hl : outs.length = m1.settings.nsteps) (h0 : r0.lpf = some 0) : RunCalls env fuel m1 c outs := by
  obtain ⟨c', d', ft', h1, h2, h3, -, -, -, -, -, -, h4, h5, -⟩ := build_ready hb
  rw [hc] at h1; cases h1
  rw [hd] at h2; cases h2
  rw [hf] at h3; cases h3
  exact Steps.runCalls h4 h5 hf h hl (by simpa using h0)

/-- Summary of `build` followed by `run`. -/
theorem run_summary {argsort : List Int → List Nat} {env : Env F} {fuel : Nat} {m m1 m2 : Model F}
    (hb : m.build argsort = .ok m1) (hr : m1.run env fuel = .ok m2) :
    ∃ c d r0 outs, m1.ctx = some c ∧ m1.dims = some d ∧ c.nnodes = d.nnodes ∧ d.dof1.length = c.ndof1 ∧
      d.ndof = 3 * d.nnodes ∧ Undeformed d r0 ∧ Inv d c r0 ∧
      (∀ (k : Nat) (p : Analysis F) (r : Rec F), (r0 :: (recorded outs).map (·.a))[k]? = some p →
        (recorded outs)[k]? = some r → Increment d c p r) ∧
      RunCalls env fuel m1 c outs ∧
      r0.statev = (if 0 < c.nstatev then some (List.replicate d.nelems (List.replicate c.nstatev 0)) else none) ∧
      ∃ res, m2.results = some res ∧ ((m1.settings.nsteps = 0 ∧ outs = [] ∧ res.R = [r0, r0]) ∨
        (0 < m1.settings.nsteps ∧ res.R = r0 :: (recorded outs).map (·.a))) := by
  obtain ⟨c, d, ft, r0, outs, a1, R, le, h1, h2, h3, h4, h5, h6, h7, h8, h9, h10, h11, h12⟩ := build_run hb hr
  have hI := fresh_inv h5 h9
  have hI0 := hI.carry h8.symm
  have hc : Carry (Analysis.fresh d.nnodes d.nelems d.dof0 d.dof1 c.nstatev : Analysis F)
      { (Analysis.fresh d.nnodes d.nelems d.dof0 d.dof1 c.nstatev : Analysis F) with
          Vred := List.replicate d.dof1.length 0 ++ [0], lpf := some 0 } := by constructor <;> rfl
  refine ⟨c, d, r0, outs, h1, h2, h4, h5.symm, h6, h7, hI0, ?_, h11.built hb h1 h2 h3 h10 h7.lpf, h8.statev.symm, ?_⟩
  · intro k p r hp hr
    exact h11.pairs (hI.carry hc) (h8.trans hc) hI0 hp hr
  · rcases h12 with ⟨e1, e2⟩ | ⟨e1, e2, e3⟩
    · refine ⟨_, e2, .inl ⟨e1, ?_, ?_⟩⟩
      · exact List.eq_nil_of_length_eq_zero (h10.trans e1)
      · have : outs = [] := List.eq_nil_of_length_eq_zero (h10.trans e1)
        subst this
        generalize hx : ([] : List (PFOut F)) = o' at h11
        generalize hy : (⟨R, le⟩ : Results F) = o'' at h11
        cases h11 with
        | nil => cases hy; rfl
        | snoc => simp at hx
    · exact ⟨_, e2, .inr ⟨e1, e3⟩⟩

end TrussPy
