import Verif.Interrupted
import Verif.Lemmas.Caught
import Verif.Lemmas.Run
/-!
# Lemmas on interrupted runs (C118)
-/

set_option linter.unusedSectionVars false

namespace TrussPy

variable {F : Type} [Zero F] [One F] [Add F] [Sub F] [Mul F] [Div F] [Neg F] [Flt F]

/-- A step up to the question whether it is the last one. -/
def stepCore (env : Env F) (fuel : Nat) (c : Ctx F) (s : Settings F) (rows : List (List F)) (st : Analysis F × Results F)
    (k : Nat) : Py (Analysis F × List (Analysis F) × List F) := do
  let incs ← stepIncs s k
  let xl ← stepXlimit s k
  let a ← setStep rows st.2.stepLpfEnd k st.1
  let o ← pathfollow env (modelProblem c) (stepCfg s incs xl) fuel a.Ured a
  let R ← syncU0 ((o.recs.map (·.a)).foldl recordOne st.2.R)
  let l ← lastLpf R
  return (o.final, R, st.2.stepLpfEnd ++ [l])

theorem runStep_core (env : Env F) (fuel : Nat) (c : Ctx F) (s : Settings F) (rows : List (List F))
    (st : Analysis F × Results F) (k : Nat) : runStep env fuel c s rows st k = (stepCore env fuel c s rows st k >>= fun p =>
      if k + 1 < s.nsteps then pure (resetLpf p.1, ⟨p.2.1, p.2.2⟩) else pure (p.1, ⟨p.2.1.dropLast, p.2.2⟩)) := by
  unfold runStep stepCore
  simp only [bind_assoc, pure_bind]

theorem runStep_error {env : Env F} {fuel : Nat} {c : Ctx F} {s : Settings F} {rows : List (List F)}
    {st : Analysis F × Results F} {k : Nat} {e : Err} (h : runStep env fuel c s rows st k = .error e) (n : Nat) :
    runStep env fuel c { s with nsteps := n } rows st k = .error e := by
  rw [runStep_core] at h ⊢
  have e1 : stepCore env fuel c { s with nsteps := n } rows st k = stepCore env fuel c s rows st k := rfl
  rw [e1]
  cases hc : stepCore env fuel c s rows st k with
  | error e' =>
    rw [hc] at h
    exact h
  | ok p =>
    rw [hc] at h
    simp only [py_bind_ok] at h
    split at h <;> cases h

/-- The steps do not look at the number of steps, as long as more follow. -/
theorem fold_nsteps {env : Env F} {fuel : Nat} {c : Ctx F} {s : Settings F} {rows : List (List F)} {n n' : Nat}
    (st : Analysis F × Results F) : ∀ k, k < n → k < n' →
      (List.range k).foldlM (runStep env fuel c { s with nsteps := n } rows) st =
      (List.range k).foldlM (runStep env fuel c { s with nsteps := n' } rows) st
  | 0, _, _ => rfl
  | k + 1, h, h' => by
    rw [List.range_succ, List.foldlM_append, List.foldlM_append, fold_nsteps (n' := n') st k (by omega) (by omega)]
    congr 1
    funext p
    simp only [List.foldlM_cons, List.foldlM_nil]
    congr 1
    rw [runStep_core, runStep_core]
    have e1 : stepCore env fuel c { s with nsteps := n } rows p k = stepCore env fuel c { s with nsteps := n' } rows p k := rfl
    rw [e1]
    simp only [if_pos h, if_pos h']

theorem stepsC_ok {env : Env F} {fuel : Nat} {c : Ctx F} {s : Settings F} {rows : List (List F)} :
    ∀ {ks : List Nat} {a : Analysis F} {res : Results F},
      (∀ {a' res'}, stepsC env fuel c s rows ks a res = (res', .ok a') →
        ks.foldlM (runStep env fuel c s rows) (a, res) = .ok (a', res')) ∧
      (∀ {e res'}, stepsC env fuel c s rows ks a res = (res', .error e) →
        ks.foldlM (runStep env fuel c s rows) (a, res) = .error e ∧
        ∃ pre k post a1, ks = pre ++ k :: post ∧ pre.foldlM (runStep env fuel c s rows) (a, res) = .ok (a1, res') ∧
          runStep env fuel c s rows (a1, res') k = .error e)
  | [], a, res => by
    constructor
    · intro a' res' h
      cases h
      rfl
    · intro e res' h
      cases h
  | k :: ks, a, res => by
    unfold stepsC
    cases hk : runStep env fuel c s rows (a, res) k with
    | error e0 =>
      constructor
      · intro a' res' h
        cases h
      · intro e res' h
        cases h
        exact ⟨by rw [List.foldlM_cons, hk]; rfl, [], k, ks, a, rfl, rfl, hk⟩
    | ok p =>
      obtain ⟨a1, res1⟩ := p
      obtain ⟨i1, i2⟩ := @stepsC_ok env fuel c s rows ks a1 res1
      constructor
      · intro a' res' h
        rw [List.foldlM_cons, hk]
        exact i1 h
      · intro e res' h
        obtain ⟨j1, pre, k', post, a2, j2, j3, j4⟩ := i2 h
        refine ⟨by rw [List.foldlM_cons, hk]; exact j1, k :: pre, k', post, a2, by rw [j2]; rfl, ?_, j4⟩
        rw [List.foldlM_cons, hk]
        exact j3

theorem runC_agrees (env : Env F) (fuel : Nat) (left : Analysis F) (m : Model F) :
    asPy (m.runC env fuel left) = m.run env fuel := by
  unfold Model.runC Model.run
  by_cases hl : 1 < m.settings.log ∧ m.settings.j0 ≠ none
  · rw [if_pos hl, if_pos hl]
    rfl
  rw [if_neg hl, if_neg hl]
  cases h1 : m.ctx with
  | none => rfl
  | some c =>
  cases h2 : m.analysis with
  | none => rfl
  | some a =>
  cases h3 : m.results with
  | none => rfl
  | some res =>
  cases h4 : m.forces with
  | none => rfl
  | some ft =>
    simp only
    cases hd : dupFirst res.R with
    | error e => rfl
    | ok R =>
      simp only [py_bind_ok]
      rcases hs : stepsC env fuel c m.settings ft.forces.rows (List.range m.settings.nsteps)
        { a with Vred := a.Ured ++ [0], lpf := some 0 } ⟨R, res.stepLpfEnd⟩ with ⟨res', r⟩
      cases r with
      | error e => rw [(stepsC_ok.2 hs).1]; rfl
      | ok a' => rw [stepsC_ok.1 hs]; rfl

/-- The last entry repeats the one before. -/
def Doubled (R : List (Analysis F)) : Prop := ∃ X x y, R = X ++ [x] ++ [y] ∧ (y = x ∨ y = { x with U0 := x.U })

theorem Doubled.step {env : Env F} {fuel : Nat} {c : Ctx F} {s : Settings F} {rows : List (List F)}
    {st : Analysis F × Results F} {k : Nat} {p} (hd : Doubled st.2.R) (h : stepCore env fuel c s rows st k = .ok p) :
    ∃ X x, p.2.1 = X ++ [x] ++ [{ x with U0 := x.U }] := by
  unfold stepCore at h
  obtain ⟨incs, -, h⟩ := py_bind_eq_ok.1 h
  obtain ⟨xl, -, h⟩ := py_bind_eq_ok.1 h
  obtain ⟨a1, -, h⟩ := py_bind_eq_ok.1 h
  obtain ⟨o, -, h⟩ := py_bind_eq_ok.1 h
  obtain ⟨R, h5, h⟩ := py_bind_eq_ok.1 h
  obtain ⟨l, -, h⟩ := py_bind_eq_ok.1 h
  cases h
  have key : ∀ (rs : List (Analysis F)) (R0 : List (Analysis F)), Doubled R0 → Doubled (rs.foldl recordOne R0) := by
    intro rs
    induction rs with
    | nil => exact fun _ h => h
    | cons r rs ih =>
      intro R0 _
      exact ih _ ⟨R0.dropLast, r, r, rfl, .inl rfl⟩
  obtain ⟨X, x, y, e, hy⟩ := key (o.recs.map (·.a)) _ hd
  rw [e] at h5
  unfold syncU0 at h5
  rw [List.getLast?_concat, List.dropLast_concat] at h5
  cases h5
  refine ⟨X, x, ?_⟩
  rcases hy with rfl | rfl <;> rfl

theorem Doubled.fold {env : Env F} {fuel : Nat} {c : Ctx F} {s : Settings F} {rows : List (List F)}
    {a : Analysis F} {res : Results F} (hd : Doubled res.R) : ∀ (n : Nat) {a' : Analysis F} {res' : Results F},
      n < s.nsteps → (List.range n).foldlM (runStep env fuel c s rows) (a, res) = .ok (a', res') → Doubled res'.R
  | 0, a', res', _, h => by cases h; exact hd
  | n + 1, a', res', hn, h => by
    rw [List.range_succ, List.foldlM_append] at h
    obtain ⟨p, h1, h⟩ := py_bind_eq_ok.1 h
    have ih := Doubled.fold (res' := p.2) hd n (by omega) h1
    rw [List.foldlM_cons] at h
    obtain ⟨q, h2, h⟩ := py_bind_eq_ok.1 h
    cases h
    rw [runStep_core] at h2
    obtain ⟨r, h3, h2⟩ := py_bind_eq_ok.1 h2
    rw [if_pos hn] at h2
    cases h2
    obtain ⟨X, x, e⟩ := ih.step h3
    exact ⟨X, x, _, e, .inr rfl⟩

/-- An interrupted run: the steps before have been recorded as by a shorter run. -/
theorem fold_shorter {env : Env F} {fuel : Nat} {c : Ctx F} {s : Settings F} {rows : List (List F)}
    {a a1 : Analysis F} {res res1 : Results F} (hd : Doubled res.R) {k : Nat} (hk : k + 1 < s.nsteps)
    (h : (List.range (k + 1)).foldlM (runStep env fuel c s rows) (a, res) = .ok (a1, res1)) :
    ∃ a2 X x, (List.range (k + 1)).foldlM (runStep env fuel c { s with nsteps := k + 1 } rows) (a, res) =
        .ok (a2, ⟨X ++ [x], res1.stepLpfEnd⟩) ∧ res1.R = X ++ [x] ++ [{ x with U0 := x.U }] := by
  rw [List.range_succ, List.foldlM_append] at h
  obtain ⟨p, h1, h⟩ := py_bind_eq_ok.1 h
  have hd1 := Doubled.fold (res' := p.2) hd k (by omega) h1
  rw [List.foldlM_cons] at h
  obtain ⟨q, h2, h⟩ := py_bind_eq_ok.1 h
  cases h
  rw [runStep_core] at h2
  obtain ⟨r, h3, h2⟩ := py_bind_eq_ok.1 h2
  rw [if_pos hk] at h2
  cases h2
  obtain ⟨X, x, e⟩ := hd1.step h3
  refine ⟨r.1, X, x, ?_, e⟩
  have h1' := (fold_nsteps (env := env) (fuel := fuel) (c := c) (s := s) (rows := rows) (n := s.nsteps) (n' := k + 1)
    (a, res) k (by omega) (by omega)).symm.trans h1
  rw [List.range_succ, List.foldlM_append, h1', py_bind_ok, List.foldlM_cons, runStep_core]
  have e1 : stepCore env fuel c { s with nsteps := k + 1 } rows p k = .ok r := h3
  rw [e1, py_bind_ok, if_neg (by simp), e, List.dropLast_concat]
  rfl

/-- `run` on a model with its parts. -/
theorem run_parts {env : Env F} {fuel : Nat} {m : Model F} {c : Ctx F} {a : Analysis F} {res : Results F} {ft : ForceTab F}
    {r0 : Analysis F} {rest : List (Analysis F)} (hl : ¬ (1 < m.settings.log ∧ m.settings.j0 ≠ none)) (h1 : m.ctx = some c)
    (h2 : m.analysis = some a) (h3 : m.results = some res) (h4 : m.forces = some ft) (h5 : res.R = r0 :: rest) :
    m.run env fuel = ((List.range m.settings.nsteps).foldlM (runStep env fuel c m.settings ft.forces.rows)
      ({ a with Vred := a.Ured ++ [0], lpf := some 0 }, ⟨r0 :: r0 :: rest, res.stepLpfEnd⟩) >>= fun p =>
      pure { m with analysis := some p.1, results := some p.2 }) := by
  unfold Model.run
  rw [if_neg hl, h1, h2, h3, h4]
  simp only [h5, dupFirst, py_bind_ok]

theorem ctx_nsteps (m : Model F) (n : Nat) : ({ m with settings := { m.settings with nsteps := n } } : Model F).ctx = m.ctx := rfl

end TrussPy
