import Verif.Run
/-!
# A call of `run` that raises

Models `model.py:201-441` (`Model.run`) once more, this time with the state of the model left behind if an exception
leaves the method: the user may catch it and go on.  Compared with `Verif/Run.lean` nothing else changes, see
`C118_same_outcome`.
-/

namespace TrussPy

variable {F : Type} [Zero F] [One F] [Add F] [Sub F] [Mul F] [Div F] [Neg F] [Flt F]

/-- The step loop `model.py:307-407`: the results reached, and the analysis object or the exception.  Within a step
`Results` is written only after `pathfollow` has returned (386-407), and nothing raises from then on as long as there is
a result (`copy_increment`, the assignments and `remove_last_increment`), so a step that raises leaves the results as
it found them. -/
def stepsC (env : Env F) (fuel : Nat) (c : Ctx F) (s : Settings F) (rows : List (List F)) :
    List Nat → Analysis F → Results F → Results F × Py (Analysis F)
  | [], a, res => (res, .ok a)
  | k :: ks, a, res => match runStep env fuel c s rows (a, res) k with
    | .error e => (res, .error e)
    | .ok (a, res) => stepsC env fuel c s rows ks a res

/-- `model.py:201-441` `Model.run`.  `left` stands for the analysis object after an interrupted step, about which
nothing is said: `pathfollow` and the functions it calls change it as they go. -/
def Model.runC (env : Env F) (fuel : Nat) (left : Analysis F) (m : Model F) : Model F × Py Unit :=
  -- line 241: `self.Settings.j0 + "|"`
  if 1 < m.settings.log ∧ m.settings.j0 ≠ none then (m, .error .typeError) else
  match m.ctx, m.analysis, m.results, m.forces with
  | some c, some a, some res, some ft =>
    let a := { a with Vred := a.Ured ++ [0], lpf := some 0 }
    match dupFirst res.R with
    | .error e => ({ m with analysis := some a }, .error e)
    | .ok R => match stepsC env fuel c m.settings ft.forces.rows (List.range m.settings.nsteps) a ⟨R, res.stepLpfEnd⟩ with
      | (res, .ok a) => ({ m with analysis := some a, results := some res }, .ok ())
      | (res, .error e) => ({ m with analysis := some left, results := some res }, .error e)
  | _, _, _, _ => (m, .error .attributeError)

end TrussPy
