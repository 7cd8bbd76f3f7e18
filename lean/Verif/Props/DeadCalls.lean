import Verif.Plot
import Verif.ExamplesRun
/-!
# C82: calls that never succeed
-/

namespace TrussPy

variable {F : Type}

/-- **C82** `plt_nodes`, `plt_elements` and `plt_extforces` raise for every model (empty, entered, built or run) and every
argument: the first two `TypeError`, the third `TypeError` for a string or a model without loads, `AttributeError` for an
integer and a model with loads. -/
theorem C82_plt_never_succeeds (m : Model F) (config : PltArg) :
    pltCall m config .nodes = .error .typeError ∧ pltCall m config .elements = .error .typeError ∧
    (∃ e, pltCall m config .extforces = .error e) ∧
    (pltCall m config .extforces = .error .attributeError ↔ (∃ n, config = .int n) ∧ ∃ ft, m.forces = some ft) ∧
    (pltCall m config .extforces = .error .typeError ↔ (∃ s, config = .text s) ∨ m.forces = none) := by
  refine ⟨rfl, rfl, ?_⟩
  cases config with
  | text s =>
    refine ⟨⟨_, rfl⟩, ⟨fun h => ?_, fun ⟨⟨n, h⟩, _⟩ => nomatch h⟩, ⟨fun _ => .inl ⟨s, rfl⟩, fun _ => rfl⟩⟩
    exact absurd h (by simp [pltCall, pExtforces])
  | int n =>
    cases h : m.forces with
    | none => simp [pltCall, pExtforces, h]
    | some ft => simp [pltCall, pExtforces, h]

/-- The model of the examples after `build` and `run`, and without loads. -/
example : (buildRun 1 (exBarModel 1 [1])).bind (fun m => pltCall m (.int 1) .extforces) = .error .attributeError ∧
    (buildRun 1 (exBarModel 1 [1])).bind (fun m => pltCall m (.text "undeformed".toList) .extforces) = .error .typeError ∧
    pltCall ({ exBarModel 1 [1] with forces := none } : Model ℚ) (.int 1) .extforces = .error .typeError := by decide +kernel

theorem addBoundT_missing {t : ThermalTab F} (h : t.tnodes = none) (b : ThermalArg F) :
    addBoundT t b = (.error .attributeError, t) := by
  unfold addBoundT
  rw [h]

/-- What a program does with thermal supports; exceptions are caught. -/
inductive ThermalCall (F : Type) where
  | one (b : ThermalArg F)
  | many (bs : List (ThermalArg F))

/-- Outcome of a call and the state afterwards. -/
def ThermalCall.exec (t : ThermalTab F) : ThermalCall F → Py Unit × ThermalTab F
  | .one b => addBoundT t b
  | .many bs => addBoundsT t bs

/-- **C82** On a handler as its constructor leaves it, after any sequence of calls of `add_bound_T` and `add_bounds_T` with any
objects, nothing has been stored, and the next call raises `AttributeError` unless it is `add_bounds_T([])`. -/
theorem C82_no_thermal_supports (calls : List (ThermalCall F)) (call : ThermalCall F) :
    calls.foldl (fun t c => (c.exec t).2) ThermalTab.init = (ThermalTab.init : ThermalTab F) ∧
    (call.exec (ThermalTab.init : ThermalTab F)).1 =
      (match call with | .many [] => .ok () | _ => .error .attributeError) := by
  have h1 : ∀ c : ThermalCall F, c.exec ThermalTab.init = ((match c with | .many [] => .ok () | _ => .error .attributeError),
      (ThermalTab.init : ThermalTab F)) := by
    intro c
    match c with
    | .one b => exact addBoundT_missing (t := ThermalTab.init) rfl b
    | .many [] => rfl
    | .many (b :: bs) =>
      show addBoundsT ThermalTab.init (b :: bs) = _
      unfold addBoundsT
      rw [addBoundT_missing (t := ThermalTab.init) rfl b]
  refine ⟨?_, by rw [h1]⟩
  induction calls with
  | nil => rfl
  | cons c cs ih => rw [List.foldl_cons, h1]; exact ih

/-- **C82** With objects of the class `BoundaryT` made for it the call raises in every state of the handler, and the state is
not changed. -/
theorem C82_boundaryT_never_accepted (t : ThermalTab F) (e : Int) (v : F) :
    addBoundT t (boundaryT e v) = (.error .attributeError, t) := by
  unfold addBoundT
  split
  · rfl
  · rfl

/-- The code after the missing attribute is reached if a user sets `Tnodes = None` by hand and passes objects with
`node`: two values are stored, in order. -/
example : addBoundsT (⟨some none, [none]⟩ : ThermalTab ℚ) [⟨some 3, some 20⟩, ⟨some 5, some (1 / 2)⟩] =
    (.ok (), ⟨some (some [3, 5]), [some 20, some (1 / 2)]⟩) := by decide +kernel

/-- An object without `value` is found out after the node has been stored. -/
example : addBoundT (⟨some none, [none]⟩ : ThermalTab ℚ) ⟨some 3, none⟩ =
    (.error .attributeError, ⟨some (some [3]), [none]⟩) := by decide +kernel

end TrussPy
