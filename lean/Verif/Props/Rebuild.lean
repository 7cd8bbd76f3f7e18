import Verif.Lemmas.Rebuild
import Verif.Props.Input
/-!
# Building again, and order of calls, beyond distinct labels and two nodes (C04, C07)
-/

set_option linter.unusedSectionVars false

namespace TrussPy

variable {F : Type} [Zero F]

/-- **C07, any tables.** With a sort that leaves ascending lists alone, building a built model again changes nothing: no
assumption on labels (duplicates, foreign labels), number of nodes or widths of the tables. -/
theorem C07_build_idempotent_stable {argsort : List Int → List Nat} (has : IsArgsort argsort)
    (hst : ∀ l : List Int, l.Pairwise (· ≤ ·) → argsort l = List.range l.length) {m m' : Model F}
    (hb : m.build argsort = .ok m') : m'.build argsort = .ok m' := by
  obtain ⟨s⟩ := build_steps hb
  refine build_again has s (hst _ ?_) (hst _ ?_) (hst _ ?_)
  · obtain ⟨ls, e1, h⟩ := py_bind_eq_ok.1 s.hfn
    obtain ⟨cs, e2, h⟩ := py_bind_eq_ok.1 h
    rw [← Except.ok.inj h]
    exact (sorted_labels has e1).1
  · obtain ⟨h1, -, h⟩ := py_bind_eq_ok.1 s.hfb
    cases h1 with
    | none => cases h
    | some t =>
      obtain ⟨ls, e1, h⟩ := py_bind_eq_ok.1 h
      obtain ⟨vs, e2, h⟩ := py_bind_eq_ok.1 h
      rw [← Except.ok.inj h]
      exact (sorted_labels has e1).1
  · have h := s.hff
    unfold fixForces at h
    cases hf : m.forces with
    | none => rw [hf] at h; cases h
    | some t0 =>
      rw [hf] at h
      simp only at h
      obtain ⟨h1, -, h⟩ := py_bind_eq_ok.1 h
      cases h1 with
      | none => cases h
      | some t =>
        obtain ⟨ls, e1, h⟩ := py_bind_eq_ok.1 h
        obtain ⟨vs, e2, h⟩ := py_bind_eq_ok.1 h
        rw [← Except.ok.inj h]
        exact (sorted_labels has e1).1

omit [Zero F] in
/-- The reference sort leaves ascending lists alone. -/
theorem refArgsort_ascending (l : List Int) (h : l.Pairwise (· ≤ ·)) : refArgsort l = List.range l.length := by
  unfold refArgsort
  apply List.Pairwise.insertionSort_eq
  rw [List.pairwise_iff_getElem]
  intro i j hi hj hij
  simp only [List.length_range] at hi hj
  simp only [List.getElem_range, List.getD_eq_getElem?_getD, List.getElem?_eq_getElem hi, List.getElem?_eq_getElem hj,
    Option.getD_some]
  exact List.pairwise_iff_getElem.1 h i j hi hj hij

/-- C07 (any tables) on a model with one node and two loads on it. -/
example : ∃ m' : Model ℚ, ({ exModel with
      nodes := some ⟨[1], ⟨3, [[0, 0, 0]]⟩⟩, bounds := none
      forces := some ⟨[1, 1], ⟨3, [[0, 0, -1], [0, 2, 0]]⟩⟩ } : Model ℚ).build refArgsort = .ok m' ∧
    m'.build refArgsort = .ok m' := by
  obtain ⟨m', h⟩ : ∃ m', ({ exModel with
      nodes := some ⟨[1], ⟨3, [[0, 0, 0]]⟩⟩, bounds := none
      forces := some ⟨[1, 1], ⟨3, [[0, 0, -1], [0, 2, 0]]⟩⟩ } : Model ℚ).build refArgsort = .ok m' := by
    rcases py_ok_or_error (({ exModel with
      nodes := some ⟨[1], ⟨3, [[0, 0, 0]]⟩⟩, bounds := none
      forces := some ⟨[1, 1], ⟨3, [[0, 0, -1], [0, 2, 0]]⟩⟩ } : Model ℚ).build refArgsort) with h | ⟨e, h⟩
    · exact h
    · exfalso
      have := congrArg (fun x => x.toOption.isSome) h
      rw [show (Except.error e : Py (Model ℚ)).toOption.isSome = false from rfl] at this
      revert this
      decide +kernel
  exact ⟨m', h, C07_build_idempotent_stable refArgsort_isArgsort refArgsort_ascending h⟩

/-- A sort which is correct but exchanges the two entries of `[1, 1]`. -/
def swapArgsort (l : List Int) : List Nat := if l = [1, 1] then [1, 0] else refArgsort l

theorem swapArgsort_isArgsort : IsArgsort swapArgsort := by
  intro l
  unfold swapArgsort
  split
  · rename_i h
    subst h
    decide
  · exact refArgsort_isArgsort l

/-- Two nodes with the same label: with an unstable sort every `build` exchanges them. -/
theorem C07_unstable_sort_counterexample :
    let m : Model ℚ := { exModel with
      nodes := some ⟨[1, 1], ⟨3, [[0, 0, 0], [5, 0, 0]]⟩⟩, bounds := none, forces := some ⟨[1], ⟨3, [[0, 0, -1]]⟩⟩ }
    IsArgsort swapArgsort ∧ ∃ m', m.build swapArgsort = .ok m' ∧ m'.build swapArgsort ≠ .ok m' := by
  refine ⟨swapArgsort_isArgsort, ?_⟩
  set m : Model ℚ := { exModel with
      nodes := some ⟨[1, 1], ⟨3, [[0, 0, 0], [5, 0, 0]]⟩⟩, bounds := none, forces := some ⟨[1], ⟨3, [[0, 0, -1]]⟩⟩ } with hm
  have h2 : ((m.build swapArgsort).toOption.bind (·.nodes)) = some ⟨[1, 1], ⟨3, [[5, 0, 0], [0, 0, 0]]⟩⟩ := by
    rw [hm]; decide +kernel
  have h3 : (((m.build swapArgsort).toOption.bind fun m => (m.build swapArgsort).toOption).bind (·.nodes)) =
      some ⟨[1, 1], ⟨3, [[0, 0, 0], [5, 0, 0]]⟩⟩ := by
    rw [hm]; decide +kernel
  rcases py_ok_or_error (m.build swapArgsort) with ⟨m', h⟩ | ⟨e, h⟩
  · refine ⟨m', h, fun hc => ?_⟩
    rw [h] at h2 h3
    simp only [Except.toOption, Option.bind_some] at h2 h3
    rw [hc] at h3
    simp only [Option.bind_some] at h3
    rw [h2] at h3
    revert h3
    decide
  · rw [h] at h2
    cases h2

/-- With one node two loads on it are accepted, and the order of the two calls is seen in the result. -/
theorem C04_single_node_counterexample :
    let m1 : Model ℚ := { exModel with
      nodes := some ⟨[1], ⟨3, [[0, 0, 0]]⟩⟩, bounds := none
      forces := some ⟨[1, 1], ⟨3, [[0, 0, -1], [0, 2, 0]]⟩⟩ }
    let m2 : Model ℚ := { exModel with
      nodes := some ⟨[1], ⟨3, [[0, 0, 0]]⟩⟩, bounds := none
      forces := some ⟨[1, 1], ⟨3, [[0, 2, 0], [0, 0, -1]]⟩⟩ }
    Entered ⟨[⟨1, [0, 0, 0]⟩], [], [⟨1, [0, 0, -1]⟩, ⟨1, [0, 2, 0]⟩]⟩ m1 ∧
    Entered ⟨[⟨1, [0, 0, 0]⟩], [], [⟨1, [0, 2, 0]⟩, ⟨1, [0, 0, -1]⟩]⟩ m2 ∧
    ((m1.build refArgsort).toOption.bind (·.forces)) = some ⟨[1, 1], ⟨3, [[0, 0, -1], [0, 2, 0]]⟩⟩ ∧
    ((m2.build refArgsort).toOption.bind (·.forces)) = some ⟨[1, 1], ⟨3, [[0, 2, 0], [0, 0, -1]]⟩⟩ := by
  unfold Entered
  decide +kernel

end TrussPy
