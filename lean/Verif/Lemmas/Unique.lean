import Verif.Lemmas.StepArgs
/-!
# The path-following calls of a run are determined by the model
-/

set_option linter.unusedSectionVars false

namespace TrussPy

variable {F : Type} [Zero F] [One F] [Add F] [Sub F] [Mul F] [Div F] [Neg F] [Flt F]

theorem StepCall.unique {env : Env F} {fuel : Nat} {c : Ctx F} {s : Settings F} {k : Nat} {o o' : PFOut F}
    (h : StepCall env fuel c s k o) (h' : StepCall env fuel c s k o') (hs : o.startA = o'.startA) : o = o' := by
  obtain ⟨i, x, h1, h2, -, h3⟩ := stepCall_iff.1 h
  obtain ⟨i', x', h1', h2', -, h3'⟩ := stepCall_iff.1 h'
  rw [h1] at h1'; cases h1'
  rw [h2] at h2'; cases h2'
  rw [hs, h3'] at h3
  exact (Except.ok.inj h3).symm

/-- There is only one sequence of path-following calls. -/
theorem RunCalls.unique {env : Env F} {fuel : Nat} {m : Model F} {c : Ctx F} {outs outs' : List (PFOut F)}
    (h : RunCalls env fuel m c outs) (h' : RunCalls env fuel m c outs') : outs = outs' := by
  obtain ⟨a, res, ft, ends, h1, h2, h3, h4⟩ := h.chain
  obtain ⟨a', res', ft', ends', h1', h2', h3', h4'⟩ := h'.chain
  rw [h1] at h1'; cases h1'
  rw [h2] at h2'; cases h2'
  rw [h3] at h3'; cases h3'
  have key : ∀ n, n ≤ m.settings.nsteps → ∀ k, k < n → outs[k]? = outs'[k]? ∧ ends[k]? = ends'[k]? := by
    intro n
    induction n with
    | zero => intro _ k hk; omega
    | succ n ih =>
      intro hn k hk
      have ih := ih (by omega)
      by_cases hkn : k < n
      · exact ih k hkn
      obtain rfl : k = n := by omega
      obtain ⟨o, ho⟩ : ∃ o, outs[k]? = some o := ⟨_, List.getElem?_eq_getElem (by rw [h.count]; omega)⟩
      obtain ⟨o', ho'⟩ : ∃ o, outs'[k]? = some o := ⟨_, List.getElem?_eq_getElem (by rw [h'.count]; omega)⟩
      obtain ⟨⟨p, hp, hs⟩, he⟩ := h4 k o ho
      obtain ⟨⟨p', hp', hs'⟩, he'⟩ := h4' k o' ho'
      have hpp : p = p' := by
        cases k with
        | zero => exact Option.some.inj (hp.symm.trans hp')
        | succ k =>
          simp only [beforeStep] at hp hp'
          rw [(ih k (by omega)).1, hp'] at hp
          exact (Option.some.inj hp).symm
      have htake : ends.take k = ends'.take k := by
        apply List.ext_getElem?
        intro j
        by_cases hj : j < k
        · rw [List.getElem?_take_of_lt hj, List.getElem?_take_of_lt hj]
          exact (ih j hj).2
        · rw [List.getElem?_take_eq_none (by omega), List.getElem?_take_eq_none (by omega)]
      rw [beginsStep_iff] at hs hs'
      rw [← hpp, ← htake, hs] at hs'
      have hoo : o = o' := (h.call k o ho).unique (h'.call k o' ho') (Except.ok.inj hs')
      subst hoo
      refine ⟨ho.trans ho'.symm, ?_⟩
      rw [he, he']
      cases o.recs.getLast? with
      | some r => rfl
      | none =>
        cases k with
        | zero => rfl
        | succ k => exact (ih k (by omega)).2
  apply List.ext_getElem?
  intro k
  by_cases hk : k < m.settings.nsteps
  · exact (key _ (Nat.le_refl _) k hk).1
  · rw [List.getElem?_eq_none (by rw [h.count]; omega), List.getElem?_eq_none (by rw [h'.count]; omega)]

end TrussPy
