import Verif.Spec.Log
/-!
# C52: redirection of standard output
-/

namespace TrussPy

theorem LogState.exec_append (s : LogState) (a b : List LogEvent) : s.exec (a ++ b) = (s.exec a).exec b :=
  List.foldl_append ..

theorem nested_exec {n n' : Nat} {evs : List LogEvent} (h : Nested n evs n') : ∀ s : LogState, s.models.length = n →
    (s.exec evs).stdout = s.stdout ∧ (s.exec evs).models.length = n' ∧
    ∀ i, i < n → (s.exec evs).models[i]? = s.models[i]? := by
  induction h with
  | nil n => intro s hs; exact ⟨rfl, hs, fun i _ => rfl⟩
  | @pair n k l inner rest b r hr h1 h2 ih1 ih2 =>
    intro s hs
    obtain ⟨a1, a2, a3⟩ := ih1 (s.create b) (by simp [LogState.create, hs])
    have hm : ((s.create b).exec inner).models[n]? = some ⟨s.stdout, b⟩ := by
      rw [a3 n (by omega)]
      simp [LogState.create, ← hs]
    have hrun : (((s.create b).exec inner).run n r).stdout = s.stdout ∧
        (((s.create b).exec inner).run n r).models = ((s.create b).exec inner).models := by
      unfold LogState.run
      rw [hm]
      cases b with
      | true => rw [hr rfl]; exact ⟨rfl, rfl⟩
      | false =>
        have : ((s.create false).exec inner).stdout = s.stdout := a1.trans rfl
        cases r
        · exact ⟨this, rfl⟩
        · exact ⟨this, rfl⟩
    obtain ⟨b1, b2, b3⟩ := ih2 (((s.create b).exec inner).run n r) (by rw [hrun.2]; exact a2)
    have he : s.exec (.create b :: (inner ++ .run n r :: rest)) = (((s.create b).exec inner).run n r).exec rest := by
      show (s.create b).exec (inner ++ .run n r :: rest) = _
      rw [LogState.exec_append]
      rfl
    rw [he]
    have hnk : n + 1 ≤ k := by
      have : (s.create b).models.length = n + 1 := by simp [LogState.create, hs]
      rw [← a2]
      have h4 := a3 n (by omega)
      have h5 : (s.create b).models[n]? ≠ none := by simp [LogState.create, ← hs]
      rw [← h4] at h5
      exact Nat.lt_of_not_le fun h6 => h5 (List.getElem?_eq_none_iff.2 h6)
    refine ⟨b1.trans hrun.1, b2, ?_⟩
    intro i hi
    rw [b3 i (by omega), hrun.2, a3 i (by omega)]
    simp [LogState.create, List.getElem?_append_left (show i < s.models.length by omega)]

/-- **C52** (nested schedules) After any properly nested schedule standard output is what it was before.
The counterexamples below show that nesting and the absence of exceptions are needed. -/
theorem C52_stdout_restored {s : LogState} {evs : List LogEvent} {n' : Nat} (h : Nested s.models.length evs n') :
    (s.exec evs).stdout = s.stdout := (nested_exec h s rfl).1

/-- **C52** Between the creation of a model with log file and its run, whatever nested schedule is executed, standard
output is the stream opened for its log file. -/
theorem C52_output_goes_to_log {s : LogState} {evs : List LogEvent} {n' : Nat}
    (h : Nested (s.models.length + 1) evs n') : ((s.create true).exec evs).stdout = s.next :=
  (nested_exec h (s.create true) (by simp [LogState.create])).1

/-- All streams in use are older than the next one. -/
structure LogState.Old (s : LogState) : Prop where
  console : 0 < s.next
  stdout : s.stdout < s.next
  saved : ∀ m ∈ s.models, m.saved < s.next

theorem LogState.Old.step {s : LogState} (h : s.Old) (e : LogEvent) : (s.step e).Old ∧ s.next ≤ (s.step e).next := by
  cases e with
  | create b =>
    cases b with
    | true =>
      refine ⟨⟨Nat.succ_pos _, Nat.lt_succ_self _, fun m hm => ?_⟩, Nat.le_succ _⟩
      rcases List.mem_append.1 hm with hm | hm
      · exact Nat.lt_succ_of_lt (h.saved m hm)
      · rw [List.mem_singleton.1 hm]; exact Nat.lt_succ_of_lt h.stdout
    | false =>
      refine ⟨⟨h.console, h.stdout, fun m hm => ?_⟩, Nat.le_refl _⟩
      rcases List.mem_append.1 hm with hm | hm
      · exact h.saved m hm
      · rw [List.mem_singleton.1 hm]; exact h.stdout
  | run i r =>
    show (s.run i r).Old ∧ s.next ≤ (s.run i r).next
    unfold LogState.run
    split
    · exact ⟨h, Nat.le_refl _⟩
    · next m hm =>
      split
      · exact ⟨h, Nat.le_refl _⟩
      · split
        · exact ⟨⟨h.console, h.saved m (List.mem_of_getElem? hm), h.saved⟩, Nat.le_refl _⟩
        · exact ⟨h, Nat.le_refl _⟩

theorem LogState.Old.exec {s : LogState} (h : s.Old) (evs : List LogEvent) : (s.exec evs).Old ∧ s.next ≤ (s.exec evs).next := by
  induction evs generalizing s with
  | nil => exact ⟨h, Nat.le_refl _⟩
  | cons e evs ih =>
    obtain ⟨h1, h2⟩ := h.step e
    obtain ⟨h3, h4⟩ := ih h1
    exact ⟨h3, Nat.le_trans h2 h4⟩

/-- **C52** Whatever happened before, a model created with log file prints to a stream that is not the console, not the one
in place, not one that an earlier model would restore, and not the one of any model with log file created later. -/
theorem C52_own_log (before between : List LogEvent) :
    let s := (⟨0, [], 1⟩ : LogState).exec before
    let t := (s.create true).exec between
    (s.create true).stdout ≠ 0 ∧ (s.create true).stdout ≠ s.stdout ∧ (∀ m ∈ s.models, (s.create true).stdout ≠ m.saved) ∧
      (t.create true).stdout ≠ (s.create true).stdout := by
  intro s t
  have h0 : (⟨0, [], 1⟩ : LogState).Old := ⟨Nat.one_pos, Nat.one_pos, fun m hm => nomatch hm⟩
  obtain ⟨h1, -⟩ := h0.exec before
  obtain ⟨h2, h3⟩ := h1.step (.create true)
  obtain ⟨-, h4⟩ := h2.exec between
  have h5 : s.next + 1 ≤ t.next := h4
  refine ⟨Nat.ne_of_gt h1.console, Nat.ne_of_gt h1.stdout, fun m hm => Nat.ne_of_gt (h1.saved m hm), ?_⟩
  show t.next ≠ s.next
  exact fun e => Nat.lt_irrefl _ (e ▸ h5)

/-- Two models with log files, one inside the other, and a third without one. -/
example : Nested 0 [.create true, .create true, .run 1 false, .create false, .run 2 true, .run 0 false] 3 :=
  .pair (inner := [.create true, .run 1 false, .create false, .run 2 true]) (rest := []) true false (fun _ => rfl)
    (.pair (inner := []) (rest := [.create false, .run 2 true]) true false (fun _ => rfl) (.nil 2)
      (.pair (inner := []) (rest := []) false true (fun h => nomatch h) (.nil 3) (.nil 3))) (.nil 3)

example : ((⟨0, [], 1⟩ : LogState).exec [.create true, .create true, .run 1 false]).stdout = 1 := by decide

/-- Interleaved models: the one created first is run first.  Output stays redirected. -/
theorem C52_interleaved_counterexample :
    ((⟨0, [], 1⟩ : LogState).exec [.create true, .create true, .run 0 false, .run 1 false]).stdout = 1 := by decide

/-- A run that raises leaves output redirected. -/
theorem C52_exception_counterexample : ((⟨0, [], 1⟩ : LogState).exec [.create true, .run 0 true]).stdout = 1 := by decide

/-- A model that is created but never run leaves output redirected. -/
theorem C52_not_run_counterexample : ((⟨0, [], 1⟩ : LogState).exec [.create true]).stdout = 1 := by decide

end TrussPy
