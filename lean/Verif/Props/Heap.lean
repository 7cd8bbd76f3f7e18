import Verif.Lemmas.Heap
/-!
# C53: recorded results are isolated from later computation

`HState.exec` runs any sequence of the statements that create, alias, write and copy arrays and objects.  A result
"does not change" means: the list `Results.R` still has the same object at the same place, and `Heap.observe` shows
the same numbers in every attribute of that object.

The last entry of `R` during a run is the placeholder that the next increment replaces (`model.py:393-394`) and that is
dropped at the end of the job (`model.py:407`); the first theorem speaks about all other entries, the second about all
entries after the placeholder is dropped.
-/

namespace TrussPy

variable {F : Type}

/-- The arrays that exist before the first result show existing numbers. -/
def StartOK (attrs : Attrs F) (bufs : List (List F)) (locals : List View) : Prop :=
  (∀ n v, (n, AttrVal.arr v) ∈ attrs → (Heap.mk [attrs] bufs).Valid v) ∧ ∀ v ∈ locals, (Heap.mk [attrs] bufs).Valid v

/-- **C53.** During `build` and `run`: whatever sequence of statements `ops` came before, no sequence `later` of further
statements changes a recorded increment. -/
theorem C53_recorded_increments_keep {attrs : Attrs F} {bufs : List (List F)} {locals : List View}
    (h0 : StartOK attrs bufs locals) (ops later : List (HOp F)) (hops : ∀ op ∈ ops, op.OfRun = true)
    (hlater : ∀ op ∈ later, op.OfRun = true ∧ op ≠ .dupFirst) (k : Nat) :
    let s := (HState.start attrs bufs locals).exec ops
    let s' := s.exec later
    k + 1 < s.R.length →
      s'.R[k]? = s.R[k]? ∧ ∀ o, s.R[k]? = some o → s'.heap.observe o = s.heap.observe o := by
  intro s s' hk
  obtain ⟨hi, hl⟩ := exec_inv (start_isolated h0.1 h0.2) (fun l hl => by cases hl) ops hops
  obtain ⟨h1, h2⟩ := exec_keep hi hl later hlater hk
  exact ⟨h1, fun o ho => (h2 o ho).observe⟩

/-- **C53.** After the run: evaluations (`equilibrium`, `stiffness`, any solver statement) change no result at all. -/
theorem C53_finished_results_keep {attrs : Attrs F} {bufs : List (List F)} {locals : List View}
    (h0 : StartOK attrs bufs locals) (ops later : List (HOp F)) (hops : ∀ op ∈ ops, op.OfRun = true)
    (hlater : ∀ op ∈ later, op.Solving = true) :
    let s := (HState.start attrs bufs locals).exec (ops ++ [.removeLast])
    let s' := s.exec later
    s'.R = s.R ∧ ∀ o ∈ s.R, s'.heap.observe o = s.heap.observe o := by
  intro s s'
  have hs : s = (((HState.start attrs bufs locals).exec ops)).step .removeLast := by
    simp only [s, HState.exec, List.foldl_append, List.foldl_cons, List.foldl_nil]
  obtain ⟨hi, -⟩ := exec_inv (start_isolated h0.1 h0.2) (fun l hl => by cases hl) ops hops
  have hi' : Isolated s := by
    rw [hs]
    exact hi.step fun k h => by cases h
  obtain ⟨h1, h2⟩ := exec_keep_solving hi' later hlater
  exact ⟨h1, fun o ho => (h2 o ho).observe⟩

/-- What is recorded is the analysis at the time of recording: a snapshot shows the same numbers as the live object, and
recording it shows them in `R`, both in the entry itself and in the new placeholder. -/
theorem C53_record_is_faithful {attrs : Attrs F} {bufs : List (List F)} {locals : List View}
    (h0 : StartOK attrs bufs locals) (ops between : List (HOp F)) (hops : ∀ op ∈ ops, op.OfRun = true)
    (hb : ∀ op ∈ between, op.Solving = true ∧ op ≠ .newResA) :
    let s := (HState.start attrs bufs locals).exec ops
    let s' := (s.step .snapshot).exec between
    let k := s.R.dropLast.length
    let r := s'.step (.publish s.resA.length)
    ∃ o c, r.R = s.R.dropLast ++ [o, c] ∧ r.heap.observe o = s.heap.observe s.live ∧
      r.heap.observe c = s.heap.observe s.live ∧ r.R[k]? = some o := by
  intro s s' k r
  obtain ⟨hi, -⟩ := exec_inv (start_isolated h0.1 h0.2) (fun l hl => by cases hl) ops hops
  have hi1 : Isolated (s.step .snapshot) := hi.step fun k h => by cases h
  obtain ⟨-, -, -, -, -, d6⟩ := deepcopy_spec hi.wf hi.live
  have hheld : (s.step .snapshot).resA = s.resA ++ [(s.heap.deepcopy s.live).2] := rfl
  -- the snapshot survives the statements in between
  have key : ∀ (bs : List (HOp F)) (t : HState F), Isolated t → (∀ op ∈ bs, op.Solving = true ∧ op ≠ .newResA) →
      (∀ (i o : Nat), t.resA[i]? = some o → (t.exec bs).resA[i]? = some o) ∧ Isolated (t.exec bs) ∧ (t.exec bs).R = t.R ∧
      ∀ o, t.Held o → t.heap.Same (t.exec bs).heap o := by
    intro bs
    induction bs with
    | nil => intro t ht _; exact ⟨fun _ _ h => h, ht, rfl, fun o _ => .refl _ _⟩
    | cons op bs ih =>
      intro t ht hbs
      obtain ⟨h1, h2⟩ := hbs op (List.mem_cons_self ..)
      have hR : (t.step op).R = t.R := (exec_keep_solving ht [op] (by simpa using h1)).1
      have hA : ∀ (i o : Nat), t.resA[i]? = some o → (t.step op).resA[i]? = some o := by
        intro i o ho
        cases op <;> first | (exact absurd rfl h2) | (exact absurd h1 Bool.false_ne_true) | skip
        all_goals simp only [HState.step]
        all_goals first
          | exact ho
          | (split <;> exact ho)
          | (rw [List.getElem?_append_left (List.getElem?_eq_some_iff.1 ho).1]; exact ho)
      obtain ⟨i1, i2, i3, i4⟩ := ih (t.step op) (ht.step fun k he => by subst he; cases h1)
        fun o ho => hbs o (List.mem_cons_of_mem _ ho)
      refine ⟨fun i o ho => i1 i o (hA i o ho), i2, i3.trans hR, fun o ho => ?_⟩
      refine (ht.keep_solving h1 ho).1.trans (i4 o ?_)
      rcases ho with ho | ho
      · exact .inl (hR ▸ ho)
      · obtain ⟨i, hi'⟩ := List.mem_iff_getElem?.1 ho
        exact .inr (List.mem_of_getElem? (hA i o hi'))
  obtain ⟨k1, k2, k3, k4⟩ := key between _ hi1 hb
  have hget : s'.resA[s.resA.length]? = some (s.heap.deepcopy s.live).2 := k1 _ _ (by rw [hheld]; simp)
  have hobs : s'.heap.observe (s.heap.deepcopy s.live).2 = s.heap.observe s.live :=
    (k4 _ (.inr (by rw [hheld]; simp))).observe.trans d6
  have hlt := (k2.held _ (.inr (List.mem_of_getElem? hget))).1
  obtain ⟨e1, -, -, -, -, e6⟩ := deepcopy_spec k2.wf hlt
  have hr : r = { s' with
      heap := (s'.heap.deepcopy (s.heap.deepcopy s.live).2).1
      R := s'.R.dropLast ++ [(s.heap.deepcopy s.live).2, (s'.heap.deepcopy (s.heap.deepcopy s.live).2).2] } := by
    simp only [r, HState.step, hget]
  have hR : s'.R = s.R := k3
  refine ⟨(s.heap.deepcopy s.live).2, (s'.heap.deepcopy (s.heap.deepcopy s.live).2).2, ?_, ?_, ?_, ?_⟩
  · rw [hr, hR]
  · rw [hr]
    exact ((e1.same k2.wf hlt).observe).trans hobs
  · rw [hr]
    exact e6.trans hobs
  · rw [hr, hR]
    simp [k]

/-! ## Examples -/

/-- An analysis with displacements `U` (buffer 0) and internal forces `r` (buffer 1); local name 0 is `x` (buffer 2). -/
def exHeapAttrs : Attrs Nat := [("U", .arr ⟨0, [0, 1]⟩), ("r", .arr ⟨1, [0, 1]⟩), ("lpf", .val (some 0))]

def exHeapStart : HState Nat := HState.start exHeapAttrs [[0, 0], [0, 0], [7, 8, 9]] [⟨2, [0, 1, 2]⟩]

theorem exHeapStart_ok : StartOK exHeapAttrs [[0, 0], [0, 0], [7, 8, 9]] [⟨2, [0, 1, 2]⟩] := by
  refine ⟨?_, ?_⟩
  · intro n v h
    simp only [exHeapAttrs, List.mem_cons, Prod.mk.injEq, AttrVal.arr.injEq, reduceCtorEq, and_false, List.not_mem_nil,
      or_false] at h
    rcases h with ⟨-, rfl⟩ | ⟨-, rfl⟩
    · exact ⟨[0, 0], rfl, by decide⟩
    · exact ⟨[0, 0], rfl, by decide⟩
  · intro v h
    rw [List.mem_singleton.1 h]
    exact ⟨[7, 8, 9], rfl, by decide⟩

/-- `build` and the first increment: `analysis.Vred = x; analysis.Ured = x[:-1]`, `analysis.U` filled in place through a
view (names 1 and 2), snapshot, record. -/
def exHeapInc : List (HOp Nat) :=
  [.addIncrement [1, 1] [0, 0] (some 0), .dupFirst, .newResA,
   .viewLocal 0 [0, 1], .bindArr "Vred" 0, .bindArr "Ured" 1, .viewAttr "U" [0, 1], .write 2 0 7, .write 2 1 8,
   .bindVal "lpf" (some 9), .snapshot, .publish 1]

/-- Second increment: everything is overwritten in place through the same names. -/
def exHeapLater : List (HOp Nat) :=
  [.write 0 0 70, .write 0 1 80, .write 2 0 70, .write 2 1 80, .bindVal "lpf" (some 90), .snapshot, .publish 2]

/-- Three entries: the initial one, the first increment and the placeholder. -/
example : (exHeapStart.exec exHeapInc).R.length = 3 := by decide +kernel

/-- The hypotheses hold for this history, and the entry has numbers. -/
example : (∀ op ∈ exHeapInc, op.OfRun = true) ∧ (∀ op ∈ exHeapLater, op.OfRun = true ∧ op ≠ .dupFirst) := by decide +kernel

example : let s := exHeapStart.exec exHeapInc
    (s.R[1]?.bind s.heap.observe) = some [("U", .inl [some 7, some 8]), ("r", .inl [some 0, some 0]), ("lpf", .inr (some 9)),
      ("Vred", .inl [some 7, some 8, some 9]), ("Ured", .inl [some 7, some 8])] := by decide +kernel

/-- The later statements do change the live object, in place, ... -/
example : let s := (exHeapStart.exec exHeapInc).exec exHeapLater
    s.heap.observe s.live = some [("U", .inl [some 70, some 80]), ("r", .inl [some 0, some 0]), ("lpf", .inr (some 90)),
      ("Vred", .inl [some 70, some 80, some 9]), ("Ured", .inl [some 70, some 80])] := by decide +kernel

/-- ... and the recorded first increment stays. -/
example : let s := (exHeapStart.exec exHeapInc).exec exHeapLater
    (s.R[1]?.bind s.heap.observe) = some [("U", .inl [some 7, some 8]), ("r", .inl [some 0, some 0]), ("lpf", .inr (some 9)),
      ("Vred", .inl [some 7, some 8, some 9]), ("Ured", .inl [some 7, some 8])] := by decide +kernel

example : let s := exHeapStart.exec exHeapInc
    (s.exec exHeapLater).R[1]? = s.R[1]? :=
  (C53_recorded_increments_keep exHeapStart_ok exHeapInc exHeapLater (by decide +kernel) (by decide +kernel) 1
    (by decide +kernel)).1

/-- `equilibrium(x, analysis=model.Results.R[k])` makes the result the live analysis object; the next evaluation then
overwrites it.  (Nothing in `run` does this; a user of the public method can.) -/
theorem C53_adopted_result_counterexample : let s := exHeapStart.exec (exHeapInc ++ [.removeLast])
    let s' := s.exec [.adopt 1, .viewAttr "U" [0, 1], .write 3 0 70]
    s.R.length = 2 ∧ s'.R = s.R ∧ (s'.R[1]?.bind s'.heap.observe) ≠ (s.R[1]?.bind s.heap.observe) := by decide +kernel

end TrussPy
