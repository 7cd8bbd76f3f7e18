import Verif.Spec.Run
import Verif.Lemmas.NumPy
/-!
# The arguments and the loads of a step, in terms of the code
-/

set_option linter.unusedSectionVars false

namespace TrussPy

variable {F : Type} [Zero F] [One F] [Add F] [Sub F] [Mul F] [Div F] [Neg F] [Flt F]

private theorem pyGet_pos {α : Type} (l : List α) (n : Nat) (v : α) : pyGet l (n : Int) = .ok v ↔ l[n]? = some v := by
  unfold pyGet
  simp only [Int.natCast_nonneg, if_true]
  rw [if_neg (by omega), Int.toNat_natCast]
  cases l[n]? <;> simp

theorem stepIncs_iff {s : Settings F} {k n : Nat} : stepIncs s k = .ok n ↔ s.incs.ofStep k = some n := by
  unfold stepIncs Incs.ofStep
  cases s.incs with
  | const m => simp
  | tuple l => exact pyGet_pos l k n

theorem stepXlimit_iff {s : Settings F} {k : Nat} {x : Int × F} : stepXlimit s k = .ok x ↔ s.xlimit.ofStep k = some x := by
  unfold stepXlimit XLimit.ofStep
  cases s.xlimit with
  | const j v => simp
  | tuple l => exact pyGet_pos l k x

theorem handed_iff {s : Settings F} {incs : Nat} {xl : Int × F} {cfg : PFCfg F} :
    Handed s incs xl cfg ↔ cfg = stepCfg s incs xl := by
  constructor
  · intro h
    cases cfg
    obtain ⟨h1, h2, h3, h4, h5, h6, h7, h8, h9, h10, h11, h12, h13, h14, h15, h16⟩ := h
    subst h1 h2 h3 h4 h5 h6 h7 h8 h9 h10 h11 h12 h13 h14 h15 h16
    rfl
  · rintro rfl
    constructor <;> rfl

theorem stepArgs_iff {s : Settings F} {k : Nat} {cfg : PFCfg F} : StepArgs s k cfg ↔
    ∃ incs xl, stepIncs s k = .ok incs ∧ stepXlimit s k = .ok xl ∧ cfg = stepCfg s incs xl := by
  simp only [StepArgs, handed_iff, stepIncs_iff, stepXlimit_iff]

theorem StepArgs.of {s : Settings F} {k incs : Nat} {xl : Int × F} (h1 : stepIncs s k = .ok incs)
    (h2 : stepXlimit s k = .ok xl) : StepArgs s k (stepCfg s incs xl) := stepArgs_iff.2 ⟨_, _, h1, h2, rfl⟩

theorem stepCall_iff {env : Env F} {fuel : Nat} {c : Ctx F} {s : Settings F} {k : Nat} {o : PFOut F} :
    StepCall env fuel c s k o ↔ ∃ incs xl, stepIncs s k = .ok incs ∧ stepXlimit s k = .ok xl ∧ o.startA.step = k + 1 ∧
      pathfollow env (modelProblem c) (stepCfg s incs xl) fuel o.startA.Ured o.startA = .ok o := by
  constructor
  · rintro ⟨cfg, h, h1, h2⟩
    obtain ⟨incs, xl, j1, j2, rfl⟩ := stepArgs_iff.1 h
    exact ⟨incs, xl, j1, j2, h1, h2⟩
  · rintro ⟨incs, xl, j1, j2, h1, h2⟩
    exact ⟨_, .of j1 j2, h1, h2⟩

theorem columnsOf_eq (rows : List (List F)) (s : Nat) : columnsOf rows s = (stepSlice rows s).flatten := by
  rw [columnsOf, stepSlice, List.flatMap_def]

private theorem npTake_map_some {l : List F} : ∀ {idx : List Nat} {r : List F},
    npTake l idx = .ok r ↔ r.map some = idx.map fun i => l[i]?
  | [], r => by
    cases r <;> simp [npTake]
  | i :: is, r => by
    unfold npTake
    cases hi : l[i]? with
    | none =>
      simp only [List.map_cons, hi]
      constructor
      · intro h; cases h
      · intro h
        cases r with
        | nil => cases h
        | cons a r => simp at h
    | some a =>
      simp only [List.map_cons, hi]
      cases ht : npTake l is with
      | error e =>
        constructor
        · intro h; cases h
        · intro h
          cases r with
          | nil => cases h
          | cons b r =>
            simp only [List.map_cons, List.cons.injEq] at h
            rw [npTake_map_some.2 h.2] at ht
            cases ht
      | ok as =>
        have hs := npTake_map_some.1 ht
        constructor
        · intro h
          cases h
          simp [hs]
        · intro h
          cases r with
          | nil => cases h
          | cons b r =>
            simp only [List.map_cons, List.cons.injEq, Option.some.injEq] at h
            rw [← npTake_map_some, ht] at h
            obtain ⟨rfl, h⟩ := h
            cases h
            rfl

private theorem loadsHeld_length {rows : List (List F)} {ends : List F} {n : Nat} : ∀ {k : Nat},
    (∀ s, s < k → (columnsOf rows s).length = n) → (loadsHeld rows ends n k).length = n
  | 0, _ => by simp [loadsHeld]
  | k + 1, h => by
    rw [loadsHeld, List.length_zipWith, loadsHeld_length fun s hs => h s (by omega), h k (by omega), Nat.min_self]

private theorem constFold_iff {rows : List (List F)} {ends : List F} {n : Nat} : ∀ {k : Nat} {fc : List F},
    (List.range k).foldlM (fun acc (s : Nat) => do
      let l ← pyGet ends (s : Int)
      addScaled acc l (stepSlice rows s).flatten) (List.replicate n 0) = .ok fc ↔
    k ≤ ends.length ∧ (∀ s, s < k → (columnsOf rows s).length = n) ∧ fc = loadsHeld rows ends n k
  | 0, fc => by
    simp [loadsHeld, pure, Except.pure, eq_comm]
  | k + 1, fc => by
    rw [List.range_succ, List.foldlM_append]
    constructor
    · intro h
      obtain ⟨acc, h1, h⟩ := py_bind_eq_ok.1 h
      obtain ⟨i1, i2, rfl⟩ := constFold_iff.1 h1
      obtain ⟨fc', h, h'⟩ := py_bind_eq_ok.1 h
      cases h'
      obtain ⟨l, h2, h3⟩ := py_bind_eq_ok.1 h
      rw [pyGet_pos] at h2
      have hk := (List.getElem?_eq_some_iff.1 h2).1
      unfold addScaled at h3
      split at h3
      · next hl =>
        cases h3
        rw [loadsHeld_length i2] at hl
        refine ⟨hk, fun s hs => ?_, ?_⟩
        · by_cases e : s = k
          · subst e; rw [columnsOf_eq, ← hl]
          · exact i2 s (by omega)
        · rw [loadsHeld, columnsOf_eq, List.getD_eq_getElem?_getD, h2]
          rfl
      · cases h3
    · rintro ⟨h1, h2, rfl⟩
      rw [constFold_iff.2 ⟨by omega, fun s hs => h2 s (by omega), rfl⟩]
      have hg : pyGet ends ((k : Nat) : Int) = .ok ends[k] := (pyGet_pos _ _ _).2 (List.getElem?_eq_getElem h1)
      have hl : (loadsHeld rows ends n k).length = (stepSlice rows k).flatten.length := by
        rw [loadsHeld_length fun s hs => h2 s (by omega), ← columnsOf_eq, h2 k (by omega)]
      show (do
        let acc ← (do
          let l ← pyGet ends ((k : Nat) : Int)
          addScaled (loadsHeld rows ends n k) l (stepSlice rows k).flatten)
        List.foldlM _ acc []) = _
      rw [hg]
      show (do
        let acc ← addScaled (loadsHeld rows ends n k) ends[k] (stepSlice rows k).flatten
        List.foldlM _ acc []) = _
      rw [addScaled, if_pos hl, loadsHeld, columnsOf_eq, List.getD_eq_getElem?_getD, List.getElem?_eq_getElem h1]
      rfl

theorem beginsStep_iff {rows : List (List F)} {ends : List F} {k : Nat} {p a : Analysis F} :
    BeginsStep rows ends k p a ↔ setStep rows ends k p = .ok a := by
  have hz : ((stepSlice rows k).flatten.map fun _ => (0 : F)) = List.replicate (columnsOf rows k).length 0 := by
    rw [columnsOf_eq, List.map_const']
  constructor
  · rintro ⟨h1, h2, h3, h4⟩
    unfold setStep constLoad
    rw [hz, constFold_iff.2 ⟨h1, h2, rfl⟩]
    show (do
      let f0red ← npTake (stepSlice rows k).flatten p.DOF1
      _) = _
    rw [← columnsOf_eq, npTake_map_some.2 h3, h4]
    show Except.ok _ = _
    rw [Nat.add_comm]
  · intro h
    unfold setStep constLoad at h
    obtain ⟨fc, h1, h⟩ := py_bind_eq_ok.1 h
    obtain ⟨f0, h2, h⟩ := py_bind_eq_ok.1 h
    cases h
    rw [hz] at h1
    obtain ⟨i1, i2, rfl⟩ := constFold_iff.1 h1
    rw [← columnsOf_eq] at h2
    refine ⟨i1, i2, npTake_map_some.1 h2, ?_⟩
    rw [← columnsOf_eq, Nat.add_comm]

end TrussPy
