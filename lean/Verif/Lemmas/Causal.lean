import Verif.Spec.Causal
import Verif.Lemmas.Run
import Verif.Lemmas.Control
/-!
# Shorter analyses
-/

set_option linter.unusedSectionVars false

namespace TrussPy

variable {F : Type} [Zero F] [One F] [Add F] [Sub F] [Mul F] [Div F] [Neg F] [Flt F]

theorem stepCfg_same {s s' : Settings F} (h : SameGlobal s s') (n : Nat) (x : Int × F) :
    stepCfg s n x = stepCfg s' n x := by
  rw [← h]
  rfl

theorem SameGlobal.log {s s' : Settings F} (h : SameGlobal s s') : s.log = s'.log := by rw [← h]
theorem SameGlobal.j0 {s s' : Settings F} (h : SameGlobal s s') : s.j0 = s'.j0 := by rw [← h]
theorem SameGlobal.ndim {s s' : Settings F} (h : SameGlobal s s') : s.ndim = s'.ndim := by rw [← h]
theorem SameGlobal.nstatev {s s' : Settings F} (h : SameGlobal s s') : s.nstatev = s'.nstatev := by rw [← h]

/-! ## Fewer increments -/

theorem Path.length_le {env : Env F} {P : Problem F} {cfg : PFCfg F} {d0 : List F} {k : Nat} {s s' : PState F}
    {recs : List (Rec F)} (h : Path env P cfg d0 k s recs s') : recs.length ≤ k := by
  induction h with
  | nil => simp
  | stop => simp
  | limit => simp
  | cons _ _ _ _ ih => simpa using ih

/-- The increment loop does not look ahead. -/
theorem incrLoop_prefix {env : Env F} {P : Problem F} {cfg : PFCfg F} {dxmax0 : List F} {fuel : Nat} :
    ∀ {n n' : Nat} {s s' : PState F} {recs : List (Rec F)}, n ≤ n' →
      incrLoop env P cfg dxmax0 fuel n' s = .ok (s', recs) →
      ∃ s1, incrLoop env P cfg dxmax0 fuel n s = .ok (s1, recs.take n) ∧ (recs.length < n ∨ n = n' → s1 = s')
  | 0, 0, s, s', recs, _, h => by
    cases h
    exact ⟨s, rfl, fun _ => rfl⟩
  | 0, n' + 1, s, s', recs, _, h => ⟨s, by rw [List.take_zero]; rfl, by simp⟩
  | n + 1, 0, s, s', recs, hn, h => by omega
  | n + 1, n' + 1, s, s', recs, hn, h => by
    unfold incrLoop at h ⊢
    obtain ⟨⟨s1, o⟩, h1, h⟩ := py_bind_eq_ok.1 h
    simp only [h1, py_bind_ok] at h ⊢
    by_cases hs : o.isStop = true
    · rw [if_pos hs] at h ⊢
      cases h
      exact ⟨_, by simp, fun _ => rfl⟩
    · rw [if_neg hs] at h ⊢
      obtain ⟨lim, h2, h⟩ := py_bind_eq_ok.1 h
      simp only [h2, py_bind_ok]
      by_cases hl : lim = true
      · rw [if_pos hl] at h ⊢
        cases h
        exact ⟨_, by simp, fun _ => rfl⟩
      · rw [if_neg hl] at h ⊢
        obtain ⟨⟨s2, rest⟩, h3, h⟩ := py_bind_eq_ok.1 h
        cases h
        obtain ⟨s3, g1, g2⟩ := incrLoop_prefix (n := n) (by omega) h3
        refine ⟨s3, ?_, fun hc => g2 ?_⟩
        · rw [g1]
          simp only [py_bind_ok, List.take_succ_cons]
          rfl
        · simp only [List.length_cons] at hc
          omega

/-- An increment does not depend on the number of increments. -/
theorem increment_incs (env : Env F) (P : Problem F) (s : Settings F) (n n' : Nat) (xl : Int × F) (d0 : List F) (fuel : Nat)
    (q : PState F) : increment env P (stepCfg s n' xl) d0 fuel q = increment env P (stepCfg s n xl) d0 fuel q := by
  have h1 : ∀ (rc : RCtx F) (k : Nat) (st : RState F), recycle env P (stepCfg s n' xl) rc k st =
      recycle env P (stepCfg s n xl) rc k st := by
    intro rc k
    induction k with
    | zero => intro st; rfl
    | succ k ih =>
      intro st
      unfold recycle
      simp only [ih]
      rfl
  unfold increment solveInc
  simp only [h1]
  rfl

/-- With fewer increments `pathfollow` returns the first ones. -/
theorem pathfollow_prefix {env : Env F} {P : Problem F} {s : Settings F} {n n' : Nat} {xl : Int × F} {fuel : Nat}
    {x : List F} {a : Analysis F} {o' : PFOut F} (hn : n ≤ n') (h : pathfollow env P (stepCfg s n' xl) fuel x a = .ok o') :
    ∃ o, pathfollow env P (stepCfg s n xl) fuel x a = .ok o ∧ o.recs = o'.recs.take n ∧
      (o'.recs.length < n ∨ n = n' → o = o') := by
  unfold pathfollow at h ⊢
  obtain ⟨j, h1, h⟩ := py_bind_eq_ok.1 h
  simp only at h
  split at h
  · cases h
  next hlen =>
  obtain ⟨⟨s', recs⟩, h2, h⟩ := py_bind_eq_ok.1 h
  cases h
  have e1 : ∀ q : PState F, incrLoop env P (stepCfg s n' xl) (initDxmax (x ++ [0]) (stepCfg s n' xl).dxmax) fuel n' q =
      incrLoop env P (stepCfg s n xl) (initDxmax (x ++ [0]) (stepCfg s n xl).dxmax) fuel n' q := fun q => by
    have : ∀ (k : Nat) (q : PState F),
        incrLoop env P (stepCfg s n' xl) (initDxmax (x ++ [0]) (stepCfg s n' xl).dxmax) fuel k q =
        incrLoop env P (stepCfg s n xl) (initDxmax (x ++ [0]) (stepCfg s n xl).dxmax) fuel k q := by
      intro k
      induction k with
      | zero => intro q; rfl
      | succ k ih =>
        intro q
        unfold incrLoop
        simp only [ih, increment_incs env P s n n']
        rfl
    exact this n' q
  have hcases : n = 0 ∨ n ≠ 0 := by omega
  have hj : ∃ j1, startJ (stepCfg s n xl) (x ++ [0]) = .ok j1 ∧ (n ≠ 0 ∨ n = n' → j1 = j) := by
    rcases hcases with h0 | h0
    · unfold startJ
      split
      next hf =>
        split
        · next _ j1 hj1 =>
          refine ⟨j1, rfl, fun hc => ?_⟩
          unfold startJ at h1
          have hf' : (stepCfg s n' xl).jFixed = true := hf
          have hj' : (stepCfg s n' xl).j = some j1 := hj1
          rw [if_pos hf', hj'] at h1
          exact Except.ok.inj h1
        · next _ hj1 =>
          rw [if_pos (show (stepCfg s n xl).incs = 0 from h0)]
          refine ⟨0, rfl, fun hc => ?_⟩
          rcases hc with hc | hc
          · omega
          · subst hc
            unfold startJ at h1
            rw [if_pos hf, hj1] at h1
            simp only at h1
            rw [if_pos (show (stepCfg s n xl).incs = 0 from h0)] at h1
            exact Except.ok.inj h1
      next hf =>
        refine ⟨_, rfl, fun _ => ?_⟩
        unfold startJ at h1
        have hf' : ¬ (stepCfg s n' xl).jFixed = true := hf
        rw [if_neg hf'] at h1
        exact Except.ok.inj h1
    · refine ⟨j, ?_, fun _ => rfl⟩
      rw [← h1]
      unfold startJ
      have h3 : ¬ (stepCfg s n xl).incs = 0 := h0
      have h4 : ¬ (stepCfg s n' xl).incs = 0 := by show n' ≠ 0; omega
      simp only [if_neg h3, if_neg h4]
      rfl
  obtain ⟨j1, hj1, hj2⟩ := hj
  have hlen' : ¬ ((initDxmax (x ++ [0]) (stepCfg s n xl).dxmax).length ≠ (x ++ [0]).length ∧ (stepCfg s n xl).incs ≠ 0) := by
    rintro ⟨q1, q2⟩
    have q3 : n ≠ 0 := q2
    exact hlen ⟨q1, by show n' ≠ 0; omega⟩
  simp only [hj1, py_bind_ok, if_neg hlen']
  change incrLoop env P (stepCfg s n' xl) (initDxmax (x ++ [0]) (stepCfg s n' xl).dxmax) fuel n' _ = _ at h2
  rw [e1] at h2
  rcases hcases with h0 | h0
  · subst h0
    refine ⟨_, rfl, by simp, fun hc => ?_⟩
    rcases hc with hc | hc
    · omega
    · subst hc
      cases hj2 (.inr rfl)
      cases h2
      rfl
  · cases hj2 (.inl h0)
    obtain ⟨s1, g1, g2⟩ := incrLoop_prefix hn h2
    refine ⟨⟨x ++ [0], a, recs.take n, s1.a⟩, ?_, rfl, fun hc => ?_⟩
    · change (do
        let (s, recs) ← incrLoop env P (stepCfg s n xl) (initDxmax (x ++ [0]) (stepCfg s n xl).dxmax) fuel n
          ⟨x ++ [0], initDxmax (x ++ [0]) (stepCfg s n xl).dxmax, j, if (stepCfg s n xl).jPre then 1 else 0, 4, a⟩
        return (⟨x ++ [0], a, recs, s.a⟩ : PFOut F)) = _
      have g1' : incrLoop env P (stepCfg s n xl) (initDxmax (x ++ [0]) (stepCfg s n xl).dxmax) fuel n
          ⟨x ++ [0], initDxmax (x ++ [0]) (stepCfg s n xl).dxmax, j, if (stepCfg s n xl).jPre then 1 else 0, 4, a⟩ =
          .ok (s1, recs.take n) := g1
      rw [g1']
      rfl
    · rw [g2 hc]
      congr 1
      apply List.take_of_length_le
      rcases hc with hc | hc
      · omega
      · subst hc
        exact (incrLoop_ok h2).length_le

/-! ## Fewer steps -/

/-- Slices of the first steps only need the first columns. -/
theorem stepSlice_same {rows rows' : List (List F)} {k i : Nat}
    (h : rows'.map (List.take (3 * k)) = rows.map (List.take (3 * k))) (hi : i < k) :
    stepSlice rows' i = stepSlice rows i := by
  have : ∀ r : List (List F), stepSlice r i = stepSlice (r.map (List.take (3 * k))) i := fun r => by
    unfold stepSlice
    rw [List.map_map]
    apply List.map_congr_left
    intro x _
    show _ = (List.drop (3 * i) (List.take (3 * k) x)).take 3
    rw [List.drop_take, List.take_take]
    congr 1
    omega
  rw [this rows', h, ← this]

theorem foldlM_congr_mem {α γ ε : Type} {f g : γ → α → Except ε γ} : ∀ {l : List α} {s : γ},
    (∀ s, ∀ a ∈ l, f s a = g s a) → l.foldlM f s = l.foldlM g s
  | [], _, _ => rfl
  | a :: l, s, h => by
    rw [List.foldlM_cons, List.foldlM_cons, h s a (by simp)]
    congr 1
    funext s'
    exact foldlM_congr_mem fun s b hb => h s b (List.mem_cons_of_mem _ hb)

theorem setStep_same {rows rows' : List (List F)} {k i : Nat}
    (h : rows'.map (List.take (3 * k)) = rows.map (List.take (3 * k))) (hi : i < k) (le : List F) (a : Analysis F) :
    setStep rows' le i a = setStep rows le i a := by
  have h1 : constLoad rows' le i = constLoad rows le i := by
    unfold constLoad
    rw [stepSlice_same h hi]
    refine foldlM_congr_mem fun acc s hs => ?_
    rw [stepSlice_same h (by have := List.mem_range.1 hs; omega)]
  unfold setStep
  rw [h1, stepSlice_same h hi]

/-- Load factor of the last entry. -/
def lpfOf (R : List (Analysis F)) : Option F := R.getLast?.bind (·.lpf)

/-- The end of a step, for result lists with the same last load factor. -/
theorem endStep {as : List (Analysis F)} {R R' R1' : List (Analysis F)} {l : F} (hne : R ≠ []) (hne' : R' ≠ [])
    (hR : lpfOf R = lpfOf R')
    (h1 : syncU0 (as.foldl recordOne R') = .ok R1') (h2 : lastLpf R1' = .ok l) :
    ∃ R1, syncU0 (as.foldl recordOne R) = .ok R1 ∧ lastLpf R1 = .ok l ∧ R1 ≠ [] ∧ R1' ≠ [] ∧ lpfOf R1 = some l ∧
      lpfOf R1' = some l := by
  have e2 := lastLpf_iff.1 h2
  rcases List.eq_nil_or_concat R with rfl | ⟨X, j, rfl⟩
  · exact absurd rfl hne
  rw [List.concat_eq_append] at *
  rw [foldl_recordOne, syncU0_snoc]
  refine ⟨_, rfl, ?_⟩
  rw [lastLpf_iff]
  have key : lpfOf (X ++ as ++ [(as.getLastD j).setU0 (as.getLastD j).U]) = some l := by
    rcases List.eq_nil_or_concat R' with rfl | ⟨X', j', rfl⟩
    · exact absurd rfl hne'
    · rw [List.concat_eq_append] at *
      rw [foldl_recordOne, syncU0_snoc] at h1
      cases h1
      rw [← e2]
      rcases List.eq_nil_or_concat as with rfl | ⟨as, b, rfl⟩
      · simpa [lpfOf, Analysis.setU0] using hR
      · simp [lpfOf, Analysis.setU0]
  refine ⟨key, by simp, ?_, key, e2⟩
  rintro rfl
  simp at e2

/-- The steps of a run are steps of any run with the same settings and loads in these steps. -/
theorem Steps.transfer {env : Env F} {fuel : Nat} {c : Ctx F} {s s' : Settings F} {rows rows' : List (List F)} {a0 : Analysis F}
    {r0 r0' : Results F} {k : Nat} (hg : SameGlobal s s') (hrows : rows'.map (List.take (3 * k)) = rows.map (List.take (3 * k)))
    (h0 : r0.R ≠ []) (h0' : r0'.R ≠ []) (h1 : lpfOf r0.R = lpfOf r0'.R) (h2 : r0.stepLpfEnd = r0'.stepLpfEnd)
    {outs : List (PFOut F)} {a : Analysis F} {res' : Results F} (h : Steps env fuel c s' rows' a0 r0' outs a res') :
    (∀ i < outs.length, s'.incs.ofStep i = s.incs.ofStep i) → (∀ i < outs.length, s'.xlimit.ofStep i = s.xlimit.ofStep i) →
    outs.length ≤ k → ∃ res, Steps env fuel c s rows a0 r0 outs a res ∧ res.R ≠ [] ∧ res'.R ≠ [] ∧
      lpfOf res.R = lpfOf res'.R ∧
      res.stepLpfEnd = res'.stepLpfEnd := by
  induction h with
  | nil => intro _ _ _; exact ⟨r0, .nil, h0, h0', h1, h2⟩
  | @snoc outs a res' incs xl a1 o R l hs g1 g2 g3 g4 g5 g6 ih =>
    intro hi hx hk
    rw [List.length_append, List.length_singleton] at hi hx hk
    obtain ⟨res, i1, i2, i2', i3, i4⟩ := ih (fun i h => hi i (by omega)) (fun i h => hx i (by omega)) (by omega)
    obtain ⟨R1, j1, j2, j3, j3', j4, j5⟩ := endStep i2 i2' i3 g5 g6
    rw [stepIncs_iff, hi _ (by omega), ← stepIncs_iff] at g1
    rw [stepXlimit_iff, hx _ (by omega), ← stepXlimit_iff] at g2
    rw [setStep_same hrows (by omega), ← i4] at g3
    rw [← stepCfg_same hg] at g4
    exact ⟨_, .snoc i1 g1 g2 g3 g4 j1 j2, j3, j3', j4.trans j5.symm, by rw [i4]⟩

/-- The state after the first steps. -/
theorem Steps.take {env : Env F} {fuel : Nat} {c : Ctx F} {s : Settings F} {rows : List (List F)} {a0 : Analysis F}
    {r0 : Results F} {outs : List (PFOut F)} {a : Analysis F} {res : Results F} (h : Steps env fuel c s rows a0 r0 outs a res) :
    ∀ k ≤ outs.length, ∃ a1 res1, Steps env fuel c s rows a0 r0 (outs.take k) a1 res1 ∧
      res1.stepLpfEnd <+: res.stepLpfEnd := by
  induction h with
  | nil => intro k hk; exact ⟨_, _, by simpa using .nil, by simp⟩
  | @snoc outs a res incs xl a1 o R l hs g1 g2 g3 g4 g5 g6 ih =>
    intro k hk
    rw [List.length_append, List.length_singleton] at hk
    by_cases hk' : k ≤ outs.length
    · obtain ⟨b, res1, i1, i2⟩ := ih k hk'
      refine ⟨b, res1, ?_, i2.trans (List.prefix_append _ _)⟩
      rw [List.take_append_of_le_length hk']
      exact i1
    · refine ⟨resetLpf o.final, ⟨R, res.stepLpfEnd ++ [l]⟩, ?_, List.prefix_rfl⟩
      rw [List.take_of_length_le (by simp; omega)]
      exact .snoc hs g1 g2 g3 g4 g5 g6

/-- The last step. -/
theorem Steps.last {env : Env F} {fuel : Nat} {c : Ctx F} {s : Settings F} {rows : List (List F)} {a0 : Analysis F}
    {r0 : Results F} {outs : List (PFOut F)} {o : PFOut F} {a : Analysis F} {res : Results F}
    (h : Steps env fuel c s rows a0 r0 (outs ++ [o]) a res) :
    ∃ b res1 incs xl a1 R l, Steps env fuel c s rows a0 r0 outs b res1 ∧
      stepIncs s outs.length = .ok incs ∧ stepXlimit s outs.length = .ok xl ∧
      setStep rows res1.stepLpfEnd outs.length b = .ok a1 ∧
      pathfollow env (modelProblem c) (stepCfg s incs xl) fuel a1.Ured a1 = .ok o ∧
      syncU0 ((o.recs.map (·.a)).foldl recordOne res1.R) = .ok R ∧ lastLpf R = .ok l ∧
      a = resetLpf o.final ∧ res = ⟨R, res1.stepLpfEnd ++ [l]⟩ := by
  generalize hq : outs ++ [o] = q at h
  cases h with
  | nil => simp at hq
  | @snoc outs' b res1 incs xl a1 o' R l hs g1 g2 g3 g4 g5 g6 =>
    obtain ⟨rfl, e⟩ := List.append_inj' hq rfl
    cases e
    exact ⟨b, res1, incs, xl, a1, R, l, hs, g1, g2, g3, g4, g5, g6, rfl, rfl⟩

/-- From the relation back to the loop. -/
theorem Steps.fold {env : Env F} {fuel : Nat} {c : Ctx F} {s : Settings F} {rows : List (List F)} {a0 : Analysis F}
    {r0 : Results F} {outs : List (PFOut F)} {a : Analysis F} {res : Results F} (h : Steps env fuel c s rows a0 r0 outs a res) :
    outs.length < s.nsteps → (List.range outs.length).foldlM (runStep env fuel c s rows) (a0, r0) = .ok (a, res) := by
  induction h with
  | nil => intro _; rfl
  | @snoc outs a res incs xl a1 o R l hs g1 g2 g3 g4 g5 g6 ih =>
    intro hn
    rw [List.length_append, List.length_singleton] at hn ⊢
    rw [List.range_succ, List.foldlM_append, ih (by omega)]
    simp only [py_bind_ok, List.foldlM_cons, List.foldlM_nil]
    unfold runStep
    simp only [g1, g2, g3, g4, g5, g6, py_bind_ok, if_pos hn]
    rfl

/-- From the relation back to `run`. -/
theorem run_of_steps {env : Env F} {fuel : Nat} {m : Model F} {c : Ctx F} {a r0 : Analysis F} {ft : ForceTab F}
    {rest : List (Analysis F)} {le le' : List F} (hc : m.ctx = some c) (ha : m.analysis = some a)
    (hres : m.results = some ⟨r0 :: rest, le⟩) (hf : m.forces = some ft)
    (hlog : 1 < m.settings.log → m.settings.j0 = none) {outs : List (PFOut F)} {o : PFOut F} {a1 : Analysis F}
    {R : List (Analysis F)} (hn : outs.length + 1 = m.settings.nsteps)
    (h : Steps env fuel c m.settings ft.forces.rows { a with Vred := a.Ured ++ [0], lpf := some 0 }
      ⟨r0 :: r0 :: rest, le⟩ (outs ++ [o]) a1 ⟨R, le'⟩) :
    m.run env fuel = .ok { m with analysis := some o.final, results := some ⟨R.dropLast, le'⟩ } := by
  obtain ⟨b, res1, incs, xl, a2, R', l, hs, g1, g2, g3, g4, g5, g6, -, hR⟩ := h.last
  cases hR
  unfold Model.run
  rw [if_neg (by
    rintro ⟨h1, h2⟩
    exact h2 (hlog h1))]
  simp only [hc, ha, hres, hf, dupFirst, py_bind_ok]
  rw [← hn, List.range_succ, List.foldlM_append, hs.fold (by omega)]
  simp only [py_bind_ok, List.foldlM_cons, List.foldlM_nil]
  unfold runStep
  simp only [g1, g2, g3, g4, g5, g6, py_bind_ok]
  rw [if_neg (by omega)]
  rfl

end TrussPy
