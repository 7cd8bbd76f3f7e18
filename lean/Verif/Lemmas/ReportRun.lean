import Verif.Lemmas.Report
/-!
# The printed protocol of a whole run: helper lemmas
-/

set_option linter.unusedSectionVars false

namespace TrussPy

variable {F : Type} [Zero F] [One F] [Add F] [Sub F] [Mul F] [Div F] [Neg F] [Flt F]

theorem shown_of_level {log : Int} {sc multi timed : Prop} {l : Line F} (h2 : l.level = 0 ∨ l.level ≤ log)
    (h3 : l.isWidth = false) (h4 : l.isCarry = false) (h5 : l.isBefore = false)
    (h6 : l.duration? ≠ none → timed) : l.Shown log sc multi timed :=
  ⟨h2, fun h => (by rw [h3] at h; cases h), fun h => (by rw [h4] at h; cases h), h5, h6⟩

theorem Line.Shown.mono {log : Int} {sc multi timed sc' multi' timed' : Prop} {l : Line F}
    (h : l.Shown log sc multi timed) (h1 : sc → sc') (h2 : multi → multi') (h3 : timed → timed') :
    l.Shown log sc' multi' timed' :=
  ⟨h.level, fun e => h1 (h.width e), fun e => h2 (h.carry e), h.own, fun e => h3 (h.last e)⟩

theorem say_one {p : Line F → Prop} {l : Line F} (h : p l) : ∀ l' ∈ [l], p l' := by
  intro l' hl
  rw [List.mem_singleton.1 hl]
  exact h

theorem incrementP_every (verbose : Int) (env : Env F) (P : Problem F) (cfg : PFCfg F) (dxmax0 : List F) (fuel i : Nat)
    (s : PState F) :
    (incrementP verbose env P cfg dxmax0 fuel i s).Every (fun l => l.Shown verbose (cfg.stepcontrol = true) False False) := by
  unfold incrementP solveIncP
  refine .bind (.bind (.sayIf fun hv => say_one (shown_of_level (.inr ?_) rfl rfl rfl fun h => absurd rfl h)) fun _ _ => ?_) fun ⟨jp, st, o⟩ _ => ?_
  · exact (show (1 : Int) ≤ verbose by omega)
  · refine .bind (.sayIf fun hv => say_one (shown_of_level (.inr ?_) rfl rfl rfl fun h => absurd rfl h)) fun _ _ => ?_
    · exact (show (2 : Int) ≤ verbose by omega)
    refine .bind (fun l hl => ?_) fun pre _ => ?_
    · obtain ⟨hv, c, i, j, f, i1, v1, rfl⟩ := predictorP_text l hl
      exact shown_of_level (.inr (show (2 : Int) ≤ verbose by omega)) rfl rfl rfl fun h => absurd rfl h
    · refine .ite (fun _ => .pure _) fun _ => .bind (fun l hl => ?_) fun _ _ => .pure _
      exact (recycleP_every _ _ _ _ _ _ _ l hl).2
  · simp only
    split
    · exact .lift _
    · refine .bind (.sayIf fun hv => say_one (shown_of_level (.inr ?_) rfl rfl rfl fun h => absurd rfl h)) fun _ _ => .pure _
      exact (show (1 : Int) ≤ verbose by omega)

theorem incrLoopP_every (verbose : Int) (env : Env F) (P : Problem F) (cfg : PFCfg F) (dxmax0 : List F) (fuel : Nat) :
    ∀ (k i : Nat) (s : PState F), (incrLoopP verbose env P cfg dxmax0 fuel k i s).Every
      (fun l => l.Shown verbose (cfg.stepcontrol = true) False False)
  | 0, _, _ => .pure _
  | k + 1, i, s => by
    unfold incrLoopP
    refine .bind (incrementP_every verbose env P cfg dxmax0 fuel i s) fun ⟨s1, o⟩ _ => .ite (fun _ => .pure _) fun _ => ?_
    refine .bind (.lift _) fun lim _ => .ite (fun _ => ?_) fun _ => ?_
    · exact .bind (.say (say_one (shown_of_level (.inl rfl) rfl rfl rfl fun h => absurd rfl h))) fun _ _ => .pure _
    · exact .bind (incrLoopP_every verbose env P cfg dxmax0 fuel k (i + 1) s1) fun ⟨_, _⟩ _ => .pure _

theorem pathfollowP_every (verbose : Int) (env : Env F) (P : Problem F) (cfg : PFCfg F) (fuel : Nat) (x : List F)
    (a : Analysis F) :
    (pathfollowP verbose env P cfg fuel x a).Every (fun l => l.Shown verbose (cfg.stepcontrol = true) False False) := by
  unfold pathfollowP
  refine .bind (.lift _) fun j _ => .ite (fun _ => .lift _) fun _ => ?_
  exact .bind (incrLoopP_every _ _ _ _ _ _ _ _ _) fun ⟨_, _⟩ _ => .pure _

theorem writeText_mem {n : Nat} : ∀ {i : Nat} {as : List (Analysis F)} {l : Line F}, l ∈ writeText n i as →
    ∃ k v, l = .writeResult k n v
  | i, [], l, h => by cases h
  | i, a :: as, l, h => by
    unfold writeText at h
    rcases List.mem_cons.1 h with rfl | h
    · exact ⟨_, _, rfl⟩
    · exact writeText_mem h

theorem runStepP_every (env : Env F) (fuel : Nat) (c : Ctx F) (s : Settings F) (rows : List (List F))
    (st : Analysis F × Results F) (k : Nat) :
    (runStepP env fuel c s rows st k).Every (fun l => l.Shown s.log (s.stepcontrol = true) (k ≠ 0) False) := by
  obtain ⟨a, res⟩ := st
  unfold runStepP
  refine .bind (.lift _) fun incs _ => .bind (.lift _) fun xl _ => ?_
  refine .bind (.sayIf fun hv => say_one (shown_of_level (.inr ?_) rfl rfl rfl fun h => absurd rfl h)) fun _ _ => ?_
  · exact (show (1 : Int) ≤ s.log by omega)
  refine .bind (.sayIf fun hv => say_one (shown_of_level (.inr ?_) rfl rfl rfl fun h => absurd rfl h)) fun _ _ => ?_
  · exact (show (2 : Int) ≤ s.log by omega)
  refine .bind (.lift _) fun fc _ => .bind (.sayIf fun hk l hl => ?_) fun _ _ => ?_
  · rcases List.mem_cons.1 hl with rfl | hl
    · exact ⟨.inl rfl, nofun, fun _ => hk, rfl, fun h => absurd rfl h⟩
    · cases List.mem_singleton.1 hl
      exact ⟨.inl rfl, nofun, fun _ => hk, rfl, fun h => absurd rfl h⟩
  refine .bind (.lift _) fun a1 _ => .bind (fun l hl => ?_) fun o _ => .bind (.sayIf fun hv l hl => ?_) fun _ _ => ?_
  · exact (pathfollowP_every _ _ _ _ _ _ _ l hl).mono id False.elim id
  · rcases List.mem_cons.1 hl with rfl | hl
    · exact shown_of_level (.inr (show (2 : Int) ≤ s.log by omega)) rfl rfl rfl fun h => absurd rfl h
    · obtain ⟨k, v, rfl⟩ := writeText_mem hl
      exact shown_of_level (.inr (show (2 : Int) ≤ s.log by omega)) rfl rfl rfl fun h => absurd rfl h
  refine .bind (.lift _) fun R _ => .bind (.lift _) fun l _ =>
    .bind (.sayIf fun hv => say_one (shown_of_level (.inr ?_) rfl rfl rfl fun h => absurd rfl h)) fun _ _ => .ite (fun _ => .pure _) fun _ => .pure _
  exact (show (1 : Int) ≤ s.log by omega)

theorem stepsP_every (env : Env F) (fuel : Nat) (c : Ctx F) (s : Settings F) (rows : List (List F)) (multi : Prop) :
    ∀ (ks : List Nat) (st : Analysis F × Results F), (∀ k ∈ ks, k ≠ 0 → multi) →
      (stepsP env fuel c s rows ks st).Every (fun l => l.Shown s.log (s.stepcontrol = true) multi False)
  | [], _, _ => .pure _
  | k :: ks, st, h => by
    unfold stepsP
    refine .bind (fun l hl => ?_) fun st _ => stepsP_every env fuel c s rows multi ks st fun k' hk => h k' (List.mem_cons_of_mem _ hk)
    exact (runStepP_every _ _ _ _ _ _ _ l hl).mono id (h k (List.mem_cons_self ..)) id

theorem paramsP_every (s : Settings F) :
    (paramsP s).Every (fun l => 1 < s.log ∧ l.level = 2 ∧ l.isWidth = false ∧ l.isCarry = false ∧ l.isBefore = false ∧ l.finalLpf? = none ∧
      l.incHead? = none ∧ l.written? = none ∧ l.stepHead? = none ∧ l.stepEnd? = none ∧ l.failure? = none ∧
      l.duration? = none) := by
  unfold paramsP
  refine .ite (fun hv => ?_) fun _ => .pure _
  refine .bind (.say ?_) fun _ _ => .bind ?_ fun _ _ => .bind (.say ?_) fun _ _ => .ite (fun _ => .bind (.say ?_) fun _ _ =>
    .bind (.lift _) fun v _ => .say ?_) fun _ => .pure _
  · simp [hv, Line.level, Line.isWidth, Line.isCarry, Line.isBefore, Line.finalLpf?, Line.incHead?, Line.written?, Line.stepHead?,
      Line.stepEnd?, Line.failure?, Line.duration?]
  · unfold j0P
    split
    · refine .say ?_
      simp [hv, Line.level, Line.isWidth, Line.isCarry, Line.isBefore, Line.finalLpf?, Line.incHead?, Line.written?, Line.stepHead?,
        Line.stepEnd?, Line.failure?, Line.duration?]
    · exact .lift _
  all_goals
    simp [hv, Line.level, Line.isWidth, Line.isCarry, Line.isBefore, Line.finalLpf?, Line.incHead?, Line.written?, Line.stepHead?,
      Line.stepEnd?, Line.failure?, Line.duration?]

/-- Every line printed by `run`, also if it raises. -/
theorem runP_every (env : Env F) (fuel : Nat) (t : Times F) (m : Model F) : (m.runP env fuel t).Every
    (fun l => l.Shown m.settings.log (m.settings.stepcontrol = true) (1 < m.settings.nsteps) True) := by
  unfold Model.runP
  refine .bind (fun l hl => ?_) fun _ _ => ?_
  · obtain ⟨h1, h2, h3, h4, h5, -⟩ := paramsP_every _ l hl
    exact shown_of_level (.inr (by omega)) h3 h4 h5 fun _ => trivial
  · split
    · refine .bind (.lift _) fun R _ => .bind (fun l hl => (stepsP_every _ _ _ _ _ _ _ _ ?_ l hl).mono id id False.elim) fun ⟨_, _⟩ _ =>
        .bind (.sayIf fun hv l hl => ?_) fun _ _ => .pure _
      · intro k hk h0
        rw [List.mem_range] at hk
        omega
      · have : l.level = 2 ∧ l.isWidth = false ∧ l.isCarry = false ∧ l.isBefore = false := by
          simp only [List.mem_cons, List.not_mem_nil, or_false] at hl
          rcases hl with rfl | rfl | rfl | rfl | rfl <;> exact ⟨rfl, rfl, rfl, rfl⟩
        exact shown_of_level (.inr (by omega)) this.2.1 this.2.2.1 this.2.2.2 fun _ => trivial
    · exact .lift _

theorem writeText_written (n : Nat) : ∀ (i : Nat) (recs : List (Rec F)), (∀ r ∈ recs, ∃ l, r.a.lpf = some l) →
    ((writeText n i (recs.map (·.a))).filterMap Line.written?).map (fun p => (p.1, p.2.1, some p.2.2)) =
      (recs.zipIdx i).map fun p => (p.2, n, p.1.a.lpf)
  | i, [], _ => rfl
  | i, r :: recs, h => by
    obtain ⟨l, hl⟩ := h r (List.mem_cons_self ..)
    have ih := writeText_written n (i + 1) recs fun r' hr => h r' (List.mem_cons_of_mem _ hr)
    rw [List.map_cons, writeText, hl, List.filterMap_cons]
    simp only [Line.written?, Option.getD_some, List.map_cons, ih, List.zipIdx_cons, hl]

theorem filterMap_writeText {β : Type} {φ : Line F → Option β} (h : ∀ i n v, φ (.writeResult i n v) = none) (n i : Nat)
    (as : List (Analysis F)) : (writeText n i as).filterMap φ = [] := by
  apply filterMap_nil
  intro l hl
  obtain ⟨k, v, rfl⟩ := writeText_mem hl
  exact h _ _ _

/-- The text of a step that returns. -/
theorem runStepP_text {env : Env F} {fuel : Nat} {c : Ctx F} {s : Settings F} {rows : List (List F)} {a : Analysis F}
    {res : Results F} {st' : Analysis F × Results F} {k : Nat} (h : (runStepP env fuel c s rows (a, res) k).res = .ok st') :
    ∃ incs xl a1 fc o, stepIncs s k = .ok incs ∧ stepXlimit s k = .ok xl ∧ constLoad rows res.stepLpfEnd k = .ok fc ∧
      setStep rows res.stepLpfEnd k a = .ok a1 ∧
      (pathfollowP s.log env (modelProblem c) (stepCfg s incs xl) fuel a1.Ured a1).res = .ok o ∧
      (runStepP env fuel c s rows (a, res) k).text = (if 0 < s.log then [.stepHead (k + 1)] else []) ++
        (if 1 < s.log then [.stepNotes] else []) ++ (if k ≠ 0 then [.constLoad fc, .initial a.Vred] else []) ++
        (pathfollowP s.log env (modelProblem c) (stepCfg s incs xl) fuel a1.Ured a1).text ++
        (if 1 < s.log then .resultHead (k + 1) :: writeText o.recs.length 1 (o.recs.map (·.a)) else []) ++
        (if 0 < s.log then [.stepEnd (k + 1)] else []) := by
  unfold runStepP at h ⊢
  simp only at h ⊢
  obtain ⟨incs, h1, h, t⟩ := Pr.bind_ok h
  rw [t]; clear t
  obtain ⟨xl, h2, h, t⟩ := Pr.bind_ok h
  rw [t]; clear t
  obtain ⟨_, -, h, t⟩ := Pr.bind_ok h
  rw [t]; clear t
  obtain ⟨_, -, h, t⟩ := Pr.bind_ok h
  rw [t]; clear t
  obtain ⟨fc, h3, h, t⟩ := Pr.bind_ok h
  rw [t]; clear t
  obtain ⟨_, -, h, t⟩ := Pr.bind_ok h
  rw [t]; clear t
  obtain ⟨a1, h4, h, t⟩ := Pr.bind_ok h
  rw [t]; clear t
  obtain ⟨o, h5, h, t⟩ := Pr.bind_ok h
  rw [t]; clear t
  obtain ⟨_, -, h, t⟩ := Pr.bind_ok h
  rw [t]; clear t
  obtain ⟨R, h6, h, t⟩ := Pr.bind_ok h
  rw [t]; clear t
  obtain ⟨l, h7, h, t⟩ := Pr.bind_ok h
  rw [t]; clear t
  obtain ⟨_, -, h, t⟩ := Pr.bind_ok h
  rw [t]; clear t
  refine ⟨incs, xl, a1, fc, o, h1, h2, h3, h4, h5, ?_⟩
  simp only [Pr.text_lift, Pr.text_sayIf, Pr.text_ite, Pr.text_pure, ite_self, List.append_nil, List.nil_append,
    List.append_assoc]

/-- One more step. -/
theorem Reports.snoc {log : Int} {outs : List (PFOut F)} {T Q A W : List (Line F)} {o : PFOut F} {xl : Option (Int × F)}
    {fc x : List F} (h : Reports log outs T) (hQ : LoopText log xl 1 o.recs Q)
    (hA : A = (if 0 < log then [.stepHead (outs.length + 1)] else []) ++ (if 1 < log then [.stepNotes] else []) ++
      (if outs.length ≠ 0 then [.constLoad fc, .initial x] else []))
    (hW : W = (if 1 < log then .resultHead (outs.length + 1) :: writeText o.recs.length 1 (o.recs.map (·.a)) else []) ++
      (if 0 < log then [.stepEnd (outs.length + 1)] else [])) : Reports log (outs ++ [o]) (T ++ (A ++ Q ++ W)) := by
  have hrec : recorded (outs ++ [o]) = recorded outs ++ o.recs := by simp [recorded]
  have hA' : ∀ {β : Type} (φ : Line F → Option β), (∀ k, φ (.stepHead k) = none) → φ .stepNotes = none →
      (∀ f, φ (.constLoad f) = none) → (∀ f, φ (.initial f) = none) → A.filterMap φ = [] := by
    intro β φ h1 h2 h3 h4
    rw [hA]
    apply filterMap_nil
    intro l hl
    simp only [List.mem_append] at hl
    rcases hl with (hl | hl) | hl
    · split at hl
      · rw [List.mem_singleton.1 hl]; exact h1 _
      · cases hl
    · split at hl
      · rw [List.mem_singleton.1 hl]; exact h2
      · cases hl
    · split at hl
      · rcases List.mem_cons.1 hl with rfl | hl
        · exact h3 _
        · rw [List.mem_singleton.1 hl]; exact h4 _
      · cases hl
  have hW' : ∀ {β : Type} (φ : Line F → Option β), (∀ k, φ (.resultHead k) = none) → (∀ i n v, φ (.writeResult i n v) = none) →
      (∀ k, φ (.stepEnd k) = none) → W.filterMap φ = [] := by
    intro β φ h1 h2 h3
    rw [hW]
    apply filterMap_nil
    intro l hl
    rcases List.mem_append.1 hl with hl | hl
    · split at hl
      · rcases List.mem_cons.1 hl with rfl | hl
        · exact h1 _
        · obtain ⟨_, _, rfl⟩ := writeText_mem hl
          exact h2 _ _ _
      · cases hl
    · split at hl
      · rw [List.mem_singleton.1 hl]; exact h3 _
      · cases hl
  have hlpf : 0 < log → ∀ r ∈ o.recs, ∃ l, r.a.lpf = some l := by
    intro hl r hr
    have h1 := hQ.lpf
    rw [if_pos hl] at h1
    have h2 : r.a.lpf ∈ o.recs.map (·.a.lpf) := List.mem_map_of_mem hr
    rw [← h1, List.mem_map] at h2
    obtain ⟨l, -, h2⟩ := h2
    exact ⟨l, h2.symm⟩
  constructor
  · simp only [List.filterMap_append, hA' Line.finalLpf? (fun _ => rfl) rfl (fun _ => rfl) (fun _ => rfl),
      hW' Line.finalLpf? (fun _ => rfl) (fun _ _ _ => rfl) (fun _ => rfl), List.nil_append, List.append_nil, List.map_append, h.lpf, hQ.lpf, hrec]
    split <;> rfl
  · simp only [List.filterMap_append, hA' Line.incHead? (fun _ => rfl) rfl (fun _ => rfl) (fun _ => rfl),
      hW' Line.incHead? (fun _ => rfl) (fun _ _ _ => rfl) (fun _ => rfl), List.nil_append, List.append_nil, h.heads, hQ.heads]
    split <;> simp
  · simp only [List.filterMap_append, hA' Line.failure? (fun _ => rfl) rfl (fun _ => rfl) (fun _ => rfl),
      hW' Line.failure? (fun _ => rfl) (fun _ _ _ => rfl) (fun _ => rfl), List.nil_append, List.append_nil, h.failures, hQ.failures, hrec]
  · simp only [List.filterMap_append, hA' Line.written? (fun _ => rfl) rfl (fun _ => rfl) (fun _ => rfl),
      List.nil_append, List.map_append, h.written, hQ.written]
    rw [hW]
    by_cases hl : 1 < log
    · simp only [if_pos hl, if_pos (show 0 < log by omega), List.filterMap_append]
      rw [List.filterMap_cons, show [(Line.stepEnd (outs.length + 1) : Line F)].filterMap Line.written? = [] from rfl,
        show (Line.resultHead (outs.length + 1) : Line F).written? = none from rfl]
      simp only [List.append_nil]
      rw [writeText_written _ _ _ (hlpf (by omega))]
      simp [writtenOf]
    · simp only [if_neg hl]
      split <;> rfl
  · simp only [List.filterMap_append, hW' Line.stepHead? (fun _ => rfl) (fun _ _ _ => rfl) (fun _ => rfl), List.append_nil, h.steps, hQ.steps]
    rw [hA]
    simp only [List.filterMap_append]
    rw [show ((if 1 < log then [.stepNotes] else [] : List (Line F)).filterMap Line.stepHead?) = [] by split <;> rfl,
      show ((if outs.length ≠ 0 then [.constLoad fc, .initial x] else [] : List (Line F)).filterMap Line.stepHead?) = [] by
        split <;> rfl]
    split
    · rw [List.length_append, List.length_singleton, List.range'_concat, Nat.one_mul, Nat.add_comm 1]
      rfl
    · rfl
  · simp only [List.filterMap_append, hA' Line.stepEnd? (fun _ => rfl) rfl (fun _ => rfl) (fun _ => rfl), List.nil_append, h.ends, hQ.ends]
    rw [hW]
    simp only [List.filterMap_append]
    rw [show ((if 1 < log then .resultHead (outs.length + 1) :: writeText o.recs.length 1 (o.recs.map (·.a)) else [] :
        List (Line F)).filterMap Line.stepEnd?) = [] by
      split
      · exact filterMap_writeText (fun _ _ _ => rfl) _ _ _
      · rfl]
    split
    · rw [List.length_append, List.length_singleton, List.range'_concat, Nat.one_mul, Nat.add_comm 1]
      rfl
    · rfl

theorem Reports.nil (log : Int) : Reports log ([] : List (PFOut F)) [] := by
  constructor <;> simp [recorded]

theorem stepsP_append (env : Env F) (fuel : Nat) (c : Ctx F) (s : Settings F) (rows : List (List F)) (k : Nat) :
    ∀ (ks : List Nat) (st : Analysis F × Results F), stepsP env fuel c s rows (ks ++ [k]) st =
      (stepsP env fuel c s rows ks st >>= fun st => runStepP env fuel c s rows st k)
  | [], st => by
    show (runStepP env fuel c s rows st k >>= fun st => pure st) = (pure st >>= fun st => runStepP env fuel c s rows st k)
    refine Prod.ext ?_ ?_
    · show Pr.text _ = Pr.text _
      rw [Pr.text_bind, Pr.text_bind]
      simp only [Pr.res_pure, Pr.text_pure, List.nil_append]
      split <;> simp
    · show Pr.res _ = Pr.res _
      rw [Pr.res_bind, Pr.res_bind]
      simp only [Pr.res_pure, py_ok_bind]
      cases (runStepP env fuel c s rows st k).res <;> rfl
  | k' :: ks, st => by
    show (runStepP env fuel c s rows st k' >>= fun st => stepsP env fuel c s rows (ks ++ [k]) st) =
      ((runStepP env fuel c s rows st k' >>= fun st => stepsP env fuel c s rows ks st) >>= fun st => runStepP env fuel c s rows st k)
    simp only [stepsP_append env fuel c s rows k ks]
    refine Prod.ext ?_ ?_
    · show Pr.text _ = Pr.text _
      simp only [Pr.text_bind, Pr.res_bind]
      cases (runStepP env fuel c s rows st k').res with
      | error e => simp
      | ok st1 => simp only [py_ok_bind, List.append_assoc]
    · show Pr.res _ = Pr.res _
      simp only [Pr.res_bind]
      cases (runStepP env fuel c s rows st k').res <;> rfl

/-- The step loop with its text. -/
theorem stepsP_ok {env : Env F} (hr : env.Ranks) {fuel : Nat} {c : Ctx F} {s : Settings F}
    (hs : s.stepcontrol = true → Flt.eq s.reduce 0 = false) {rows : List (List F)} {a0 : Analysis F} {r0 : Results F} :
    ∀ (n : Nat) {a : Analysis F} {res : Results F}, n < s.nsteps →
      (stepsP env fuel c s rows (List.range n) (a0, r0)).res = .ok (a, res) →
      ∃ outs, outs.length = n ∧ Steps env fuel c s rows a0 r0 outs a res ∧
        Reports s.log outs (stepsP env fuel c s rows (List.range n) (a0, r0)).text
  | 0, a, res, _, h => by cases h; exact ⟨[], rfl, .nil, .nil _⟩
  | n + 1, a, res, hn, h => by
    rw [List.range_succ, stepsP_append] at h ⊢
    obtain ⟨⟨a1, res1⟩, h1, h, t⟩ := Pr.bind_ok h
    rw [t]; clear t
    obtain ⟨outs, hl, hst, hrep⟩ := stepsP_ok hr hs n (by omega) h1
    obtain ⟨incs', xl', a1', fc, o', f1, f2, f3, f4, f5, f6⟩ := runStepP_text h
    rw [f6]
    rw [runStepP_res hr fuel c hs] at h
    obtain ⟨incs, xl, a1'', o, R, l, g1, g2, g3, g4, g5, g6, g7⟩ := runStep_ok h
    rw [f1] at g1; cases g1
    rw [f2] at g2; cases g2
    rw [f4] at g3; cases g3
    have hpr : (stepCfg s incs' xl').Prints := hs
    have f5' := f5
    rw [pathfollowP_res hr _ _ hpr, g4] at f5'
    cases f5'
    rw [if_pos hn] at g7
    obtain ⟨rfl, rfl⟩ := g7
    rw [← hl] at f1 f2 f4 hrep ⊢
    refine ⟨outs ++ [o'], by simp, .snoc hst f1 f2 f4 g4 g5 g6, ?_⟩
    have := hrep.snoc (pathfollowP_text f5) (fc := fc) (x := a1.Vred) rfl rfl
    simpa only [List.append_assoc] using this

/-- The text of a returning `run`. -/
theorem runP_ok {env : Env F} (hr : env.Ranks) {fuel : Nat} {t : Times F} {m m' : Model F}
    (hs : m.settings.stepcontrol = true → Flt.eq m.settings.reduce 0 = false) (h : (m.runP env fuel t).res = .ok m') :
    ∃ c a res ft r0 rest, m.ctx = some c ∧ m.analysis = some a ∧ m.results = some res ∧ m.forces = some ft ∧
      res.R = r0 :: rest ∧
      ∃ outs a1 R le, outs.length = m.settings.nsteps ∧
        Steps env fuel c m.settings ft.forces.rows { a with Vred := a.Ured ++ [0], lpf := some 0 }
          ⟨r0 :: r0 :: rest, res.stepLpfEnd⟩ outs a1 ⟨R, le⟩ ∧
        ((m.settings.nsteps = 0 ∧ m'.results = some ⟨R, le⟩) ∨
          (0 < m.settings.nsteps ∧ m'.results = some ⟨R.dropLast, le⟩)) ∧
        Reports m.settings.log outs (m.runP env fuel t).text := by
  unfold Model.runP at h ⊢
  obtain ⟨_, h0, h, t0⟩ := Pr.bind_ok h
  rw [t0]; clear t0
  split at h
  case h_2 => cases h
  next c a res ft h1 h2 h3 h4 =>
  simp only [h1, h2, h3, h4] at h ⊢
  obtain ⟨R, h5, h, t0⟩ := Pr.bind_ok h
  rw [t0]; clear t0
  have hR : ∃ r0 rest, res.R = r0 :: rest ∧ R = r0 :: r0 :: rest := by
    rw [Pr.res_lift] at h5
    unfold dupFirst at h5
    split at h5
    · cases h5
    · next r0 rest he => cases h5; exact ⟨r0, rest, he, by rw [he]⟩
  obtain ⟨r0, rest, e1, rfl⟩ := hR
  obtain ⟨⟨a2, res2⟩, h6, h, t0⟩ := Pr.bind_ok h
  rw [t0]; clear t0
  obtain ⟨_, -, h, t0⟩ := Pr.bind_ok h
  rw [t0]; clear t0
  cases h
  refine ⟨c, a, res, ft, r0, rest, rfl, rfl, rfl, rfl, e1, ?_⟩
  have key : ∃ outs a1 R le, outs.length = m.settings.nsteps ∧
      Steps env fuel c m.settings ft.forces.rows { a with Vred := a.Ured ++ [0], lpf := some 0 }
        ⟨r0 :: r0 :: rest, res.stepLpfEnd⟩ outs a1 ⟨R, le⟩ ∧
      ((m.settings.nsteps = 0 ∧ some res2 = some ⟨R, le⟩) ∨ (0 < m.settings.nsteps ∧ some res2 = some ⟨R.dropLast, le⟩)) ∧
      Reports m.settings.log outs (stepsP env fuel c m.settings ft.forces.rows (List.range m.settings.nsteps)
        ({ a with Vred := a.Ured ++ [0], lpf := some 0 }, ⟨r0 :: r0 :: rest, res.stepLpfEnd⟩)).text := by
    cases hn : m.settings.nsteps with
    | zero =>
      rw [hn] at h6
      cases h6
      exact ⟨[], _, _, _, rfl, .nil, .inl ⟨rfl, rfl⟩, .nil _⟩
    | succ n =>
      rw [hn, List.range_succ, stepsP_append] at h6
      rw [List.range_succ, stepsP_append]
      obtain ⟨⟨a1, res1⟩, h7, h6, t0⟩ := Pr.bind_ok h6
      rw [t0]; clear t0
      obtain ⟨outs, hl, hst, hrep⟩ := stepsP_ok hr hs n (by omega) h7
      obtain ⟨incs', xl', a1', fc, o', f1, f2, f3, f4, f5, f6⟩ := runStepP_text h6
      rw [f6]
      rw [runStepP_res hr fuel c hs] at h6
      obtain ⟨incs, xl, a1'', o, R, l, g1, g2, g3, g4, g5, g6, g7⟩ := runStep_ok h6
      rw [f1] at g1; cases g1
      rw [f2] at g2; cases g2
      rw [f4] at g3; cases g3
      have hpr : (stepCfg m.settings incs' xl').Prints := hs
      have f5' := f5
      rw [pathfollowP_res hr _ _ hpr, g4] at f5'
      cases f5'
      rw [if_neg (by omega)] at g7
      obtain ⟨rfl, rfl⟩ := g7
      rw [← hl] at f1 f2 f4 hrep ⊢
      refine ⟨outs ++ [o'], _, _, _, by simp, .snoc hst f1 f2 f4 g4 g5 g6, .inr ⟨by omega, rfl⟩, ?_⟩
      have := hrep.snoc (pathfollowP_text f5) (fc := fc) (x := a1.Vred) rfl rfl
      simpa only [List.append_assoc] using this
  obtain ⟨outs, a1, R, le, k1, k2, k3, k4⟩ := key
  refine ⟨outs, a1, R, le, k1, k2, k3, ?_⟩
  generalize hS : (stepsP env fuel c m.settings ft.forces.rows (List.range m.settings.nsteps)
        ({ a with Vred := a.Ured ++ [0], lpf := some 0 }, (⟨r0 :: r0 :: rest, res.stepLpfEnd⟩ : Results F))).text = S at k4
  have hp : ∀ {β : Type} (φ : Line F → Option β), (∀ l ∈ (paramsP m.settings).text, φ l = none) →
      φ .durationHead = none → (∀ b b' v, φ (.duration b b' v) = none) → ∀ T : List (Line F), T = (paramsP m.settings).text ++
        (S ++ (if 1 < m.settings.log then [Line.durationHead, .duration true false t.perfBuild,
          .duration false false t.processBuild, .duration true true t.perfRun, .duration false true t.processRun] else [])) →
      T.filterMap φ = S.filterMap φ := by
    intro β φ e1 e2 e3 T hT
    rw [hT, List.filterMap_append, List.filterMap_append, filterMap_nil e1, List.nil_append]
    split
    · simp [e2, e3]
    · simp
  have hT : ∀ T : List (Line F), T = (paramsP m.settings).text ++
        (S ++ (if 1 < m.settings.log then [Line.durationHead, .duration true false t.perfBuild,
          .duration false false t.processBuild, .duration true true t.perfRun, .duration false true t.processRun] else [])) →
      Reports m.settings.log outs T := by
    intro T hT
    have he := paramsP_every m.settings
    constructor
    · rw [hp _ (fun l hl => (he l hl).2.2.2.2.2.1) rfl (fun _ _ _ => rfl) T hT]; exact k4.lpf
    · rw [hp _ (fun l hl => (he l hl).2.2.2.2.2.2.1) rfl (fun _ _ _ => rfl) T hT]; exact k4.heads
    · rw [hp _ (fun l hl => (he l hl).2.2.2.2.2.2.2.2.2.2.1) rfl (fun _ _ _ => rfl) T hT]; exact k4.failures
    · rw [hp _ (fun l hl => (he l hl).2.2.2.2.2.2.2.1) rfl (fun _ _ _ => rfl) T hT]; exact k4.written
    · rw [hp _ (fun l hl => (he l hl).2.2.2.2.2.2.2.2.1) rfl (fun _ _ _ => rfl) T hT]; exact k4.steps
    · rw [hp _ (fun l hl => (he l hl).2.2.2.2.2.2.2.2.2.1) rfl (fun _ _ _ => rfl) T hT]; exact k4.ends
  apply hT
  rw [← hS]
  simp only [Pr.text_lift, Pr.text_sayIf, Pr.text_pure, List.append_nil, List.nil_append]

/-- The durations are printed at the end. -/
theorem runP_durations {env : Env F} {fuel : Nat} {t : Times F} {m m' : Model F} (h : (m.runP env fuel t).res = .ok m') :
    (m.runP env fuel t).text.filterMap Line.duration? = if 1 < m.settings.log then
      [(true, false, t.perfBuild), (false, false, t.processBuild), (true, true, t.perfRun), (false, true, t.processRun)]
      else [] := by
  unfold Model.runP at h ⊢
  obtain ⟨_, h0, h, t0⟩ := Pr.bind_ok h
  rw [t0]; clear t0
  rw [List.filterMap_append, filterMap_nil fun l hl => (paramsP_every _ l hl).2.2.2.2.2.2.2.2.2.2.2, List.nil_append]
  split at h
  · obtain ⟨R, h1, h, t1⟩ := Pr.bind_ok h
    rw [t1]; clear t1
    obtain ⟨⟨a2, res2⟩, h2, h, t2⟩ := Pr.bind_ok h
    rw [t2]; clear t2
    obtain ⟨_, h3, h, t3⟩ := Pr.bind_ok h
    simp only [t3, Pr.text_lift, List.nil_append, List.filterMap_append, Pr.text_pure, Pr.text_sayIf, List.append_nil]
    rw [filterMap_nil fun l hl => ?_]
    · split <;> rfl
    · by_contra hne
      exact (stepsP_every env fuel _ m.settings _ True _ _ (fun _ _ _ => trivial) l hl).last hne
  · cases h

end TrussPy
