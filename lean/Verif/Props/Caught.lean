import Verif.Lemmas.StepArgs
import Verif.Lemmas.Caught
import Verif.Props.Edit
import Verif.Run
/-!
# C96, C97: going on after an exception

In an interactive session a call may raise, and the user goes on.  C96: calls that fill the handlers.
C97: `build` itself.  The carrier `F` is arbitrary and `as`, `as'`, `as''` are any sorting permutations.
-/

set_option linter.unusedSectionVars false

namespace TrussPy

section

variable {F : Type}

/-! ### What a call leaves behind agrees with what it returns -/

/-- **C96** (same results) A call that returns leaves the table it is said to return in `Verif/Handlers.lean`; a call
that raises raises the same exception. -/
theorem C96_same_results :
    (∀ (h : Option (NodeTab F)) n, asPy (addNodeC h n) = addNode h n) ∧
    (∀ (h : Option (NodeTab F)) l, asPy (delNodeC h l) = delNode h l) ∧
    (∀ h n, asPy (addBoundUC h n) = addBoundU h n) ∧ (∀ h l, asPy (delBoundUC h l) = delBoundU h l) ∧
    (∀ (h : Option (ForceTab F)) n, asPy (addForceC h n) = addForce h n) ∧
    (∀ (h : Option (ForceTab F)) l, asPy (delForceC h l) = delForce h l) ∧
    (∀ (h : Option (ElemTab F)) n, asPy (addElemC h n) = addElem h n) ∧
    (∀ (h : Option (ElemTab F)) l, asPy (delElemC h l) = delElem h l) :=
  ⟨addNodeC_agrees, delNodeC_agrees, addBoundUC_agrees, delBoundUC_agrees, addForceC_agrees, delForceC_agrees,
    addElemC_agrees, delElemC_agrees⟩

variable [Zero F]

/-- **C97** (same result) `build` with its state left behind returns and raises what `Model.build` does. -/
theorem C97_same_result (as : List Int → List Nat) (m : Model F) : asPy (m.buildC as) = m.build as :=
  buildC_agrees as m

/-! ### C96: a call that raised is not forgotten -/

/-- The claim without restriction: if `build` succeeds, then no call that filled the nodes, supports and loads had
raised.  False, see `C96_forgotten_support`. -/
def RaisedIsRefused (F : Type) [Zero F] : Prop :=
  ∀ (as : List Int → List Nat), IsArgsort as → ∀ (u : UserInput F) (m m1 : Model F), EnteredCaught u m →
    m.build as = .ok m1 → Entered u m

/-- **C96** (a raised call is refused by `build`) The handlers were filled by any number of add calls, some of which
may have raised, each time leaving a label without a row.  If `build` succeeds nevertheless, none had raised.
Missing: the supports, if every support call except the first raised and every node was named by one. -/
theorem C96_raised_is_refused_partial {as : List Int → List Nat} (has : IsArgsort as) {u : UserInput F} {m m1 : Model F}
    (hu : EnteredCaught u m) (hb : m.build as = .ok m1)
    (hs : (∃ a b r, u.bounds = a :: r ∧ b ∈ r ∧ b.values.length = a.values.length) ∨ u.bounds.length ≤ 1 ∨
      ∃ n ∈ u.nodes, ∀ b ∈ u.bounds, b.node ≠ n.label) : Entered u m := by
  obtain ⟨s⟩ := build_steps hb
  have hN : addNodes none u.nodes = .ok m.nodes ∧ ∀ n ∈ u.nodes, n.label ∈ s.nt0.labels := by
    have h0 := hu.nodes
    rw [s.hn] at h0
    rw [s.hn]
    cases hn : u.nodes with
    | nil => rw [hn] at h0; cases h0
    | cons n ns =>
      rw [hn] at h0
      obtain ⟨t', h1, h2, h3, h4⟩ := nodesC_some ns ⟨[n.label], Tab.ofRow n.coord⟩
      have e : s.nt0 = t' := Option.some.inj (h0.trans h1)
      have hf := fixNodes_full has s.hfn
      rw [e, h2] at hf
      simp only [List.length_append, List.length_map, List.length_cons, List.length_nil, Tab.ofRow] at hf h3
      refine ⟨?_, ?_⟩
      · rw [e]
        exact h4 (by simp only [Tab.ofRow, List.length_cons, List.length_nil]; omega)
      · intro k hk
        rw [e, h2]
        simp only [List.mem_append, List.mem_singleton, List.mem_map]
        rcases List.mem_cons.1 hk with rfl | hk
        · exact .inl rfl
        · exact .inr ⟨k, hk, rfl⟩
  have hnt : ∀ l ∈ s.nt0.labels, l ∈ s.nt.labels := by
    have := s.hn
    have h1 := hN.1
    rw [this] at h1
    obtain ⟨t1, _⟩ := addNodes_tab h1
    obtain ⟨_, _, _, p4, _⟩ := fixNodes_ok has h1 s.hfn
    intro l hl
    rw [t1] at hl
    exact p4.mem_iff.2 hl
  refine ⟨hN.1, ?_, ?_⟩
  · have h0 := hu.bounds
    rw [h0]
    cases hn : u.bounds with
    | nil => rfl
    | cons n ns =>
      obtain ⟨t', h1, h2, h3, h4, h5, h6⟩ := boundsC_some ns ⟨[n.node], .d1 n.values⟩
      have e : m.bounds = some t' := by rw [h0, hn]; exact h1
      have hfb := s.hfb
      rw [e] at hfb
      rw [show List.foldl (fun h b => (addBoundUC h b).1) none (n :: ns) = some t' from h1]
      by_cases hl : ns = []
      · subst hl
        cases h1
        rfl
      have hc := fixBounds_full has (t := t') (by
        rcases hs with ⟨a, b, r, hr, hb, hw⟩ | hs | ⟨k, hk, hs⟩
        · rw [hn] at hr
          cases hr
          exact .inl (h6 _ rfl ⟨b, hb, hw⟩)
        · rw [hn] at hs
          cases ns with
          | nil => exact absurd rfl hl
          | cons x y => simp at hs
        · right
          intro hc
          have hm := hnt _ (hN.2 k hk)
          have : k.label ∈ missing s.nt.labels (some t'.nodes) := by
            refine List.mem_filter.2 ⟨hm, ?_⟩
            simp only [h2, Bool.not_eq_true', List.contains_eq_mem, decide_eq_false_iff_not]
            intro hx
            rcases List.mem_append.1 hx with hx | hx
            · rw [List.mem_singleton] at hx
              exact hs n (by rw [hn]; simp) hx.symm
            · obtain ⟨b, hb, e⟩ := List.mem_map.1 hx
              exact hs b (by rw [hn]; simp [hb]) e
          rw [hc] at this
          cases this) hfb
      rw [h2] at hc
      simp only [List.length_append, List.length_map, List.length_cons, List.length_nil, BArr.count] at hc h3
      exact h4 (by simp only [BArr.count]; omega)
  · have h0 := hu.forces
    rw [h0]
    cases hn : u.forces with
    | nil => rfl
    | cons n ns =>
      obtain ⟨t', h1, h2, h3, h4⟩ := forcesC_some ns ⟨[n.node], Tab.ofRow n.force⟩
      have e : m.forces = some t' := by rw [h0, hn]; exact h1
      have hff := s.hff
      rw [e] at hff
      rw [show List.foldl (fun h b => (addForceC h b).1) none (n :: ns) = some t' from h1]
      have hc := fixForces_full has hff
      rw [h2] at hc
      simp only [List.length_append, List.length_map, List.length_cons, List.length_nil, Tab.ofRow] at hc h3
      exact h4 (by simp only [Tab.ofRow, List.length_cons, List.length_nil]; omega)

end

section

variable {F : Type} [Zero F] [One F] [Add F] [Sub F] [Mul F] [Div F] [Neg F] [Flt F]

private theorem short_gprop {t : ElemTab F} (h : t.gprop.rows.length < t.labels.length) :
    ∃ ls l, t.labels = ls ++ [l] ∧ ∀ g, getGeometricProperties t l ≠ .ok g := by
  have hne : t.labels ≠ [] := by
    intro h0
    rw [h0] at h
    simp at h
  refine ⟨t.labels.dropLast, t.labels.getLast hne, (List.dropLast_append_getLast hne).symm, fun g hg => ?_⟩
  have hm : t.labels.length - 1 ∈ whereEq t.labels (t.labels.getLast hne) := by
    refine List.mem_filter.2 ⟨List.mem_range.2 (by omega), ?_⟩
    rw [List.getLast_eq_getElem]
    simp
  unfold getGeometricProperties npFirst at hg
  cases hv : npTake t.gprop.rows (whereEq t.labels (t.labels.getLast hne)) with
  | error e => rw [hv] at hg; cases hg
  | ok r =>
    have := npTake_ok_lt hv _ hm
    omega

private theorem no_equilibrium {c : Ctx F} (h : c.elems.gprop.rows.length < c.elems.labels.length)
    (a : Analysis F) (V V0 : List F) (st : Stage) (w : Bool) : ∀ r, equilibrium c a V V0 st w ≠ .ok r := by
  intro r hr
  obtain ⟨ls, l, hl, hg⟩ := short_gprop h
  unfold equilibrium at hr
  obtain ⟨⟨lpf, U, U0⟩, _, hr⟩ := py_bind_eq_ok.1 hr
  obtain ⟨a1, _, hr⟩ := py_bind_eq_ok.1 hr
  obtain ⟨x, hx, _⟩ := py_bind_eq_ok.1 hr
  rw [hl, List.foldlM_append] at hx
  obtain ⟨⟨a2, p2⟩, _, hx⟩ := py_bind_eq_ok.1 hx
  rw [List.foldlM_cons] at hx
  obtain ⟨y, hy, _⟩ := py_bind_eq_ok.1 hx
  unfold elemStep at hy
  simp only at hy
  obtain ⟨_, _, hy⟩ := py_bind_eq_ok.1 hy
  obtain ⟨_, _, hy⟩ := py_bind_eq_ok.1 hy
  obtain ⟨g, hg', _⟩ := py_bind_eq_ok.1 hy
  exact hg g hg'

private theorem no_newton {env : Env F} {c : Ctx F} (h : c.elems.gprop.rows.length < c.elems.labels.length)
    (x0 : List F) (j : Int) (xm : F) (w : Bool) (a : Analysis F) (x : List F) (nfev : Int) (ftol xtol : F) :
    ∀ r, newton (extF (modelProblem c) x0 j xm w) (extDf (modelProblem c) j) env.spsolve a x nfev ftol xtol ≠ .ok r := by
  intro r hr
  unfold newton at hr
  cases hk : nfev.toNat with
  | zero => rw [hk] at hr; cases hr
  | succ k =>
    rw [hk] at hr
    unfold newtonLoop at hr
    obtain ⟨⟨s, J⟩, hJ, _⟩ := py_bind_eq_ok.1 hr
    unfold extDf at hJ
    obtain ⟨_, _, hJ⟩ := py_bind_eq_ok.1 hJ
    obtain ⟨⟨_, _⟩, hJ, _⟩ := py_bind_eq_ok.1 hJ
    simp only [modelProblem, stiffness] at hJ
    obtain ⟨_, hJ, _⟩ := py_bind_eq_ok.1 hJ
    exact no_equilibrium h _ _ _ _ _ _ hJ

private theorem no_increment {env : Env F} {c : Ctx F} (h : c.elems.gprop.rows.length < c.elems.labels.length)
    (cfg : PFCfg F) (dx : List F) (fuel : Nat) (s : PState F) :
    ∀ r, increment env (modelProblem c) cfg dx fuel s ≠ .ok r := by
  intro r hr
  unfold increment at hr
  obtain ⟨⟨jp, st, o⟩, hr, _⟩ := py_bind_eq_ok.1 hr
  unfold solveInc at hr
  obtain ⟨pre, hp, hr⟩ := py_bind_eq_ok.1 hr
  unfold predictor at hp
  split at hp
  · obtain ⟨_, _, hp⟩ := py_bind_eq_ok.1 hp
    obtain ⟨⟨_, _⟩, hp, _⟩ := py_bind_eq_ok.1 hp
    exact no_newton h _ _ _ _ _ _ _ _ _ _ hp
  · cases hp
    simp only [Bool.false_eq_true, if_false] at hr
    obtain ⟨_, hr, _⟩ := py_bind_eq_ok.1 hr
    cases fuel with
    | zero => cases hr
    | succ k =>
      unfold recycle at hr
      obtain ⟨⟨_, _⟩, hr, _⟩ := py_bind_eq_ok.1 hr
      unfold attempt at hr
      obtain ⟨_, _, hr⟩ := py_bind_eq_ok.1 hr
      obtain ⟨⟨_, _⟩, hr, _⟩ := py_bind_eq_ok.1 hr
      exact no_newton h _ _ _ _ _ _ _ _ _ _ hr

/-- **C96** (a raised `add_element` is noticed at the first evaluation) The element handler was filled by any
number of `add_element` calls and one of them raised: then `equilibrium` and `stiffness` raise in every
state and for every vector, and `run` raises unless its first step has no increments. -/
theorem C96_raised_element {es : List (Elem F)} {t : ElemTab F}
    (ht : es.foldl (fun h n => (addElemC h n).1) none = some t) (hr : ∀ r, addElems none es ≠ .ok r) :
    (∀ c : Ctx F, c.elems = t → (∀ a V V0 st w r, equilibrium c a V V0 st w ≠ .ok r) ∧
      ∀ a V r, stiffness c a V ≠ .ok r) ∧
    ∀ (m : Model F) env fuel m', m.elems = some t → m.settings.nsteps ≠ 0 → m.settings.incs.ofStep 0 ≠ some 0 →
      m.run env fuel ≠ .ok m' := by
  have hshort : t.gprop.rows.length < t.labels.length := by
    cases es with
    | nil => cases ht
    | cons e es =>
      obtain ⟨t', h1, h2, h3, h4⟩ := elemsC_some es
        ⟨[e.label], Tab.ofRow e.conn, [e.etype], [e.mtype], PTab.ofRow e.mprop, PTab.ofRow e.gprop⟩
      have e0 : t = t' := (Option.some.inj (h1.symm.trans ht)).symm
      rw [e0, h2]
      simp only [List.length_append, List.length_map, List.length_cons, List.length_nil, PTab.ofRow] at h3 h4 ⊢
      by_contra hc
      exact hr _ (h4 (by omega))
  have heq : ∀ c : Ctx F, c.elems = t → ∀ a V V0 st w r, equilibrium c a V V0 st w ≠ .ok r := by
    intro c hc a V V0 st w
    exact no_equilibrium (by rw [hc]; exact hshort) a V V0 st w
  refine ⟨fun c hc => ⟨heq c hc, fun a V r h => ?_⟩, ?_⟩
  · unfold stiffness at h
    obtain ⟨_, h, _⟩ := py_bind_eq_ok.1 h
    exact heq c hc _ _ _ _ _ _ h
  · intro m env fuel m' hm hns hinc h
    unfold Model.run at h
    split at h
    · cases h
    split at h
    · next c a res ft hc _ _ _ =>
      have hce : c.elems = t := by
        unfold Model.ctx at hc
        obtain ⟨nt, _, hc⟩ := Option.bind_eq_some_iff.1 hc
        obtain ⟨et, h2, hc⟩ := Option.bind_eq_some_iff.1 hc
        obtain ⟨d, _, hc⟩ := Option.bind_eq_some_iff.1 hc
        cases hc
        rw [hm] at h2
        exact (Option.some.inj h2).symm
      obtain ⟨R, _, h⟩ := py_bind_eq_ok.1 h
      obtain ⟨⟨_, _⟩, h, _⟩ := py_bind_eq_ok.1 h
      obtain ⟨k, hk⟩ := Nat.exists_eq_succ_of_ne_zero hns
      rw [hk, List.range_succ_eq_map, List.foldlM_cons] at h
      obtain ⟨⟨_, _⟩, h, _⟩ := py_bind_eq_ok.1 h
      unfold runStep at h
      obtain ⟨incs, hi, h⟩ := py_bind_eq_ok.1 h
      obtain ⟨_, _, h⟩ := py_bind_eq_ok.1 h
      obtain ⟨_, _, h⟩ := py_bind_eq_ok.1 h
      obtain ⟨o, h, _⟩ := py_bind_eq_ok.1 h
      unfold pathfollow at h
      obtain ⟨_, _, h⟩ := py_bind_eq_ok.1 h
      split at h
      · cases h
      obtain ⟨⟨_, _⟩, h, _⟩ := py_bind_eq_ok.1 h
      cases incs with
      | zero => exact hinc (stepIncs_iff.1 hi)
      | succ i =>
        simp only [stepCfg] at h
        unfold incrLoop at h
        obtain ⟨⟨_, _⟩, h, _⟩ := py_bind_eq_ok.1 h
        exact no_increment (by rw [hce]; exact hshort) _ _ _ _ _ h
    · cases h

end

section

variable {F : Type}

/-- **C96** (labels and rows out of step) The claim does not extend to sessions with delete calls: node 2 is entered
with a wrong number of coordinates (raises), entered again, deleted (raises) - and from then on the
coordinates of node 2 belong to the node entered next.  `fix_nodes`, the first thing `build` does, accepts this. -/
theorem C96_deleted_after_raise {as : List Int → List Nat} (has : IsArgsort as) {c1 bad c2 c3 : List F}
    (h2 : c2.length = c1.length) (h3 : c3.length = c1.length) (hbad : bad.length ≠ c1.length) :
    let s1 := addNodeC none ⟨1, c1⟩
    let s2 := addNodeC s1.1 ⟨2, bad⟩
    let s3 := addNodeC s2.1 ⟨2, c2⟩
    let s4 := delNodeC s3.1 2
    let s5 := addNodeC s4.1 ⟨3, c3⟩
    s1.2 = .ok () ∧ s2.2 = .error .valueError ∧ s3.2 = .ok () ∧ s4.2 = .error .indexError ∧ s5.2 = .ok () ∧
      ∃ t, s5.1 = some t ∧ fixNodes as t = .ok ⟨[1, 3], ⟨c1.length, [c1, c2]⟩⟩ := by
  have e2 : addNodeC (some ⟨[1], Tab.ofRow c1⟩) ⟨2, bad⟩ = (some ⟨[1, 2], Tab.ofRow c1⟩, .error .valueError) := by
    simp [addNodeC, Tab.vstack, Tab.ofRow, hbad]
  have e3 : addNodeC (some ⟨[1, 2], Tab.ofRow c1⟩) ⟨2, c2⟩ = (some ⟨[1, 2, 2], ⟨c1.length, [c1, c2]⟩⟩, .ok ()) := by
    simp [addNodeC, Tab.vstack, Tab.ofRow, h2]
  have e4 : delNodeC (some ⟨[1, 2, 2], ⟨c1.length, [c1, c2]⟩⟩) 2 =
      (some ⟨[1], ⟨c1.length, [c1, c2]⟩⟩, .error .indexError) := by
    have hw : whereEq [1, 2, 2] 2 = [1, 2] := by decide
    simp [delNodeC, hw, Tab.delete, npDelete]
  have e5 : addNodeC (some ⟨[1], ⟨c1.length, [c1, c2]⟩⟩) ⟨3, c3⟩ =
      (some ⟨[1, 3], ⟨c1.length, [c1, c2, c3]⟩⟩, .ok ()) := by
    simp [addNodeC, Tab.vstack, h3]
  have ha : as [1, 3] = [0, 1] := argsort_sorted has (by decide)
  simp only [show addNodeC none (⟨1, c1⟩ : Node F) = (some ⟨[1], Tab.ofRow c1⟩, .ok ()) from rfl, e2, e3, e4, e5, true_and]
  exact ⟨_, rfl, by simp [fixNodes, ha, npTake, Tab.take]⟩

end

/-- The excluded case of C96: the only two support calls, the second one with too few values. -/
def exForgotten : UserInput ℚ where
  nodes := [⟨1, [0, 0, 0]⟩, ⟨2, [4, 0, 3]⟩]
  bounds := [⟨1, [0, 1, 1]⟩, ⟨2, [0, 0]⟩]
  forces := [⟨2, [0, 0, -1]⟩]

/-- The handlers after these calls. -/
def exForgottenModel : Model ℚ where
  nodes := some ⟨[1, 2], ⟨3, [[0, 0, 0], [4, 0, 3]]⟩⟩
  elems := some ⟨[1], ⟨2, [[1, 2]]⟩, [1], [1], ⟨false, 1, [[1]]⟩, ⟨false, 1, [[1]]⟩⟩
  bounds := some ⟨[1, 2], .d1 [0, 1, 1]⟩
  forces := some ⟨[2], ⟨3, [[0, 0, -1]]⟩⟩
  settings := exSettings

/-- The degrees of freedom of a model that was built. -/
def showDofs (r : Py (Model ℚ)) : Option (List Nat × List Nat) :=
  match r with
  | .error _ => none
  | .ok m => m.dims.map fun d => (d.dof0, d.dof1)

/-- **C96** (the excluded case) Node 1 is held in one direction, the call for node 2 raises.  `build` accepts this: the
support table is still one-dimensional, its first two numbers are taken for the rows of the two nodes, the
first component of the system is fixed, the second is free, and the other four are neither. -/
theorem C96_forgotten_support : ¬ RaisedIsRefused ℚ ∧
    showDofs (exForgottenModel.build refArgsort) = some ([0], [1]) := by
  have h2 : showDofs (exForgottenModel.build refArgsort) = some ([0], [1]) := by decide +kernel
  refine ⟨fun h => ?_, h2⟩
  cases hb : exForgottenModel.build refArgsort with
  | error e => rw [hb] at h2; cases h2
  | ok m1 =>
    have := (h refArgsort refArgsort_isArgsort exForgotten exForgottenModel m1 ⟨by decide +kernel, by decide +kernel,
      by decide +kernel⟩ hb).2.1
    revert this
    decide +kernel

/-! ### C97: what `build` leaves behind -/

section

variable {F : Type} [Zero F] [One F] [Add F] [Sub F] [Mul F] [Div F] [Neg F] [Flt F]

/-- **C97** (no stale results) After a `build` that raised - for whatever reason, in whatever state of the model - there
are no results, and `run` raises. -/
theorem C97_no_stale_results {as : List Int → List Nat} {m m1 : Model F} {x : Err} (h : m.buildC as = (m1, .error x)) :
    m1.results = some ⟨[], []⟩ ∧ m1.analysis = none ∧ ∀ env fuel m', m1.run env fuel ≠ .ok m' := by
  have hres : m1.results = some ⟨[], []⟩ ∧ m1.analysis = none := by
    unfold Model.buildC at h
    simp only at h
    split at h
    · split at h
      · cases h; exact ⟨rfl, rfl⟩
      split at h
      · cases h; exact ⟨rfl, rfl⟩
      split at h
      · cases h; exact ⟨rfl, rfl⟩
      split at h
      · cases h; exact ⟨rfl, rfl⟩
      split at h
      · cases h; exact ⟨rfl, rfl⟩
      · cases h; exact ⟨rfl, rfl⟩
      split at h
      · cases h; exact ⟨rfl, rfl⟩
      split at h
      · cases h; exact ⟨rfl, rfl⟩
      split at h
      · cases h; exact ⟨rfl, rfl⟩
      · cases h
    · cases h; exact ⟨rfl, rfl⟩
  refine ⟨hres.1, hres.2, fun env fuel m' hr => ?_⟩
  unfold Model.run at hr
  split at hr
  · cases hr
  split at hr
  · next ha _ _ => rw [hres.2] at ha; cases ha
  · cases hr

end

section

variable {F : Type} [Zero F]

/-- **C97** (a refused model can be corrected) `build` was called and raised or returned.  It has completed and sorted
the tables, nothing entered was lost: the model behaves as if the user had entered every default row
too.  After any sequence of add and delete calls it builds - or fails to build - exactly as a fresh model
filled with the completed and edited input. -/
theorem C97_corrected_as_entered {as as' : List Int → List Nat} (has : IsArgsort as)
    {u : UserInput F} {m m2 : Model F} (hu : Entered u m) (hnd : (u.nodes.map (·.label)).Nodup)
    (hlen : 2 ≤ u.nodes.length) (hw : ∀ b ∈ u.bounds, b.values.length = 3) (hf : u.forces ≠ [])
    (hel : m.elems ≠ none) (hdim : m.settings.ndim = 3)
    {e : Edits F} (hE : Edited e (m.buildC as).1 m2) (hnd' : ((u.filled.edited e).nodes.map (·.label)).Nodup)
    (hlen' : 2 ≤ (u.filled.edited e).nodes.length) (hf' : (u.filled.edited e).forces ≠ [])
    (has' : IsArgsort as') :
    ∃ v m', v.nodes.Perm (u.filled.edited e).nodes ∧ v.bounds.Perm (u.filled.edited e).bounds ∧
      v.forces.Perm (u.filled.edited e).forces ∧ Entered v m' ∧ (∀ b ∈ v.bounds, b.values.length = 3) ∧
      m'.elems = m.elems ∧ m'.settings = m.settings ∧ m2.build as' = m'.build as' := by
  obtain ⟨et, het⟩ := Option.ne_none_iff_exists'.1 hel
  obtain ⟨w, wn, wf, p1, p2, p3, t1, t2, t3, t4, t5, t6, t7, t8⟩ := left_tables has hu hnd hlen hw hf het hdim
  have q1 : (w.edited e).nodes.Perm (u.filled.edited e).nodes := stored_perm _ _ p1
  have q2 : (w.edited e).bounds.Perm (u.filled.edited e).bounds := stored_perm _ _ p2
  have q3 : (w.edited e).forces.Perm (u.filled.edited e).forces := stored_perm _ _ p3
  obtain ⟨m', k1, k2, k3, k4, k5⟩ := edited_entered (m := m) has' t1 t2 t3 t4 t5 t6 hE.nodes hE.bounds hE.forces
    (hE.elems.trans t7) (fun et' het' => by
      rw [het] at het'
      cases het'
      rw [hE.settings, t8])
    ((q1.map (·.label)).nodup_iff.2 hnd') (by rw [q1.length_eq]; exact hlen') (fun h0 => by
      rw [h0] at q3
      exact hf' (List.nil_perm.1 q3))
  exact ⟨_, m', q1, q2, q3, k1, k2, k3, k4, k5⟩

/-- **C97** (correct and build) If the corrected input has no second and no orphaned support or load row, the
corrected model builds, and to the model that is obtained by entering the corrected structure from scratch. -/
theorem C97_correct_and_build {as as' as'' : List Int → List Nat} (has : IsArgsort as) (has' : IsArgsort as')
    (has'' : IsArgsort as'') {u : UserInput F} {m m2 : Model F} (hu : Entered u m)
    (hnd : (u.nodes.map (·.label)).Nodup) (hlen : 2 ≤ u.nodes.length) (hw : ∀ b ∈ u.bounds, b.values.length = 3)
    (hf : u.forces ≠ []) (hel : m.elems ≠ none) (hdim : m.settings.ndim = 3)
    {e : Edits F} (hE : Edited e (m.buildC as).1 m2) (hnd' : ((u.filled.edited e).nodes.map (·.label)).Nodup)
    (hlen' : 2 ≤ (u.filled.edited e).nodes.length) (hf' : (u.filled.edited e).forces ≠ [])
    (hns : NoStray (u.filled.edited e)) :
    ∃ m3, m2.build as' = .ok m3 ∧
      ∀ {v : UserInput F} {m' : Model F}, Entered v m' → SameMeaning (u.filled.edited e) v → NoStray v →
        v.forces ≠ [] → m'.elems = m.elems → m'.settings = m.settings → m'.build as'' = .ok m3 := by
  obtain ⟨v, mv, q1, q2, q3, q4, q5, q6, q7, q8⟩ :=
    C97_corrected_as_entered has hu hnd hlen hw hf hel hdim hE hnd' hlen' hf' has'
  rw [q8]
  exact reordered_builds has' has'' q1 q2 q3 q4 q5 q6 q7 hel hdim hnd' hlen' hf' hns

private theorem supportOf_append (a b : List BoundU) (h : ∀ x ∈ b, x.values = [1, 1, 1]) (l : Int) :
    supportOf (a ++ b) l = supportOf a l := by
  unfold supportOf
  rw [List.find?_append]
  cases ha : a.find? fun b => b.node == l with
  | some x => rfl
  | none =>
    simp only [Option.none_or]
    cases hb : b.find? fun b => b.node == l with
    | none => rfl
    | some x => exact h x (List.mem_of_find?_eq_some hb)

private theorem loadOf_append (a b : List (ExtForce F)) (ha : a ≠ [])
    (h : ∀ x ∈ b, x.force = List.replicate (loadWidth a) 0) (l : Int) : loadOf (a ++ b) l = loadOf a l := by
  have hw : loadWidth (a ++ b) = loadWidth a := by
    cases a with
    | nil => exact absurd rfl ha
    | cons x y => rfl
  unfold loadOf
  rw [List.find?_append, hw]
  cases ha : a.find? fun b => b.node == l with
  | some x => rfl
  | none =>
    simp only [Option.none_or]
    cases hb : b.find? fun b => b.node == l with
    | none => rfl
    | some x => exact h x (List.mem_of_find?_eq_some hb)

private theorem filled_rest {α β : Type} (key : α → Int) (lab : β → Int) {s : List α} {ns : List β} (mk : β → α) (hk : ∀ n, key (mk n) = lab n)
    (hs : (s.map key).Nodup) (hn : (ns.map lab).Nodup) (t : List α)
    (ht : ∀ x ∈ s, x ∈ t) :
    ((s ++ (ns.filter fun n => !(t.map key).contains (lab n)).map mk).map key).Nodup := by
  rw [List.map_append, List.map_map]
  refine List.nodup_append.2 ⟨hs, ?_, ?_⟩
  · rw [show (key ∘ mk) = lab from funext hk]
    exact (List.Sublist.map lab List.filter_sublist).nodup hn
  · intro x hx y hy hxy
    obtain ⟨a, ha, rfl⟩ := List.mem_map.1 hx
    obtain ⟨n, hn', rfl⟩ := List.mem_map.1 hy
    have := (List.mem_filter.1 hn').2
    simp only [Function.comp_apply, hk] at hxy
    rw [← hxy] at this
    simp only [Bool.not_eq_true', List.contains_eq_mem, decide_eq_false_iff_not] at this
    exact this (List.mem_map.2 ⟨a, ht a ha, rfl⟩)

/-- **C97** (a support for a node that does not exist) `build` refuses it; deleting it and building again gives
the model that is obtained without ever entering it. -/
theorem C97_remove_stray_support {as as' as'' : List Int → List Nat} (has : IsArgsort as) (has' : IsArgsort as')
    (has'' : IsArgsort as'') {u : UserInput F} {m : Model F} (hu : Entered u m)
    (hnd : (u.nodes.map (·.label)).Nodup) (hlen : 2 ≤ u.nodes.length) (hw : ∀ b ∈ u.bounds, b.values.length = 3)
    (hf : u.forces ≠ []) (hel : m.elems ≠ none) (hdim : m.settings.ndim = 3) {l : Int}
    (hl : ∃ b ∈ u.bounds, b.node = l) (hl' : ∀ n ∈ u.nodes, n.label ≠ l)
    (hns : NoStray ⟨u.nodes, u.bounds.filter (fun b => b.node ≠ l), u.forces⟩) :
    (∀ m1, m.build as ≠ .ok m1) ∧
    ∃ m2 m3, Edited { bounds := [.del l] } (m.buildC as).1 m2 ∧ m2.build as' = .ok m3 ∧
      ∀ {m' : Model F}, Entered ⟨u.nodes, u.bounds.filter (fun b => b.node ≠ l), u.forces⟩ m' →
        m'.elems = m.elems → m'.settings = m.settings → m'.build as'' = .ok m3 := by
  refine ⟨fun m1 hb => ?_, ?_⟩
  · obtain ⟨_, _, _, _, r, _⟩ := (C05_build_succeeds_iff has hu hnd hlen hw).1 ⟨m1, hb⟩
    obtain ⟨b, hb, rfl⟩ := hl
    obtain ⟨n, hn, e⟩ := r b hb
    exact hl' n hn e
  obtain ⟨et, het⟩ := Option.ne_none_iff_exists'.1 hel
  obtain ⟨w, wn, wf, p1, p2, p3, t1, t2, t3, t4, t5, t6, t7, t8⟩ := left_tables has hu hnd hlen hw hf het hdim
  have hE : Edited { bounds := [.del l] } (m.buildC as).1
      { (m.buildC as).1 with bounds := some (tabB 3 (w.bounds.filter fun b => b.node ≠ l)) } := by
    refine ⟨rfl, ?_, rfl, rfl, rfl⟩
    rw [t2]
    simp only [boundOps, List.foldlM_cons, List.foldlM_nil, delBoundU_tab, py_bind_ok, py_pure]
  have hV : (u.filled.edited { bounds := [.del l] }).bounds = u.bounds.filter (fun b => b.node ≠ l) ++
      (u.nodes.filter fun n => !(u.bounds.map (·.node)).contains n.label).map fun n => ⟨n.label, [1, 1, 1]⟩ := by
    show (u.bounds ++ _).filter (fun b => decide (b.node ≠ l)) = _
    rw [List.filter_append]
    congr 1
    refine List.filter_eq_self.2 ?_
    intro b hb
    obtain ⟨n, hn, rfl⟩ := List.mem_map.1 hb
    simpa using hl' n (List.mem_filter.1 hn).1
  have hne : u.filled.forces ≠ [] := by
    intro h0
    exact hf (List.append_eq_nil_iff.1 h0).1
  obtain ⟨m3, h3, hall⟩ := C97_correct_and_build has has' has'' hu hnd hlen hw hf hel hdim hE hnd hlen hne (by
    refine ⟨?_, ?_, ?_, ?_⟩
    · rw [hV]
      exact filled_rest (fun b : BoundU => b.node) (fun n : Node F => n.label) _ (fun _ => rfl) hns.bnd hnd _
        (fun x hx => (List.mem_filter.1 hx).1)
    · rw [hV]
      intro b hb
      rcases List.mem_append.1 hb with hb | hb
      · exact hns.bsub b hb
      · obtain ⟨n, hn, rfl⟩ := List.mem_map.1 hb
        exact ⟨n, (List.mem_filter.1 hn).1, rfl⟩
    · exact filled_rest (fun b : ExtForce F => b.node) (fun n : Node F => n.label) _ (fun _ => rfl) hns.fnd hnd _
        (fun x hx => hx)
    · intro b hb
      rcases List.mem_append.1 hb with hb | hb
      · exact hns.fsub b hb
      · obtain ⟨n, hn, rfl⟩ := List.mem_map.1 hb
        exact ⟨n, (List.mem_filter.1 hn).1, rfl⟩)
  refine ⟨_, m3, hE, h3, fun hm' he hs => hall hm' ⟨.refl _, ?_, ?_⟩ hns hf he hs⟩
  · intro n _
    rw [hV]
    refine supportOf_append _ _ ?_ _
    intro x hx
    obtain ⟨n, _, rfl⟩ := List.mem_map.1 hx
    rfl
  · intro n _
    refine loadOf_append _ _ hf ?_ _
    intro x hx
    obtain ⟨n, _, rfl⟩ := List.mem_map.1 hx
    rfl

/-- **C97** (a load on a node that does not exist) The same for a load, if another load is left. -/
theorem C97_remove_stray_load {as as' as'' : List Int → List Nat} (has : IsArgsort as) (has' : IsArgsort as')
    (has'' : IsArgsort as'') {u : UserInput F} {m : Model F} (hu : Entered u m)
    (hnd : (u.nodes.map (·.label)).Nodup) (hlen : 2 ≤ u.nodes.length) (hw : ∀ b ∈ u.bounds, b.values.length = 3)
    (hel : m.elems ≠ none) (hdim : m.settings.ndim = 3) {l : Int}
    (hl : ∃ b ∈ u.forces, b.node = l) (hl' : ∀ n ∈ u.nodes, n.label ≠ l)
    (hf : u.forces.filter (fun b => b.node ≠ l) ≠ [])
    (hns : NoStray ⟨u.nodes, u.bounds, u.forces.filter (fun b => b.node ≠ l)⟩) :
    (∀ m1, m.build as ≠ .ok m1) ∧
    ∃ m2 m3, Edited { forces := [.del l] } (m.buildC as).1 m2 ∧ m2.build as' = .ok m3 ∧
      ∀ {m' : Model F}, Entered ⟨u.nodes, u.bounds, u.forces.filter (fun b => b.node ≠ l)⟩ m' →
        m'.elems = m.elems → m'.settings = m.settings → m'.build as'' = .ok m3 := by
  refine ⟨fun m1 hb => ?_, ?_⟩
  · obtain ⟨_, _, _, _, _, _, r⟩ := (C05_build_succeeds_iff has hu hnd hlen hw).1 ⟨m1, hb⟩
    obtain ⟨b, hb, rfl⟩ := hl
    obtain ⟨n, hn, e⟩ := r b hb
    exact hl' n hn e
  have hf0 : u.forces ≠ [] := by
    intro h0
    rw [h0] at hf
    exact hf rfl
  obtain ⟨et, het⟩ := Option.ne_none_iff_exists'.1 hel
  obtain ⟨w, wn, wf, p1, p2, p3, t1, t2, t3, t4, t5, t6, t7, t8⟩ := left_tables has hu hnd hlen hw hf0 het hdim
  have hE : Edited { forces := [.del l] } (m.buildC as).1
      { (m.buildC as).1 with forces := some (tabF wf (w.forces.filter fun b => b.node ≠ l)) } := by
    refine ⟨rfl, rfl, ?_, rfl, rfl⟩
    rw [t3]
    simp only [forceOps, List.foldlM_cons, List.foldlM_nil, delForce_tab, py_bind_ok, py_pure]
  have hV : (u.filled.edited { forces := [.del l] }).forces = u.forces.filter (fun b => b.node ≠ l) ++
      (u.nodes.filter fun n => !(u.forces.map (·.node)).contains n.label).map
        fun n => ⟨n.label, List.replicate (loadWidth u.forces) 0⟩ := by
    show (u.forces ++ _).filter (fun b => decide (b.node ≠ l)) = _
    rw [List.filter_append]
    congr 1
    refine List.filter_eq_self.2 ?_
    intro b hb
    obtain ⟨n, hn, rfl⟩ := List.mem_map.1 hb
    simpa using hl' n (List.mem_filter.1 hn).1
  have hwd : loadWidth u.forces = loadWidth (u.forces.filter fun b => b.node ≠ l) := by
    obtain ⟨f, hfm⟩ := List.exists_mem_of_ne_nil _ hf
    have hF := hu.2.2
    cases hmf : m.forces with
    | none =>
      rw [hmf] at hF
      cases hc : u.forces with
      | nil => exact absurd hc hf0
      | cons a b => rw [hc, addForces_none] at hF; simp at hF
    | some t =>
      rw [hmf] at hF
      obtain ⟨_, _, a3, a4⟩ := addForces_tab hF
      cases hc : u.forces.filter (fun b => decide (b.node ≠ l)) with
      | nil => exact absurd hc hf
      | cons a r =>
        have ha : a ∈ u.forces := (List.mem_filter.1 (show a ∈ u.forces.filter (fun b => decide (b.node ≠ l)) by rw [hc]; simp)).1
        rw [← a3]
        exact (a4 a ha).symm
  obtain ⟨m3, h3, hall⟩ := C97_correct_and_build has has' has'' hu hnd hlen hw hf0 hel hdim hE hnd hlen (by
    rw [hV]
    intro h0
    exact hf (List.append_eq_nil_iff.1 h0).1) (by
    refine ⟨?_, ?_, ?_, ?_⟩
    · exact filled_rest (fun b : BoundU => b.node) (fun n : Node F => n.label) _ (fun _ => rfl) hns.bnd hnd _
        (fun x hx => hx)
    · intro b hb
      rcases List.mem_append.1 hb with hb | hb
      · exact hns.bsub b hb
      · obtain ⟨n, hn, rfl⟩ := List.mem_map.1 hb
        exact ⟨n, (List.mem_filter.1 hn).1, rfl⟩
    · rw [hV]
      exact filled_rest (fun b : ExtForce F => b.node) (fun n : Node F => n.label) _ (fun _ => rfl) hns.fnd hnd _
        (fun x hx => (List.mem_filter.1 hx).1)
    · rw [hV]
      intro b hb
      rcases List.mem_append.1 hb with hb | hb
      · exact hns.fsub b hb
      · obtain ⟨n, hn, rfl⟩ := List.mem_map.1 hb
        exact ⟨n, (List.mem_filter.1 hn).1, rfl⟩)
  refine ⟨_, m3, hE, h3, fun hm' he hs => hall hm' ⟨.refl _, ?_, ?_⟩ hns hf he hs⟩
  · intro n _
    refine supportOf_append _ _ ?_ _
    intro x hx
    obtain ⟨n, _, rfl⟩ := List.mem_map.1 hx
    rfl
  · intro n _
    rw [hV]
    refine loadOf_append _ _ hf ?_ _
    intro x hx
    obtain ⟨n, _, rfl⟩ := List.mem_map.1 hx
    rw [hwd]

end

/-! ### Examples -/

/-- Three nodes, a second support call with two values only (raises), then the right one. -/
def exRaised : UserInput ℚ where
  nodes := [⟨3, [8, 0, 0]⟩, ⟨1, [0, 0, 0]⟩, ⟨2, [4, 0, 3]⟩]
  bounds := [⟨3, [0, 0, 0]⟩, ⟨1, [0, 0]⟩, ⟨1, [0, 0, 0]⟩]
  forces := [⟨2, [0, 0, -1]⟩]

/-- The handlers after these calls: three labels, two rows. -/
def exRaisedModel : Model ℚ where
  nodes := some ⟨[3, 1, 2], ⟨3, [[8, 0, 0], [0, 0, 0], [4, 0, 3]]⟩⟩
  elems := some exElems
  bounds := some ⟨[3, 1, 1], .d2 ⟨3, [[0, 0, 0], [0, 0, 0]]⟩⟩
  forces := some ⟨[2], ⟨3, [[0, 0, -1]]⟩⟩
  settings := exSettings

/-- A raised support call: the model is refused (`IndexError`). -/
example : EnteredCaught exRaised exRaisedModel ∧ ¬ Entered exRaised exRaisedModel ∧
    showTabsR (exRaisedModel.build refArgsort) = .error .indexError :=
  ⟨⟨by decide +kernel, by decide +kernel, by decide +kernel⟩, fun h => by
    have := h.2.1
    revert this
    decide +kernel, by decide +kernel⟩

/-- Hypotheses of `C96_raised_is_refused_partial`: the structure of the examples, no call raised, `build` succeeds. -/
example : EnteredCaught exInput exModel ∧ (∃ m1, exModel.build refArgsort = .ok m1) ∧
    ∃ a b r, exInput.bounds = a :: r ∧ b ∈ r ∧ b.values.length = a.values.length :=
  ⟨⟨by decide +kernel, by decide +kernel, by decide +kernel⟩, exBuild_ok, ⟨3, [0, 0, 0]⟩, ⟨1, [0, 0, 0]⟩, [⟨1, [0, 0, 0]⟩],
    rfl, by simp, rfl⟩

/-- A raised `add_element` (two geometric properties instead of one). -/
example : ∃ t : ElemTab ℚ, ([⟨1, [1, 2], 1, 1, ⟨false, [1]⟩, ⟨false, [1]⟩⟩,
      ⟨2, [2, 3], 1, 1, ⟨false, [1]⟩, ⟨false, [1, 1]⟩⟩] : List (Elem ℚ)).foldl (fun h n => (addElemC h n).1) none = some t ∧
    t.labels = [1, 2] ∧ t.conns.rows.length = 2 ∧ t.gprop.rows.length = 1 ∧
    addElems none ([⟨1, [1, 2], 1, 1, ⟨false, [1]⟩, ⟨false, [1]⟩⟩, ⟨2, [2, 3], 1, 1, ⟨false, [1]⟩, ⟨false, [1, 1]⟩⟩] : List (Elem ℚ)) =
      .error .valueError :=
  ⟨_, rfl, rfl, rfl, rfl, rfl⟩

/-- A wrong coordinate list, entered again and deleted. -/
example : ∃ c1 bad c2 c3 : List ℚ, c2.length = c1.length ∧ c3.length = c1.length ∧ bad.length ≠ c1.length :=
  ⟨[0, 0, 0], [4, 0], [4, 0, 3], [8, 0, 0], rfl, rfl, by decide⟩

/-- The example with a support for node 9. -/
def exStrayInput : UserInput ℚ where
  nodes := exInput.nodes
  bounds := exInput.bounds ++ [⟨9, [0, 0, 0]⟩]
  forces := exInput.forces

def exStrayModel : Model ℚ where
  nodes := exModel.nodes
  elems := exModel.elems
  bounds := some ⟨[3, 1, 9], .d2 ⟨3, [[0, 0, 0], [0, 0, 0], [0, 0, 0]]⟩⟩
  forces := exModel.forces
  settings := exSettings

/-- `build` refuses the support for node 9; the tables are completed and sorted nevertheless; without the row the
model builds. -/
example : (exStrayModel.buildC refArgsort).2 = .error .valueError ∧
    showTabs (exStrayModel.buildC refArgsort).1 = ⟨[1, 2, 3],
      some ⟨[1, 2, 3, 9], .d2 ⟨3, [[0, 0, 0], [1, 1, 1], [0, 0, 0], [0, 0, 0]]⟩⟩, [1, 2, 3], [[0, 0, 0], [0, 0, -1], [0, 0, 0]]⟩ := by
  decide +kernel

/-- Hypotheses of `C97_remove_stray_support` (and of `C97_correct_and_build` with this correction). -/
example : Entered exStrayInput exStrayModel ∧ (exStrayInput.nodes.map (·.label)).Nodup ∧
    (∀ b ∈ exStrayInput.bounds, b.values.length = 3) ∧ exStrayInput.forces ≠ [] ∧ exStrayModel.elems ≠ none ∧
    exStrayModel.settings.ndim = 3 ∧ (∃ b ∈ exStrayInput.bounds, b.node = 9) ∧ (∀ n ∈ exStrayInput.nodes, n.label ≠ 9) ∧
    NoStray (F := ℚ) ⟨exStrayInput.nodes, exStrayInput.bounds.filter (fun b => b.node ≠ 9), exStrayInput.forces⟩ :=
  ⟨by unfold Entered; decide +kernel, by decide, by decide, by decide, by simp [exStrayModel, exModel], rfl, by decide,
    by decide, ⟨by decide, by decide, by decide, by decide⟩⟩

end TrussPy
