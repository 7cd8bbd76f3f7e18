import Verif.Lemmas.SymmetryRun
import Verif.Props.TwoBarLinear
import Verif.Props.Congruent
import Verif.ExamplesRun
import Verif.ExamplesExact
/-!
# C122: symmetric structures under symmetric loads
-/

set_option linter.unusedSectionVars false

namespace TrussPy

variable {Q : M3 ℝ} {t : V3 ℝ} {ν : Int → Int} {π : Nat → Nat}

/-- **C122** A motion (reflection, rotation, ...) maps the structure, its supports and the loads of all steps to themselves.  Then
the model builds, and every run that returns, with any settings and elastic or plastic elements, has symmetric results only: each
recorded state is mapped to itself by the motion.  The linear solver must return solutions, and must not choose one of several. -/
theorem C122_symmetric_run {argsort : List Int → List Nat} (has : IsArgsort argsort) {u : UserInput ℝ} {es : List (Elem ℝ)}
    {m : Model ℝ} (hu : Entered u m) (he : EnteredElems es m) (hv : ValidInput u es m.settings.nsteps)
    (hdim : m.settings.ndim = 3) (hsym : Symmetry Q t ν π u es m.settings.nsteps) :
    ∃ m1, m.build argsort = .ok m1 ∧ ∀ (env : Env ℝ) fuel m2, UniqueSolver env → m1.run env fuel = .ok m2 →
      ∃ R ends, m2.results = some ⟨R, ends⟩ ∧ ∀ labels : List Int, labels.Perm (u.nodes.map (·.label)) →
        labels.Pairwise (· < ·) → ∀ a ∈ R, a.Symmetric Q ν π labels es.length := by
  obtain ⟨m1, labels, c, bars, dof0, dof1, ft, hb, B⟩ := hv.builtAs has hu he hdim
  refine ⟨m1, hb, ?_⟩
  intro env fuel m2 henv hrun
  obtain ⟨τ, hτ⟩ := hsym.positions B.perm B.sorted
  have hbl : bars.length = es.length := B.meant.length_eq.symm
  have hS := hsym.symBars hv.posed.nodes B.sorted B.meant hτ
  have hN : c.nnodes = labels.length := by rw [B.isBars.nnodes, B.isLabels]
  have hsup : KeepsSupports Q τ dof1 := by
    rw [B.isDof1]
    exact hsym.supported B.perm hv.supports hτ
  have hana := B.analysis
  have hres := B.results
  have hbase := B.base
  rw [← hbl] at hana hres hbase
  have hnd : dof1.Nodup := hbase.fits.dofNodup
  have hlt : ∀ i ∈ dof1, i < 3 * labels.length := by
    intro i hi
    rw [← hN]
    exact hbase.fits.dof i hi
  have hns : m1.settings.nsteps = m.settings.nsteps := by rw [B.settings]
  have hL : SymLoads Q τ m.settings.nsteps ft.forces.rows := by
    have hw := B.width
    rw [B.rows] at hw ⊢
    exact hsym.loadRows B.perm hw hv.width hτ
  obtain ⟨c', a, res, ft', r0, rest, g1, g2, g3, g4, g5, -, -, -, -, -, -, -, outs, a1, R, le, o1, o2, o3⟩ := run_ok hrun
  rw [B.ctx] at g1
  cases g1
  rw [hana] at g2
  cases g2
  rw [hres] at g3
  cases g3
  rw [B.forces] at g4
  cases g4
  simp only [List.cons.injEq] at g5
  obtain ⟨rfl, rfl⟩ := g5
  obtain ⟨-, -, -, key⟩ := symmetric_steps hsym.orthogonal B.isBars hN hS B.complete hnd hlt B.ndof1.symm hsup henv
    (by rw [B.rows, List.length_map, hN]) B.width hv.width hL
    (fresh_symmetric B.ndof1.symm hS.perm _ _ _) hbase
    (by
      intro r hr
      simp only [List.mem_cons, List.not_mem_nil, or_false, or_self] at hr
      subst hr
      exact fresh_symmetric B.ndof1.symm hS.perm (some 0) [] _) o2 (by rw [o1, hns])
  have fin : ∀ labels' : List Int, labels'.Perm (u.nodes.map (·.label)) → labels'.Pairwise (· < ·) → ∀ a ∈ R,
      a.Symmetric Q ν π labels' es.length := by
    intro labels' hp hs a ha
    have hl : labels' = labels := sorted_perm_eq (hp.trans B.perm.symm) (hs.imp le_of_lt) (B.sorted.imp le_of_lt)
    rw [hl, ← hbl]
    exact (key a ha).symmetric B.sorted hτ
  rcases o3 with ⟨-, q1, -⟩ | ⟨-, q1, -⟩
  · exact ⟨_, _, q1, fin⟩
  · exact ⟨_, _, q1, fun l hp hs a ha => fin l hp hs a (List.mem_of_mem_dropLast ha)⟩

/-- **C122** If the motion is a reflection in direction `d`, then in symmetric states the nodes on the mirror plane (those which
are their own images) stay there, and no internal or residual force at them points out of it. -/
theorem C122_mirror_plane {labels : List Int} {n : Nat} {a : Analysis ℝ} (h : a.Symmetric Q ν π labels n) {d : Fin 3}
    (hQ : ∀ e, Q d e = if e = d then -1 else 0) {i : Nat} {l : Int} (hi : labels[i]? = some l) (hl : ν l = l) :
    row3 a.U i d = 0 ∧ a.r.getD i 0 d = 0 ∧ row3 a.g i d = 0 := by
  have key : ∀ v : V3 ℝ, v = mulVec3 Q v → v d = 0 := by
    intro v hv
    have h1 : v d = mulVec3 Q v d := congrFun hv d
    unfold mulVec3 at h1
    rw [hQ, hQ, hQ] at h1
    fin_cases d <;> simp at h1 ⊢ <;> linarith
  obtain ⟨h1, h2, h3⟩ := h.nodes i i l hi (by rw [hl]; exact hi)
  exact ⟨key _ h1, key _ h2, key _ h3⟩

/-! ## Examples -/

theorem uniqueEnv_unique : UniqueSolver uniqueEnv := by
  intro A b x h
  unfold uniqueEnv at h
  simp only at h
  split at h
  · next hx =>
    cases h
    obtain ⟨h1, h2⟩ := hx.choose_spec
    refine ⟨h1.2, fun y hy hA => h2 y ⟨by rw [hy, h1.1], hA⟩⟩
  · cases h

/-- The solver returns for all regular systems. -/
theorem uniqueEnv_regular (n : Nat) : SolvesRegular uniqueEnv.spsolve n := by
  intro K b hK hrow hdet hb
  have h : ∃! x : List ℝ, x.length = b.length ∧ matVec K x = b := by
    obtain ⟨x, -, x1, x2⟩ := exactEnv_solves n K b hK hrow hdet hb
    refine ⟨x, ⟨by rw [x1, hb], x2⟩, ?_⟩
    rintro y ⟨y1, y2⟩
    obtain ⟨v, rfl⟩ := exists_ofFn x1
    obtain ⟨w, rfl⟩ := exists_ofFn (y1.trans hb)
    rw [matVec_ofFn hK hrow] at x2 y2
    have h1 : (matOf n K).mulVec w = (matOf n K).mulVec v := List.ofFn_injective (y2.trans x2.symm)
    congr 1
    have h2 := congrArg (fun z => (matOf n K)⁻¹.mulVec z) h1
    simpa [Matrix.mulVec_mulVec, Matrix.nonsing_inv_mul _ hdet] using h2
  refine ⟨h.choose, ?_, by rw [h.choose_spec.1.1, hb], h.choose_spec.1.2⟩
  unfold uniqueEnv
  simp only
  rw [dif_pos h]

theorem uniqueEnv_argmax : ArgMax uniqueEnv := realEnv_argmax

/-- The two-bar truss, its apex free in its plane. -/
def syInput (w H : ℝ) : UserInput ℝ := { tbInput w H with bounds := [⟨1, [0, 0, 0]⟩, ⟨3, [0, 0, 0]⟩, ⟨2, [1, 0, 1]⟩] }

/-- The model after entering the input. -/
def syModel (w H E A : ℝ) (s : Settings ℝ) : Model ℝ :=
  { tbModel w H E A s with bounds := some ⟨[1, 3, 2], .d2 ⟨3, [[0, 0, 0], [0, 0, 0], [1, 0, 1]]⟩⟩ }

/-- Reflection in x. -/
def syQ : M3 ℝ := fun d e => if d = e then (if d = 0 then -1 else 1) else 0

theorem syValid (w H E A : ℝ) : ValidInput (syInput w H) (tbElems E A) 1 :=
  { tbValid w H E A with
    posed := { (tbValid w H E A).posed with }
    supports := by simp [syInput]
    supportsOnce := by simp [syInput]
    supportsAt := by simp [syInput, tbInput]
    free := by simp [syInput, tbInput, freeCount, supportOf] }

theorem syEntered (w H E A : ℝ) (s : Settings ℝ) : Entered (syInput w H) (syModel w H E A s) := by
  unfold Entered
  exact ⟨rfl, rfl, rfl⟩

/-- The reflection interchanges the supports and the bars. -/
theorem sySymmetry (w H E A : ℝ) : Symmetry syQ (fun _ => 0) (fun l => 4 - l) (fun k => 1 - k) (syInput w H) (tbElems E A) 1 where
  orthogonal := by
    intro c d
    fin_cases c <;> fin_cases d <;> simp [syQ]
  once := by
    intro n _ n' _ h
    omega
  nodes := by
    intro n hn
    simp only [syInput, tbInput, List.mem_cons, List.not_mem_nil, or_false] at hn
    rcases hn with rfl | rfl | rfl
    · refine ⟨⟨2, [0, 0, H]⟩, by simp [syInput, tbInput], rfl, fun d => ?_⟩
      fin_cases d <;> simp [mulVec3, syQ]
    · refine ⟨⟨3, [w, 0, 0]⟩, by simp [syInput, tbInput], rfl, fun d => ?_⟩
      fin_cases d <;> simp [mulVec3, syQ]
    · refine ⟨⟨1, [-w, 0, 0]⟩, by simp [syInput, tbInput], rfl, fun d => ?_⟩
      fin_cases d <;> simp [mulVec3, syQ]
  supports := by
    intro n hn c d hf hq
    have hcd : d = c := by
      by_contra h
      exact hq (if_neg h)
    subst hcd
    simp only [syInput, tbInput, List.mem_cons, List.not_mem_nil, or_false] at hn
    rcases hn with rfl | rfl | rfl
    · exact hf
    · have := hf.2
      fin_cases d <;> simp [syInput, supportOf] at this
    · have := hf.2
      fin_cases d <;> simp [syInput, supportOf] at this
  loads := by
    intro n hn s hs
    have : s = 0 := by omega
    subst this
    simp only [syInput, tbInput, List.mem_cons, List.not_mem_nil, or_false] at hn
    rcases hn with rfl | rfl | rfl <;> funext d <;> fin_cases d <;>
      simp [stepLoad, loadOf, loadWidth, syInput, tbInput, mulVec3, syQ]
  order := List.Perm.swap _ _ _
  elems := by
    intro k e h
    match k with
    | 0 => cases h; exact ⟨_, _, _, rfl, rfl, rfl, rfl, rfl, .inr rfl⟩
    | 1 => cases h; exact ⟨_, _, _, rfl, rfl, rfl, rfl, rfl, .inr rfl⟩
    | k + 2 => cases h

theorem syStiff {w H E A : ℝ} (hw : 0 < w) (hE : 0 < E) (hA : 0 < A) : StiffElems (syInput w H) (tbElems E A) := by
  have h := tbStiff (H := H) hw hE hA
  exact ⟨h.length, h.area, h.elastic, h.plastic⟩

theorem syStable {w H E A : ℝ} (hw : 0 < w) (hH : 0 < H) : KinematicallyStable (syInput w H) (tbElems E A) := by
  intro v hadm hin n hn d
  have h1 := hadm ⟨1, [-w, 0, 0]⟩ (by simp [syInput, tbInput])
  have h3 := hadm ⟨3, [w, 0, 0]⟩ (by simp [syInput, tbInput])
  have h2 := hadm ⟨2, [0, 0, H]⟩ (by simp [syInput, tbInput])
  have x1 := hin ⟨1, [1, 2], 1, 1, ⟨false, [E]⟩, ⟨false, [A]⟩⟩ (by simp [tbElems]) ⟨1, [-w, 0, 0]⟩ (by simp [syInput, tbInput])
    ⟨2, [0, 0, H]⟩ (by simp [syInput, tbInput]) rfl
  have x2 := hin ⟨2, [2, 3], 1, 1, ⟨false, [E]⟩, ⟨false, [A]⟩⟩ (by simp [tbElems]) ⟨2, [0, 0, H]⟩ (by simp [syInput, tbInput])
    ⟨3, [w, 0, 0]⟩ (by simp [syInput, tbInput]) rfl
  have a : ∀ d : Fin 3, v 1 d = 0 := fun d => h1 d (by fin_cases d <;> simp [syInput, supportOf])
  have b : ∀ d : Fin 3, v 3 d = 0 := fun d => h3 d (by fin_cases d <;> simp [syInput, supportOf])
  have c1 : v 2 1 = 0 := h2 1 (by simp [syInput, supportOf])
  simp only [inner3, a, b, c1] at x1 x2
  simp at x1 x2
  have c0 : v 2 0 = 0 := by
    have : w * v 2 0 = 0 := by linarith
    rcases mul_eq_zero.1 this with h | h
    · linarith
    · exact h
  have c2 : v 2 2 = 0 := by
    have : H * v 2 2 = 0 := by rw [c0] at x1; linarith
    rcases mul_eq_zero.1 this with h | h
    · linarith
    · exact h
  simp only [syInput, tbInput, List.mem_cons, List.not_mem_nil, or_false] at hn
  rcases hn with rfl | rfl | rfl
  · fin_cases d
    · exact c0
    · exact c1
    · exact c2
  · exact a d
  · exact b d

-- C122: all hypotheses hold for the two-bar truss, with any settings for one step
example (w H E A : ℝ) (s : Settings ℝ) (h3 : s.ndim = 3) (h1 : s.nsteps = 1) :
    ∃ m1, (syModel w H E A s).build refArgsort = .ok m1 ∧ ∀ fuel m2, m1.run uniqueEnv fuel = .ok m2 →
      ∃ R ends, m2.results = some ⟨R, ends⟩ ∧ ∀ a ∈ R, row3 a.U 1 0 = 0 ∧ a.elementForce[1]? = a.elementForce[0]? := by
  obtain ⟨m1, hb, key⟩ := C122_symmetric_run refArgsort_isArgsort (syEntered w H E A s) (tbEnteredElems w H E A s)
    (by show ValidInput _ _ s.nsteps; rw [h1]; exact syValid w H E A) h3
    (by show Symmetry _ _ _ _ _ _ s.nsteps; rw [h1]; exact sySymmetry w H E A)
  refine ⟨m1, hb, fun fuel m2 hrun => ?_⟩
  obtain ⟨R, ends, r1, r2⟩ := key uniqueEnv fuel m2 uniqueEnv_unique hrun
  refine ⟨R, ends, r1, fun a ha => ?_⟩
  have hs := r2 [1, 2, 3] (List.Perm.swap _ _ _) (by simp) a ha
  exact ⟨(C122_mirror_plane hs (d := 0) (fun e => by fin_cases e <;> simp [syQ]) (i := 1) rfl rfl).1, hs.force 0 (by simp [tbElems])⟩

-- such runs do return: load control with small increments meets the hypotheses of `C104_load_control_run`
example {w H E A : ℝ} (hw : 0 < w) (hH : 0 < H) (hE : 0 < E) (hA : 0 < A) :
    ValidInput (syInput w H) (tbElems E A) 1 ∧ StiffElems (syInput w H) (tbElems E A) ∧
      KinematicallyStable (syInput w H) (tbElems E A) ∧ UniqueSolver uniqueEnv ∧ SolvesRegular uniqueEnv.spsolve 3 ∧
      ArgMax uniqueEnv :=
  ⟨syValid w H E A, syStiff hw hE hA, syStable hw hH, uniqueEnv_unique, uniqueEnv_regular 3, uniqueEnv_argmax⟩

end TrussPy
