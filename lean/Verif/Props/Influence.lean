import Verif.Lemmas.Influence
import Verif.ExamplesRun
/-!
# Input without influence on a run (C121)
-/

set_option linter.unusedSectionVars false

namespace TrussPy

variable {F : Type} [Zero F] [One F] [Add F] [Sub F] [Mul F] [Div F] [Neg F] [Flt F]

/-- **C121.** Two models with the same settings, nodes and supports.  Their elements agree in label, nodes, material type, area and
the material properties read by the law; element types and further properties may differ.  Their loads agree, in the analysed
steps, on the components that are not supported; loads on supported components and load columns for later steps may differ.  Both
runs raise the same error or both give the same results: displacements, stretches, forces, stresses, state variables, load factors,
status and the residual on the active degrees of freedom.  For every number type, solver and argument `fuel`. -/
theorem C121_no_influence {as : List Int → List Nat} (has : IsArgsort as) {u u' : UserInput F} {es es' : List (Elem F)}
    {m m' m1 m1' : Model F} (hu : Entered u m) (hu' : Entered u' m') (he : EnteredElems es m) (he' : EnteredElems es' m')
    (hnd : (u.nodes.map (·.label)).Nodup) (h2 : 2 ≤ u.nodes.length) (hsup : ∀ b ∈ u.bounds, b.values.length = 3)
    (hE : List.Forall₂ Elem.SameUse es es') (hL : u.SameFreeLoads m.settings.nsteps u')
    (hw : 3 * m.settings.nsteps ≤ loadWidth u.forces) (hw' : 3 * m.settings.nsteps ≤ loadWidth u'.forces)
    (hset : m'.settings = m.settings) (hb : m.build as = .ok m1) (hb' : m'.build as = .ok m1') (env : Env F) (fuel : Nat) :
    Alike Model.SameButSupports (m1.run env fuel) (m1'.run env fuel) := by
  have hnodes : m'.nodes = m.nodes := by
    have := hu'.1
    rw [hL.nodes, hu.1] at this
    exact (Except.ok.inj this).symm
  have hbounds : m'.bounds = m.bounds := by
    have := hu'.2.1
    rw [hL.bounds, hu.2.1] at this
    exact (Except.ok.inj this).symm
  obtain ⟨s⟩ := build_steps hb
  obtain ⟨s'⟩ := build_steps hb'
  obtain ⟨c1, c2, c3, c4, c5, ⟨w, c6, c7⟩, c8, c9, c10, c11, c12⟩ := build_closed has hu hnd h2 s
  obtain ⟨d1, d2, d3, d4, d5, ⟨w', d6, d7⟩, d8, d9, d10, d11, d12⟩ :=
    build_closed has hu' (by rw [hL.nodes]; exact hnd) (by rw [hL.nodes]; exact h2) s'
  have hnt0 : s'.nt0 = s.nt0 := by
    have := s'.hn
    rw [hnodes, s.hn] at this
    exact (Option.some.inj this).symm
  have hnt : s'.nt = s.nt := by
    have := s'.hfn
    rw [hnt0, s.hfn] at this
    exact (Except.ok.inj this).symm
  have hbt : s'.bt = s.bt := by
    have := s'.hfb
    rw [hnt, hbounds, s.hfb] at this
    exact (Except.ok.inj this).symm
  have hd0 : s'.dof0 = s.dof0 := by
    have := s'.hd0
    rw [hnt0, hbt, s.hd0] at this
    exact (Except.ok.inj this).symm
  have hd1 : s'.dof1 = s.dof1 := by
    have := s'.hd1
    rw [hnt0, hbt, s.hd1] at this
    exact (Except.ok.inj this).symm
  have he1 : addElems none es = .ok (some s.et) := by rw [← s.he]; exact he
  have he2 : addElems none es' = .ok (some s'.et) := by rw [← s'.he]; exact he'
  have hlab : s'.et.labels = s.et.labels := by
    rw [(addElems_tab he1).1, (addElems_tab he2).1]
    clear he1 he2 he he'
    induction hE with
    | nil => rfl
    | cons a _ ih => simp only [List.map_cons, a.label, ih]
  have hty : s'.et.mtype = s.et.mtype := by
    rw [(addElems_tab he1).2.2.2.1, (addElems_tab he2).2.2.2.1]
    clear he1 he2 he he'
    induction hE with
    | nil => rfl
    | cons a _ ih => simp only [List.map_cons, a.mtype, ih]
  have hdof : s.dof1 = whereEq (s.nt.labels.map (supportOf u.bounds)).flatten 1 := by
    have := (dofWhere_ok_iff.1 s.hd1).1
    rw [c6] at this
    exact this
  have hrows : RowsAgree s.dof1 m.settings.nsteps s.ft.forces.rows s'.ft.forces.rows := by
    rw [hdof, c9, d9, hnt]
    refine hL.rows (fun l hl => (c1.mem_iff.1 hl)) hsup ?_ ?_
    · intro l hl
      rw [c10 l hl]
      exact hw
    · intro l hl
      rw [d10 l (by rw [hnt]; exact hl)]
      exact hw'
  have hs1 := s.hm'
  have hs2 := s'.hm'
  rw [hnt0, hnt, hbt, hd0, hd1, hlab, hty, hset] at hs2
  have hC : Ctx.SameUse
      (⟨s.nt, s.et, s.nt0.labels.length, s.dof1.length, if s.et.mtype.contains 2 then 2 else m.settings.nstatev⟩ : Ctx F)
      ⟨s.nt, s'.et, s.nt0.labels.length, s.dof1.length, if s.et.mtype.contains 2 then 2 else m.settings.nstatev⟩ :=
    ⟨rfl, rfl, rfl, rfl, es, es', he1, he2, hE⟩
  unfold Model.run
  rw [hs1, hs2]
  dsimp only
  split
  · exact .error _
  · simp only [Model.ctx, Option.pure_def, Option.bind_eq_bind, Option.bind_some, dupFirst, addIncrement, List.nil_append,
      py_bind_ok, s'.he, s.he]
    refine (steps_agree (dofs := s.dof1) hC env fuel _ hrows ?_).bind ?_
    · refine ⟨⟨_, _, rfl⟩, rfl, fun _ _ => rfl, rfl, ?_⟩
      exact .cons ⟨rfl, fun _ _ => rfl⟩ (.cons ⟨rfl, fun _ _ => rfl⟩ .nil)
    · intro st st' h
      refine .ok ⟨st.2.R, st'.2.R, st.2.stepLpfEnd, rfl, ?_, h.recs⟩
      rw [← h.ends]

/-- The bar of the examples with another element type, further properties, loads on the fixed node 1 and on the supported
components of node 2, and a load for a third step. -/
def exFreeModel (ty : Int) (mat : List ℚ) : Model ℚ :=
  { exBarModel ty mat with
    elems := some ⟨[1], ⟨2, [[1, 2]]⟩, [7], [ty], ⟨false, (mat ++ [99]).length, [mat ++ [99]]⟩, ⟨false, 2, [[1, 5]]⟩⟩
    forces := some ⟨[2, 1], ⟨9, [[1, 3, 4, 2, 5, 6, 100, 100, 100], [5, 6, 7, 8, 9, 1, 2, 3, 4]]⟩⟩ }

/-- Entered data of both models. -/
def exFreeInput : UserInput ℚ where
  nodes := [⟨1, [0, 0, 0]⟩, ⟨2, [1, 0, 0]⟩]
  bounds := [⟨1, [0, 0, 0]⟩, ⟨2, [1, 0, 0]⟩]
  forces := [⟨2, [1, 0, 0, 2, 0, 0]⟩]

def exFreeInput' : UserInput ℚ :=
  { exFreeInput with forces := [⟨2, [1, 3, 4, 2, 5, 6, 100, 100, 100]⟩, ⟨1, [5, 6, 7, 8, 9, 1, 2, 3, 4]⟩] }

/-- The hypotheses of C121 hold for the elastic bar. -/
example : Entered exFreeInput (exBarModel 1 [1]) ∧ Entered exFreeInput' (exFreeModel 1 [1]) ∧
    EnteredElems [⟨1, [1, 2], 1, 1, ⟨false, [1]⟩, ⟨false, [1]⟩⟩] (exBarModel 1 [1]) ∧
    EnteredElems [⟨1, [1, 2], 7, 1, ⟨false, [1, 99]⟩, ⟨false, [1, 5]⟩⟩] (exFreeModel 1 [1]) ∧
    List.Forall₂ Elem.SameUse [(⟨1, [1, 2], 1, 1, ⟨false, [1]⟩, ⟨false, [1]⟩⟩ : Elem ℚ)] [⟨1, [1, 2], 7, 1, ⟨false, [1, 99]⟩, ⟨false, [1, 5]⟩⟩] ∧
    exFreeInput.SameFreeLoads 2 exFreeInput' ∧ 3 * 2 ≤ loadWidth exFreeInput.forces ∧ 3 * 2 ≤ loadWidth exFreeInput'.forces ∧
    (exFreeModel 1 [1]).settings = (exBarModel 1 [1]).settings ∧ (exBarModel 1 [1]).settings.nsteps = 2 ∧
    ((exBarModel 1 [1]).build refArgsort).toBool = true ∧ ((exFreeModel 1 [1]).build refArgsort).toBool = true := by
  refine ⟨by unfold Entered; decide +kernel, by unfold Entered; decide +kernel, by unfold EnteredElems; decide +kernel,
    by unfold EnteredElems; decide +kernel,
    .cons ⟨rfl, rfl, rfl, rfl, fun h => absurd rfl h, rfl⟩ .nil, ⟨rfl, rfl, ?_⟩, by decide, by decide, rfl, rfl,
    by decide +kernel, by decide +kernel⟩
  intro n hn q hq h
  have : q = 0 ∨ q = 1 ∨ q = 2 ∨ q = 3 ∨ q = 4 ∨ q = 5 := by omega
  simp only [exFreeInput, List.mem_cons, List.not_mem_nil, or_false] at hn
  rcases hn with rfl | rfl <;> rcases this with rfl | rfl | rfl | rfl | rfl | rfl <;> revert h <;> decide +kernel

/-- Both runs, computed: displacements, element forces and load factors are the same and not trivial; the residuals differ at the
supports and agree on the active degree of freedom 3. -/
example : showR (fun a => (a.U, a.elementForce, a.lpf)) (buildRun 1 (exFreeModel 1 [1])) =
      showR (fun a => (a.U, a.elementForce, a.lpf)) (buildRun 1 (exBarModel 1 [1])) ∧
    showR (fun a => a.elementForce) (buildRun 1 (exBarModel 1 [1])) ≠ .ok [] ∧
    showR (fun a => a.g) (buildRun 1 (exFreeModel 1 [1])) ≠ showR (fun a => a.g) (buildRun 1 (exBarModel 1 [1])) ∧
    showR (fun a => a.g[3]?) (buildRun 1 (exFreeModel 1 [1])) = showR (fun a => a.g[3]?) (buildRun 1 (exBarModel 1 [1])) := by
  decide +kernel

/-- A load on the free component does change the run. -/
example : showR (fun a => a.lpf) (buildRun 1 { exBarModel 1 [1] with forces := some ⟨[2], ⟨6, [[3, 0, 0, 2, 0, 0]]⟩⟩ }) ≠
    showR (fun a => a.lpf) (buildRun 1 (exBarModel 1 [1])) := by
  decide +kernel

end TrussPy
