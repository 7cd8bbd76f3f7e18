import Verif.Lemmas.Relabel
import Verif.Lemmas.Build
import Verif.ExamplesRun
/-!
# C65: labels are mere names
-/

set_option linter.unusedSectionVars false

namespace TrussPy

variable {F : Type} [Zero F] [One F] [Add F] [Sub F] [Mul F] [Div F] [Neg F] [Flt F]

theorem supportOf_relabel {f : Int → Int} (hf : Function.Injective f) (u : UserInput F) (l : Int) :
    supportOf (u.relabel f).bounds (f l) = supportOf u.bounds l := by
  unfold supportOf UserInput.relabel
  simp only [List.find?_map]
  have : ((fun b : BoundU => b.node == f l) ∘ fun b : BoundU => (⟨f b.node, b.values⟩ : BoundU)) =
      fun b => b.node == l := by
    funext b
    simp [hf.eq_iff]
  rw [this]
  cases u.bounds.find? fun b => b.node == l <;> rfl

theorem loadWidth_relabel (f : Int → Int) (u : UserInput F) :
    loadWidth (u.relabel f).forces = loadWidth u.forces := by
  unfold loadWidth UserInput.relabel
  cases u.forces <;> rfl

theorem loadOf_relabel {f : Int → Int} (hf : Function.Injective f) (u : UserInput F) (l : Int) :
    loadOf (u.relabel f).forces (f l) = loadOf u.forces l := by
  unfold loadOf
  rw [loadWidth_relabel]
  unfold UserInput.relabel
  simp only [List.find?_map]
  have : ((fun b : ExtForce F => b.node == f l) ∘ fun b : ExtForce F => (⟨f b.node, b.force⟩ : ExtForce F)) =
      fun b => b.node == l := by
    funext b
    simp [hf.eq_iff]
  rw [this]
  cases u.forces.find? fun b => b.node == l <;> rfl

theorem coordOf_relabel {f : Int → Int} (hf : Function.Injective f) (u : UserInput F) (l : Int) :
    coordOf (u.relabel f).nodes (f l) = coordOf u.nodes l := by
  unfold coordOf UserInput.relabel
  simp only [List.find?_map]
  have : ((fun b : Node F => b.label == f l) ∘ fun b : Node F => (⟨f b.label, b.coord⟩ : Node F)) =
      fun b => b.label == l := by
    funext b
    simp [hf.eq_iff]
  rw [this]
  cases u.nodes.find? fun b => b.label == l <;> rfl

theorem relabel_labels (f : Int → Int) (u : UserInput F) :
    (u.relabel f).nodes.map (·.label) = (u.nodes.map (·.label)).map f := by
  simp [UserInput.relabel, Function.comp_def]

theorem relabel_bnodes (f : Int → Int) (u : UserInput F) :
    (u.relabel f).bounds.map (·.node) = (u.bounds.map (·.node)).map f := by
  simp [UserInput.relabel, Function.comp_def]

theorem relabel_fnodes (f : Int → Int) (u : UserInput F) :
    (u.relabel f).forces.map (·.node) = (u.forces.map (·.node)).map f := by
  simp [UserInput.relabel, Function.comp_def]

/-- **C65** Renaming all nodes in a way that keeps their order and all elements in any way that keeps them distinct gives
a model that builds too, with the same degrees of freedom, and every run of it ends with the same exception or with the
same analysis object and the same results. -/
theorem C65_labels_are_names {as1 as2 : List Int → List Nat} (h1 : IsArgsort as1) (h2 : IsArgsort as2) {f h : Int → Int}
    (hf : StrictMono f) (hh : Function.Injective h) {u : UserInput F} {es : List (Elem F)} {m m' m1 : Model F}
    (hu : Entered u m) (he : EnteredElems es m) (hu' : Entered (u.relabel f) m')
    (he' : EnteredElems (es.map (Elem.relabel f h)) m') (hset : m'.settings = m.settings)
    (hnd : (u.nodes.map (·.label)).Nodup) (hlen : 2 ≤ u.nodes.length) (hb : m.build as1 = .ok m1) :
    ∃ m1', m'.build as2 = .ok m1' ∧ m1'.dims = m1.dims ∧ m1'.analysis = m1.analysis ∧ m1'.results = m1.results ∧
      ∀ env fuel, (m1'.run env fuel).map (fun x => (x.analysis, x.results)) =
        (m1.run env fuel).map fun x => (x.analysis, x.results) := by
  have hfi := hf.injective
  obtain ⟨s⟩ := build_steps hb
  obtain ⟨c1, c2, c3, c4, c5, ⟨w, c6, c7⟩, c8, c9, c10, c11, c12⟩ := build_closed h1 hu hnd hlen s
  have hnd2 : ((u.relabel f).nodes.map (·.label)).Nodup := by
    rw [relabel_labels]
    exact hnd.map hfi
  have hlen2 : 2 ≤ (u.relabel f).nodes.length := by simpa [UserInput.relabel] using hlen
  have hlen3 : (u.relabel f).nodes.length = u.nodes.length := by simp [UserInput.relabel]
  have hc2 : Consistent (u.relabel f) := by
    refine ⟨?_, ?_, ?_, ?_⟩
    · rw [relabel_bnodes]
      exact c11.bnd.map hfi
    · rw [relabel_bnodes, relabel_labels]
      exact List.map_subset _ c11.bsub
    · rw [relabel_fnodes]
      exact c11.fnd.map hfi
    · rw [relabel_fnodes, relabel_labels]
      exact List.map_subset _ c11.fsub
  have hne2 : (u.relabel f).forces ≠ [] := by
    simpa [UserInput.relabel] using c12
  have hsl : ∀ sl : List Int, sl.Perm ((u.relabel f).nodes.map (·.label)) → sl.Pairwise (· ≤ ·) →
      sl = s.nt.labels.map f := fun sl hp hs => by
    refine sorted_perm_eq (hp.trans ?_) hs ?_
    · rw [relabel_labels]
      exact (c1.map f).symm
    · rw [List.pairwise_map]
      exact c2.imp fun hab => (hf hab).le
  have hmap : (s.nt.labels.map f).map (supportOf (u.relabel f).bounds) = s.nt.labels.map (supportOf u.bounds) := by
    rw [List.map_map]
    exact List.map_congr_left fun l _ => supportOf_relabel hfi u l
  have hmapF : (s.nt.labels.map f).map (loadOf (u.relabel f).forces) = s.nt.labels.map (loadOf u.forces) := by
    rw [List.map_map]
    exact List.map_congr_left fun l _ => loadOf_relabel hfi u l
  have hmapC : (s.nt.labels.map f).map (coordOf (u.relabel f).nodes) = s.nt.labels.map (coordOf u.nodes) := by
    rw [List.map_map]
    exact List.map_congr_left fun l _ => coordOf_relabel hfi u l
  have hflat : s.bt.values.flatten = (s.nt.labels.map (supportOf u.bounds)).flatten := by
    rw [c6]; rfl
  have d0 := dofWhere_ok_iff.1 s.hd0
  have d1 := dofWhere_ok_iff.1 s.hd1
  rw [hflat, c3] at d0 d1
  have het' : m'.elems = some (s.et.relabel f h) := by
    have := addElems_relabel f h es none
    rw [he, s.he] at this
    have h3 : addElems none (es.map (Elem.relabel f h)) = .ok (some (s.et.relabel f h)) := this
    rw [he'] at h3
    exact Except.ok.inj h3
  obtain ⟨m2', ⟨s2⟩⟩ := build_make h2 hu' hnd2 hlen2 het' (by rw [hset]; exact s.hdim) hc2 hne2 (w := w) (by
      intro l hl
      rw [relabel_labels] at hl
      obtain ⟨x, hx, rfl⟩ := List.mem_map.1 hl
      rw [supportOf_relabel hfi]
      exact c7 x (c1.mem_iff.2 hx)) (by
      intro sl hp hs v hv
      rw [hsl sl hp hs, hmap, hlen3]
      rcases hv with rfl | rfl
      · exact d0.2
      · exact d1.2)
  obtain ⟨e1, e2, e3, e4, e5, ⟨w2, e6, e7⟩, e8, e9, e10, e11, e12⟩ := build_closed h2 hu' hnd2 hlen2 s2
  have hlab : s2.nt.labels = s.nt.labels.map f := hsl _ e1 (e2.imp le_of_lt)
  have het : s2.et = s.et.relabel f h := by
    have := s2.he
    rw [het'] at this
    exact (Option.some.inj this).symm
  have hl : s2.nt0.labels.length = s.nt0.labels.length := by rw [c3, e3, hlen3]
  have hbf : s2.bt.values.flatten = s.bt.values.flatten := by
    rw [hflat, e6]
    show (s2.nt.labels.map _).flatten = _
    rw [hlab, hmap]
  have g0 : s2.dof0 = s.dof0 := by
    have a := s2.hd0; have b := s.hd0
    rw [hl, hbf, b] at a
    exact (Except.ok.inj a).symm
  have g1 : s2.dof1 = s.dof1 := by
    have a := s2.hd1; have b := s.hd1
    rw [hl, hbf, b] at a
    exact (Except.ok.inj a).symm
  have hrows : s2.ft.forces.rows = s.ft.forces.rows := by rw [c9, e9, hlab, ← hmapF]
  have hcoords : s2.nt.coords = s.nt.coords := by
    have n1 := hu.1
    have n2 := hu'.1
    rw [s.hn] at n1
    rw [s2.hn] at n2
    obtain ⟨p1, -⟩ := fixNodes_ok h1 n1 s.hfn
    obtain ⟨q1, -⟩ := fixNodes_ok h2 n2 s2.hfn
    have hcols : s2.nt.coords.cols = s.nt.coords.cols := by
      obtain ⟨a1, a2, a3⟩ := addNodes_tab n1
      obtain ⟨b1, b2, b3⟩ := addNodes_tab n2
      obtain ⟨x, hx⟩ := List.exists_mem_of_length_pos (l := u.nodes) (by omega)
      have hx' : (⟨f x.label, x.coord⟩ : Node F) ∈ (u.relabel f).nodes := List.mem_map.2 ⟨x, hx, rfl⟩
      rw [p1, q1, ← a3 x hx, ← b3 _ hx']
    have hr : s2.nt.coords.rows = s.nt.coords.rows := by rw [c4, e4, hlab, hmapC]
    cases hx : s2.nt.coords; cases hy : s.nt.coords
    simp_all
  have hmt : s2.et.mtype = s.et.mtype := by rw [het]; rfl
  have hel : s2.et.labels.length = s.et.labels.length := by rw [het]; simp [ElemTab.relabel]
  have q1 : m2'.dims = m1.dims := by
    refine (congrArg Model.dims s2.hm').trans (Eq.trans ?_ (congrArg Model.dims s.hm').symm)
    simp only [hl, hel, g0, g1]
  have q2 : m2'.analysis = m1.analysis := by
    refine (congrArg Model.analysis s2.hm').trans (Eq.trans ?_ (congrArg Model.analysis s.hm').symm)
    simp only [hl, hel, g0, g1, hmt, hset]
  have q3 : m2'.results = m1.results := by
    refine (congrArg Model.results s2.hm').trans (Eq.trans ?_ (congrArg Model.results s.hm').symm)
    simp only [hl, hel, g0, g1, hmt, hset, hrows]
  have q4 : m2'.settings = m1.settings := by
    refine (congrArg Model.settings s2.hm').trans (Eq.trans ?_ (congrArg Model.settings s.hm').symm)
    simp only [hmt, hset]
  refine ⟨m2', build_of_steps s2, q1, q2, q3, fun env fuel => ?_⟩
  have hnt : m2'.nodes = some ⟨s.nt.labels.map f, s.nt.coords⟩ := by
    rw [← hlab, ← hcoords]
    exact congrArg Model.nodes s2.hm'
  have hctx : m1.ctx = some ⟨s.nt, s.et, s.nt0.labels.length, s.dof1.length, m1.settings.nstatev⟩ := by
    have a1 := congrArg Model.nodes s.hm'
    have a2 : m1.elems = some s.et := (congrArg Model.elems s.hm').trans s.he
    have a3 := congrArg Model.dims s.hm'
    unfold Model.ctx
    rw [a1, a2, a3]
    rfl
  have hctx' : m2'.ctx =
      some (Ctx.relabel f h ⟨s.nt, s.et, s.nt0.labels.length, s.dof1.length, m1.settings.nstatev⟩) := by
    have a2 : m2'.elems = some s2.et := (congrArg Model.elems s2.hm').trans s2.he
    have a3 := congrArg Model.dims s.hm'
    unfold Model.ctx
    rw [hnt, a2, q1, a3, q4, het]
    rfl
  exact run_congr hctx hctx' (modelProblem_relabel hfi hh _) q4 q2 q3
    (congrArg Model.forces s.hm') (congrArg Model.forces s2.hm') hrows env fuel

/-- The calls that enter the bar of the examples. -/
def exBarInput : UserInput ℚ where
  nodes := [⟨1, [0, 0, 0]⟩, ⟨2, [1, 0, 0]⟩]
  bounds := [⟨1, [0, 0, 0]⟩, ⟨2, [1, 0, 0]⟩]
  forces := [⟨2, [1, 0, 0, 2, 0, 0]⟩]

/-- The same bar with nodes -20 and 73 and element 99. -/
def exBarRenamed : Model ℚ := { exBarModel 1 [1] with
  nodes := some ⟨[-20, 73], ⟨3, [[0, 0, 0], [1, 0, 0]]⟩⟩
  elems := some ⟨[99], ⟨2, [[-20, 73]]⟩, [1], [1], ⟨false, 1, [[1]]⟩, ⟨false, 1, [[1]]⟩⟩
  bounds := some ⟨[-20, 73], .d2 ⟨3, [[0, 0, 0], [1, 0, 0]]⟩⟩
  forces := some ⟨[73], ⟨6, [[1, 0, 0, 2, 0, 0]]⟩⟩ }

/-- The hypotheses hold for the bar with nodes renamed 1 → -20, 2 → 73 and element 1 → 99, and the two runs of the renamed
model record the four results of the original one. -/
example : StrictMono (fun l : Int => 93 * l - 113) ∧ Function.Injective (fun l : Int => 100 - l) ∧
    Entered exBarInput (exBarModel 1 [1]) ∧ EnteredElems [⟨1, [1, 2], 1, 1, ⟨false, [1]⟩, ⟨false, [1]⟩⟩] (exBarModel 1 [1]) ∧
    Entered (exBarInput.relabel fun l : Int => 93 * l - 113) exBarRenamed ∧
    EnteredElems ([(⟨1, [1, 2], 1, 1, ⟨false, [1]⟩, ⟨false, [1]⟩⟩ : Elem ℚ)].map
      (Elem.relabel (fun l : Int => 93 * l - 113) fun l : Int => 100 - l)) exBarRenamed ∧
    showR (fun a => a.U) (buildRun 1 exBarRenamed) = showR (fun a => a.U) (buildRun 1 (exBarModel 1 [1])) ∧
    (showR (fun a => a.U) (buildRun 1 exBarRenamed)).map List.length = .ok 4 := by
  refine ⟨fun a b hab => by simp only; omega, fun a b hab => by simp only at hab; omega, ?_, ?_, ?_, ?_, ?_⟩
  · unfold Entered
    decide +kernel
  · unfold EnteredElems
    decide +kernel
  · unfold Entered
    decide +kernel
  · unfold EnteredElems
    decide +kernel
  · decide +kernel

end TrussPy
