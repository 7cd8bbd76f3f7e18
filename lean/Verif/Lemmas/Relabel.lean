import Verif.Spec.Relabel
import Verif.Lemmas.Run
/-!
# Renaming nodes and elements changes no look-up
-/

set_option linter.unusedSectionVars false

namespace TrussPy

variable {F : Type} [Zero F] [One F] [Add F] [Sub F] [Mul F] [Div F] [Neg F] [Flt F]

theorem whereEq_map {f : Int → Int} (hf : Function.Injective f) (l : List Int) (x : Int) :
    whereEq (l.map f) (f x) = whereEq l x := by
  unfold whereEq
  rw [List.length_map]
  apply List.filter_congr
  intro i _
  rw [List.getElem?_map]
  cases l[i]? with
  | none => simp
  | some y => simp [hf.eq_iff]

/-- Table of elements with renamed labels. -/
def ElemTab.relabel (f h : Int → Int) (t : ElemTab F) : ElemTab F :=
  { t with labels := t.labels.map h, conns := ⟨t.conns.cols, t.conns.rows.map (List.map f)⟩ }

/-- What an evaluation reads, with renamed labels. -/
def Ctx.relabel (f h : Int → Int) (c : Ctx F) : Ctx F :=
  { c with nodes := ⟨c.nodes.labels.map f, c.nodes.coords⟩, elems := c.elems.relabel f h }

theorem addElem_relabel (f h : Int → Int) (o : Option (ElemTab F)) (e : Elem F) :
    addElem (o.map (ElemTab.relabel f h)) (e.relabel f h) =
      (addElem o e).map (Option.map (ElemTab.relabel f h)) := by
  cases o with
  | none => simp [addElem, ElemTab.relabel, Elem.relabel, Tab.ofRow, Except.map]
  | some t =>
    simp only [addElem, Option.map_some]
    unfold Tab.vstack
    by_cases h1 : e.conn.length = t.conns.cols
    · rw [if_pos h1, if_pos (by simpa [ElemTab.relabel, Elem.relabel] using h1)]
      simp only [py_bind_ok]
      show (t.mprop.vstack e.mprop >>= _) = _
      cases t.mprop.vstack e.mprop with
      | error x => rfl
      | ok mp =>
        simp only [py_bind_ok]
        show (t.gprop.vstack e.gprop >>= _) = _
        cases t.gprop.vstack e.gprop with
        | error x => rfl
        | ok gp =>
          simp only [py_bind_ok]
          simp [ElemTab.relabel, Elem.relabel, Except.map, pure, Except.pure]
    · rw [if_neg h1, if_neg (by simpa [ElemTab.relabel, Elem.relabel] using h1)]
      rfl

theorem addElems_relabel (f h : Int → Int) (es : List (Elem F)) (o : Option (ElemTab F)) :
    addElems (o.map (ElemTab.relabel f h)) (es.map (Elem.relabel f h)) =
      (addElems o es).map (Option.map (ElemTab.relabel f h)) := by
  unfold addElems
  induction es generalizing o with
  | nil => rfl
  | cons e es ih =>
    rw [List.map_cons, List.foldlM_cons, List.foldlM_cons, addElem_relabel]
    cases addElem o e with
    | error x => rfl
    | ok o' =>
      exact ih o'

theorem npTake_map {α β : Type} (g : α → β) (l : List α) (idx : List Nat) :
    npTake (l.map g) idx = (npTake l idx).map (List.map g) := by
  induction idx with
  | nil => rfl
  | cons i is ih =>
    unfold npTake
    rw [List.getElem?_map, ih]
    cases l[i]? with
    | none => rfl
    | some a =>
      cases npTake l is with
      | error e => rfl
      | ok as => rfl

theorem npFirst_map {α β : Type} (g : α → β) (l : List α) (idx : List Nat) :
    npFirst (l.map g) idx = (npFirst l idx).map g := by
  unfold npFirst
  rw [npTake_map]
  cases npTake l idx with
  | error e => rfl
  | ok as => cases as <;> rfl

theorem gatherRows_map {α : Type} {f : Int → Int} (hf : Function.Injective f) (g : List Nat → Py α)
    (labels ns : List Int) : gatherRows g (labels.map f) (ns.map f) = gatherRows g labels ns := by
  induction ns with
  | nil => rfl
  | cons n ns ih =>
    rw [List.map_cons]
    unfold gatherRows
    rw [whereEq_map hf, ih]

theorem firstIdx_map {f : Int → Int} (hf : Function.Injective f) (labels : List Int) (n : Int) :
    firstIdx (labels.map f) (f n) = firstIdx labels n := by
  unfold firstIdx
  rw [whereEq_map hf]

theorem truss_relabel {f h : Int → Int} (hf : Function.Injective f) (hh : Function.Injective h) (e : Int)
    (nodes : List Int) (Xn Un U0n rn : List (V3 F)) (labels elems : List Int) (stage : Stage)
    (statev : Option (List (List F))) (mp gp : List F) (umat : Umat) (a : Analysis F) :
    truss (h e) (nodes.map f) Xn Un U0n rn (labels.map f) (elems.map h) stage statev mp gp umat a =
      truss e nodes Xn Un U0n rn labels elems stage statev mp gp umat a := by
  match nodes with
  | [] => rfl
  | [_] => rfl
  | _ :: _ :: _ :: _ => rfl
  | [NA, NE] =>
    simp only [truss, List.map_cons, List.map_nil, whereEq_map hf, whereEq_map hh, firstIdx_map hf]

theorem elemStep_relabel {f h : Int → Int} (hf : Function.Injective f) (hh : Function.Injective h) (c : Ctx F)
    (stage : Stage) (write : Bool) (lpf : F) (Ured : List F) (st : Analysis F × Option Umat) (e : Int) :
    elemStep (c.relabel f h) stage write lpf Ured st (h e) = elemStep c stage write lpf Ured st e := by
  have hn : getNodes (c.relabel f h).elems (h e) = (getNodes c.elems e).map (List.map f) := by
    unfold getNodes
    rw [show (c.relabel f h).elems.labels = c.elems.labels.map h from rfl, whereEq_map hh]
    exact npFirst_map _ _ _
  have hm : getMaterialProperties (c.relabel f h).elems (h e) = getMaterialProperties c.elems e := by
    unfold getMaterialProperties
    rw [show (c.relabel f h).elems.labels = c.elems.labels.map h from rfl, whereEq_map hh]
    rfl
  have hg : getGeometricProperties (c.relabel f h).elems (h e) = getGeometricProperties c.elems e := by
    unfold getGeometricProperties
    rw [show (c.relabel f h).elems.labels = c.elems.labels.map h from rfl, whereEq_map hh]
    rfl
  have ht : getMaterialType (c.relabel f h).elems (h e) = getMaterialType c.elems e := by
    unfold getMaterialType
    rw [show (c.relabel f h).elems.labels = c.elems.labels.map h from rfl, whereEq_map hh]
    rfl
  unfold elemStep
  rw [hn, hm, hg, ht]
  cases getNodes c.elems e with
  | error x => rfl
  | ok ns =>
    simp only [Except.map, py_bind_ok]
    rw [show (c.relabel f h).nodes.labels = c.nodes.labels.map f from rfl,
      show (c.relabel f h).elems.labels = c.elems.labels.map h from rfl]
    simp only [gatherRows_map hf, truss_relabel (F := F) hf hh]
    rfl

theorem foldlM_map_congr {α β γ ε : Type} (g : γ → α → Except ε γ) (g' : γ → β → Except ε γ) (h : α → β)
    (hg : ∀ s a, g' s (h a) = g s a) (l : List α) (s : γ) : (l.map h).foldlM g' s = l.foldlM g s := by
  induction l generalizing s with
  | nil => rfl
  | cons a l ih =>
    rw [List.map_cons, List.foldlM_cons, List.foldlM_cons, hg]
    congr 1
    funext s'
    exact ih s'

theorem equilibrium_relabel {f h : Int → Int} (hf : Function.Injective f) (hh : Function.Injective h) (c : Ctx F)
    (a : Analysis F) (Ured U0red : List F) (stage : Stage) (write : Bool) :
    equilibrium (c.relabel f h) a Ured U0red stage write = equilibrium c a Ured U0red stage write := by
  unfold equilibrium
  have hs : splitV (c.relabel f h) a Ured U0red = splitV c a Ured U0red := rfl
  rw [hs]
  congr 1
  funext p
  obtain ⟨lpf, u, u0⟩ := p
  simp only [show (c.relabel f h).elems.labels = c.elems.labels.map h from rfl]
  simp only [foldlM_map_congr (elemStep c stage write lpf u) _ h (elemStep_relabel hf hh c stage write lpf u)]

theorem modelProblem_relabel {f h : Int → Int} (hf : Function.Injective f) (hh : Function.Injective h) (c : Ctx F) :
    modelProblem (c.relabel f h) = modelProblem c := by
  unfold modelProblem stiffness
  simp only [equilibrium_relabel (F := F) hf hh]

/-- Runs only depend on the evaluation of the structure, the loads, the settings and the state before. -/
theorem run_congr {m m' : Model F} {c c' : Ctx F} (hc : m.ctx = some c) (hc' : m'.ctx = some c')
    (hp : modelProblem c' = modelProblem c) (hs : m'.settings = m.settings) (ha : m'.analysis = m.analysis)
    (hr : m'.results = m.results) {ft ft' : ForceTab F} (hft : m.forces = some ft) (hft' : m'.forces = some ft')
    (hrows : ft'.forces.rows = ft.forces.rows) (env : Env F) (fuel : Nat) :
    (m'.run env fuel).map (fun x => (x.analysis, x.results)) = (m.run env fuel).map fun x => (x.analysis, x.results) := by
  unfold Model.run
  rw [hs, hc, hc', ha, hr, hft, hft']
  split
  · rfl
  · have hstep : runStep env fuel c' m.settings ft'.forces.rows = runStep env fuel c m.settings ft.forces.rows := by
      rw [hrows]
      funext st step
      unfold runStep
      rw [hp]
    cases m.analysis with
    | none => rfl
    | some a =>
      cases m.results with
      | none => rfl
      | some res =>
        simp only [hstep]
        cases dupFirst res.R with
        | error x => rfl
        | ok R =>
          simp only [py_bind_ok]
          cases (List.range m.settings.nsteps).foldlM (runStep env fuel c m.settings ft.forces.rows)
            ({ a with Vred := a.Ured ++ [0], lpf := some 0 }, ⟨R, res.stepLpfEnd⟩) with
          | error x => rfl
          | ok q => rfl

end TrussPy
