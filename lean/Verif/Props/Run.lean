import Verif.Lemmas.Run
import Verif.ExamplesRun
import Verif.Props.Input
import Verif.ExamplesReal
/-!
# C30, C40-C44, C47: complete runs, for every arithmetic and every linear solver

`m` is the model as entered, `m1` after `build`, `m2` after `run`.  The runs range over all input tables,
settings, numbers of steps and increments and all outcomes of the solver.
-/

set_option linter.unusedSectionVars false

namespace TrussPy

variable {F : Type} [Zero F] [One F] [Add F] [Sub F] [Mul F] [Div F] [Neg F] [Flt F]

/-! ## C41 -/

/-- **C41** (at least one step) After `build` and `run` the first result is the undeformed state and the others
are exactly the increments recorded by the path-following calls of the steps, in order.
Missing from the full statement: runs without any step, see `C41_no_steps_counterexample`. -/
theorem C41_result_list_layout_partial {argsort : List Int → List Nat} {env : Env F} {fuel : Nat} {m m1 m2 : Model F}
    (hb : m.build argsort = .ok m1) (hr : m1.run env fuel = .ok m2) (hn : 0 < m1.settings.nsteps) :
    ∃ c d res r0 outs, m1.ctx = some c ∧ m1.dims = some d ∧ m2.results = some res ∧
      RunCalls env fuel m1 c outs ∧ Undeformed d r0 ∧ res.R = r0 :: (recorded outs).map (·.a) ∧
      res.R.length = 1 + (outs.map (·.recs.length)).sum := by
  obtain ⟨c, d, r0, outs, h1, h2, h3, h4, h5, h6, h7, h8, h9, h10, res, h11, h12⟩ := run_summary hb hr
  rcases h12 with ⟨e, -⟩ | ⟨-, e⟩
  · omega
  · refine ⟨c, d, res, r0, outs, h1, h2, h11, h9, h6, e, ?_⟩
    rw [e]
    simp [recorded, List.length_flatMap, Nat.add_comm]

/-- **C41** Every run starts its results with the undeformed state. -/
theorem C41_first_result {argsort : List Int → List Nat} {env : Env F} {fuel : Nat} {m m1 m2 : Model F}
    (hb : m.build argsort = .ok m1) (hr : m1.run env fuel = .ok m2) :
    ∃ d res r0, m1.dims = some d ∧ m2.results = some res ∧ res.R.head? = some r0 ∧ Undeformed d r0 := by
  obtain ⟨c, d, r0, outs, h1, h2, h3, h4, h5, h6, h7, h8, h9, h10, res, h11, h12⟩ := run_summary hb hr
  refine ⟨d, res, r0, h2, h11, ?_, h6⟩
  rcases h12 with ⟨-, -, e⟩ | ⟨-, e⟩ <;> rw [e] <;> rfl

/-- A run without steps leaves two copies of the undeformed state. -/
theorem C41_no_steps_counterexample : showR (fun a => (a.U, a.lpf)) (buildRun 1
    { exBarModel 1 [1] with settings := { (exBarModel 1 [1]).settings with nsteps := 0 } }) =
    .ok [([0, 0, 0, 0, 0, 0], some 0), ([0, 0, 0, 0, 0, 0], some 0)] := by decide +kernel

/-- Two steps with two and one increments: the first is elastic, then the bar yields. -/
example : showR (fun a => (a.step, a.Ured, a.lpf)) (buildRun 1 (exBarModel 2 [1, 1, 3 / 8])) =
    .ok [(1, [0], some 0), (1, [1 / 4], some (1 / 4)), (1, [5 / 8], some (1 / 2)), (2, [9 / 8], some (1 / 8))] := by
  decide +kernel

/-! ## C30 -/

/-- **C30** Supports never move: in every result of a run all degrees of freedom that are not active have
displacement exactly zero. -/
theorem C30_supports_never_move {argsort : List Int → List Nat} {env : Env F} {fuel : Nat} {m m1 m2 : Model F}
    (hb : m.build argsort = .ok m1) (hr : m1.run env fuel = .ok m2) {d : Dims} (hd : m1.dims = some d) {res : Results F}
    (hres : m2.results = some res) : ∀ r ∈ res.R, r.U.length = d.ndof ∧
      ∀ i, i < d.ndof → i ∉ d.dof1 → r.U[i]? = some 0 := by
  obtain ⟨c, d', r0, outs, h1, h2, h3, h4, h5, h6, h7, h8, h9, h10, res', h11, h12⟩ := run_summary hb hr
  rw [hd] at h2; cases h2
  rw [hres] at h11; cases h11
  have hI : ∀ r ∈ r0 :: (recorded outs).map (·.a), Inv d c r := by
    intro r hr
    obtain ⟨k, hk⟩ := List.getElem?_of_mem hr
    cases k with
    | zero => cases hk; exact h7
    | succ k =>
      rw [List.getElem?_cons_succ, List.getElem?_map, Option.map_eq_some_iff] at hk
      obtain ⟨q, hq, rfl⟩ := hk
      have hk : k < (recorded outs).length := (List.getElem?_eq_some_iff.1 hq).1
      have hp : (r0 :: (recorded outs).map (·.a))[k]? =
          some ((r0 :: (recorded outs).map (·.a))[k]'(by simp; omega)) := List.getElem?_eq_getElem _
      exact (h8 k _ q hp hq).next
  intro r hr
  have : Inv d c r := by
    rcases h12 with ⟨-, -, e⟩ | ⟨-, e⟩
    · rw [e] at hr
      simp only [List.mem_cons, List.not_mem_nil, or_false, or_self] at hr
      rw [hr]; exact h7
    · rw [e] at hr; exact hI r hr
  rw [h5]
  exact ⟨by rw [this.fits.U, h3], this.U⟩

/-- **C30** The same in terms of what the user entered (distinct labels, at least two nodes, supports of three
components): the displacement component `k` of node `l` is zero in every result unless the support entered for
the node has a 1 there. -/
theorem C30_supported_components {argsort : List Int → List Nat} (has : IsArgsort argsort) {u : UserInput F}
    {env : Env F} {fuel : Nat} {m m1 m2 : Model F} (hu : Entered u m) (hnd : (u.nodes.map (·.label)).Nodup)
    (h2 : 2 ≤ u.nodes.length) (hw : ∀ b ∈ u.bounds, b.values.length = 3) (hb : m.build argsort = .ok m1)
    (hr : m1.run env fuel = .ok m2) {nt : NodeTab F} (hnt : m1.nodes = some nt) {res : Results F}
    (hres : m2.results = some res) {i : Nat} {l : Int} (hl : nt.labels[i]? = some l) {k : Nat} (hk : k < 3)
    (hs : (supportOf u.bounds l)[k]? ≠ some 1) : ∀ r ∈ res.R, r.U[3 * i + k]? = some 0 := by
  obtain ⟨nt', d, e1, e2, e3, e4, -⟩ := C06_degrees_of_freedom_partial has hu hnd h2 hw hb
  rw [hnt] at e1; cases e1
  obtain ⟨nt', g1, g2, g3, g4⟩ := C01_nodes_keep_coordinates has hu hnd hb
  rw [hnt] at g1; cases g1
  have hlen : nt.labels.length = u.nodes.length := by
    have := g4.length_eq
    rw [List.length_zip, ← g3, Nat.min_self, List.length_map] at this
    exact this
  have hi : i < nt.labels.length := (List.getElem?_eq_some_iff.1 hl).1
  intro r hr'
  refine (C30_supports_never_move hb hr e2 hres r hr').2 _ (by omega) ?_
  intro hm
  exact hs (((e4 i l hl k hk).1).1 hm)

/-- Five of the six displacement components of the example are locked; the free one moves. -/
example : showR (fun a => a.U) (buildRun 1 (exBarModel 1 [1])) = .ok [[0, 0, 0, 0, 0, 0], [0, 0, 0, 1 / 4, 0, 0],
    [0, 0, 0, 1 / 2, 0, 0], [0, 0, 0, 1, 0, 0]] := by decide +kernel

example : ∃ m1 d, (exBarModel 1 [1]).build refArgsort = .ok m1 ∧ m1.dims = some d ∧ d.ndof = 6 ∧ d.dof1 = [3] := by
  have h : ((exBarModel 1 [1]).build refArgsort).toOption.bind (·.dims) = some ⟨2, 1, 6, [0, 1, 2, 4, 5], [3]⟩ := by
    decide +kernel
  cases hb : (exBarModel 1 [1]).build refArgsort with
  | error e => rw [hb] at h; cases h
  | ok m1 => rw [hb] at h; exact ⟨m1, _, rfl, h, rfl, rfl⟩

/-! ## C40 -/

/-- **C40** State variables change only at accepted increments, and there every bar's row is replaced by the
material update of the row in the previous result, at the accepted displacements.  Trials and recycles leave no
trace. -/
theorem C40_committed_once {argsort : List Int → List Nat} {env : Env F} {fuel : Nat} {m m1 m2 : Model F}
    (hb : m.build argsort = .ok m1) (hr : m1.run env fuel = .ok m2) (hn : 0 < m1.settings.nsteps) :
    ∃ c res r0 outs, m1.ctx = some c ∧ m2.results = some res ∧ RunCalls env fuel m1 c outs ∧
      res.R = r0 :: (recorded outs).map (·.a) ∧
      ∀ (k : Nat) (p : Analysis F) (r : Rec F), res.R[k]? = some p → (recorded outs)[k]? = some r →
        (r.out ≠ .accepted → r.a.statev = p.statev) ∧
        (r.out = .accepted → ∀ bars, c.Bars bars → ∀ (i : Nat) (b : Bar F), bars[i]? = some b →
          ∀ old, stateRow c p.statev i = some old →
          ∃ new, stateRow c r.a.statev i = some new ∧ StateUpdate b r.a.U r.a.U0 old new) := by
  obtain ⟨c, d, r0, outs, h1, h2, h3, h4, h5, h6, h7, h8, h9, h10, res, h11, h12⟩ := run_summary hb hr
  rcases h12 with ⟨e, -⟩ | ⟨-, e⟩
  · omega
  · refine ⟨c, res, r0, outs, h1, h11, h9, e, ?_⟩
    intro k p r hp hr
    rw [e] at hp
    exact (h8 k p r hp hr).state

theorem commitTrace_snoc {mp : List F} (h : List (F × F)) : ∀ {sv : List F} {tr : List (List F)} {e de : F}
    {o : UmatOut F} {new : List F}, commitTrace mp sv h = .ok tr →
    umatElplastIso e de mp (some (tr.getLastD sv)) = .ok o → o.statev = some new →
    commitTrace mp sv (h ++ [(e, de)]) = .ok (tr ++ [new]) := by
  induction h with
  | nil =>
    intro sv tr e de o new h1 h2 h3
    cases h1
    show (do
      let o ← umatElplastIso e de mp (some sv)
      let sv' := o.statev.getD []
      let rest ← commitTrace mp sv' []
      return sv' :: rest) = _
    rw [show umatElplastIso e de mp (some sv) = .ok o from h2, py_bind_ok]
    simp only [h3, Option.getD_some]
    rfl
  | cons x h ih =>
    obtain ⟨e0, de0⟩ := x
    intro sv tr e de o new h1 h2 h3
    unfold commitTrace at h1
    obtain ⟨o1, g1, h1⟩ := py_bind_eq_ok.1 h1
    obtain ⟨rest, g2, h1⟩ := py_bind_eq_ok.1 h1
    cases h1
    rw [List.getLastD_cons] at h2
    have := ih g2 h2 h3
    rw [List.cons_append]
    unfold commitTrace
    rw [g1, py_bind_ok]
    simp only
    rw [this]
    rfl

/-- **C40** History of a plastic bar: after any number `n` of increments its state variables are those obtained
from zero by committing the strains of the accepted ones among these increments, one after the other. -/
theorem C40_history_of_bar {argsort : List Int → List Nat} {env : Env F} {fuel : Nat} {m m1 m2 : Model F}
    (hb : m.build argsort = .ok m1) (hr : m1.run env fuel = .ok m2) (hn : 0 < m1.settings.nsteps) :
    ∃ c res r0 outs, m1.ctx = some c ∧ m2.results = some res ∧ RunCalls env fuel m1 c outs ∧
      res.R = r0 :: (recorded outs).map (·.a) ∧
      ∀ bars, c.Bars bars → 0 < c.nstatev → ∀ (i : Nat) (b : Bar F), bars[i]? = some b → b.law = .elplast →
        ∀ (n : Nat) (p : Analysis F), res.R[n]? = some p →
        ∃ row, stateRow c p.statev i = some row ∧
          commitAll b.mat (List.replicate c.nstatev 0) (acceptedStrains b ((recorded outs).take n)) = .ok row := by
  obtain ⟨c, d, r0, outs, h1, h2, h3, h4, h5, h6, h7, h8, h9, h10, res, h11, h12⟩ := run_summary hb hr
  rcases h12 with ⟨e, -⟩ | ⟨-, e⟩
  · omega
  refine ⟨c, res, r0, outs, h1, h11, h9, e, ?_⟩
  intro bars hB hpos i b hi hlaw n
  have hil : i < c.elems.labels.length := by
    rw [← hB.length]; exact (List.getElem?_eq_some_iff.1 hi).1
  have key : ∀ n p, res.R[n]? = some p → ∃ row tr, stateRow c p.statev i = some row ∧
      commitTrace b.mat (List.replicate c.nstatev 0) (acceptedStrains b ((recorded outs).take n)) = .ok tr ∧
      tr.getLastD (List.replicate c.nstatev 0) = row := by
    intro n
    induction n with
    | zero =>
      intro p hp
      rw [e] at hp
      cases hp
      refine ⟨List.replicate c.nstatev 0, [], ?_, rfl, rfl⟩
      obtain ⟨sv, hs1, hs2⟩ := h7.fits.statev hpos
      rw [if_pos hpos] at h10
      rw [h10] at hs1
      cases hs1
      unfold stateRow
      rw [if_pos hpos, h10]
      rw [List.length_replicate] at hs2
      show (List.replicate d.nelems (List.replicate c.nstatev (0 : F)))[i]? = _
      rw [List.getElem?_replicate, if_pos (by omega)]
    | succ n ih =>
      intro p hp
      have hp' := hp
      rw [e, List.getElem?_cons_succ, List.getElem?_map, Option.map_eq_some_iff] at hp'
      obtain ⟨r, hr, rfl⟩ := hp'
      have hn : n < (recorded outs).length := (List.getElem?_eq_some_iff.1 hr).1
      obtain ⟨q, hq⟩ : ∃ q, res.R[n]? = some q := ⟨_, List.getElem?_eq_getElem (by rw [e]; simp; omega)⟩
      obtain ⟨row, tr, k1, k2, k3⟩ := ih _ hq
      rw [e] at hq
      have hst := (h8 n q r hq hr).state
      have htake : (recorded outs).take (n + 1) = (recorded outs).take n ++ [r] := by
        rw [List.take_add_one, hr]; rfl
      rw [htake]
      by_cases ho : r.out = .accepted
      · obtain ⟨new, g1, ⟨out, g2, g3⟩⟩ := hst.2 ho bars hB i b hi row k1
        rw [hlaw] at g2
        refine ⟨new, tr ++ [new], g1, ?_, by simp⟩
        have : acceptedStrains b ((recorded outs).take n ++ [r]) = acceptedStrains b ((recorded outs).take n) ++
            [(b.strainAt r.a.U, b.stretchAt r.a.U - b.stretchAt r.a.U0)] := by
          simp [acceptedStrains, ho]
        rw [this]
        exact commitTrace_snoc _ k2 (by rw [k3]; exact g2) g3
      · refine ⟨row, tr, by rw [hst.1 ho]; exact k1, ?_, k3⟩
        have : acceptedStrains b ((recorded outs).take n ++ [r]) = acceptedStrains b ((recorded outs).take n) := by
          simp [acceptedStrains, ho]
        rw [this]
        exact k2
  intro p hp
  obtain ⟨row, tr, k1, k2, k3⟩ := key n p hp
  refine ⟨row, k1, ?_⟩
  unfold commitAll
  rw [k2, py_bind_ok, k3]
  rfl

/-- The example bar yields at 3/8: state variables (yield stress, plastic strain) of the results, and the same
from committing the strains 1/4, 5/8, 9/8. -/
example : showR (fun a => a.statev) (buildRun 1 (exBarModel 2 [1, 1, 3 / 8])) =
    .ok [some [[0, 0]], some [[3 / 8, 0]], some [[1 / 2, 1 / 8]], some [[3 / 4, 3 / 8]]] ∧
    commitAll [1, 1, 3 / 8] [0, 0] [((1 : ℚ) / 4, 1 / 4), (5 / 8, 3 / 8), (9 / 8, 1 / 2)] = .ok [3 / 4, 3 / 8] := by
  decide +kernel

/-- The tables of the example describe one bar. -/
example : ∃ m1 c bars, (exBarModel 2 [1, 1, 3 / 8]).build refArgsort = .ok m1 ∧ m1.ctx = some c ∧ c.nstatev = 2 ∧
    c.Bars bars ∧ bars.map (fun b => (b.iA, b.iE, b.mat, b.law)) = [(0, 1, [1, 1, 3 / 8], .elplast)] := by
  have h : (((exBarModel 2 [1, 1, 3 / 8]).build refArgsort).toOption.bind (·.ctx)).map
      (fun c => (c.nodes, c.elems, c.nnodes, c.ndof1, c.nstatev)) =
      some (⟨[1, 2], ⟨3, [[0, 0, 0], [1, 0, 0]]⟩⟩, ⟨[1], ⟨2, [[1, 2]]⟩, [1], [2], ⟨false, 3, [[1, 1, 3 / 8]]⟩,
        ⟨false, 1, [[1]]⟩⟩, 2, 1, 2) := by decide +kernel
  cases hb : (exBarModel 2 [1, 1, 3 / 8]).build refArgsort with
  | error e => rw [hb] at h; cases h
  | ok m1 =>
    rw [hb] at h
    obtain ⟨c, hc, h⟩ := Option.map_eq_some_iff.1 h
    obtain ⟨nt, et, nn, n1, ns⟩ := c
    simp only [Prod.mk.injEq] at h
    obtain ⟨rfl, rfl, rfl, rfl, rfl⟩ := h
    refine ⟨m1, _, [⟨0, 1, fun _ => 0, fun i => if i = 0 then 1 else 0, [1, 1, 3 / 8], [1], .elplast⟩], rfl, hc, rfl,
      ⟨by decide, by decide, rfl, ?_, rfl⟩, rfl⟩
    intro k b hk
    cases k with
    | succ k => simp at hk
    | zero =>
      cases hk
      exact ⟨⟨1, 2, rfl, rfl, rfl⟩, rfl, rfl, rfl, rfl, .inr ⟨rfl, rfl⟩, by decide⟩

/-! ## C42 -/

/-- **C42** Loads are continuous across steps, if every step has increments: the constant load is zero in the first
step, within a step the loads do not change, and when the step changes, the new constant load is the old constant
load plus the last load factor times the old step load. -/
theorem C42_loads_continuous {argsort : List Int → List Nat} {env : Env F} {fuel : Nat} {m m1 m2 : Model F}
    (hb : m.build argsort = .ok m1) (hr : m1.run env fuel = .ok m2) (hn : 0 < m1.settings.nsteps)
    (hinc : ∀ k n, m1.settings.incs.ofStep k = some n → n ≠ 0) {res : Results F} (hres : m2.results = some res) :
    (∀ (k : Nat) (p q : Analysis F), res.R[k + 1]? = some p → res.R[k + 2]? = some q → LoadsContinue p q) ∧
    (∀ r, res.R[1]? = some r → r.step = 1 ∧
      ∃ ef, r.extForces = some ef ∧ ef.forcesConst = List.replicate ef.forces.length 0) := by
  obtain ⟨c, d, ft, r0, outs, a1, R, le, h1, h2, h3, h4, h5, h6, h7, h8, h9, h10, h11, h12⟩ := build_run hb hr
  rcases h12 with ⟨e, -⟩ | ⟨-, e1, e2⟩
  · omega
  rw [hres] at e1; cases e1
  obtain ⟨-, l1, l2, -⟩ := Steps.loads (X := [r0]) h11 fun k n hk => hinc k n (stepIncs_iff.1 hk)
  have hget : ∀ {k : Nat} {p : Analysis F}, R.dropLast[k + 1]? = some p → ∃ r, (recorded outs)[k]? = some r ∧ r.a = p := by
    intro k p hp
    rw [e2, List.getElem?_cons_succ, List.getElem?_map, Option.map_eq_some_iff] at hp
    exact hp
  constructor
  · intro k p q hp hq
    obtain ⟨p, hp', rfl⟩ := hget hp
    obtain ⟨q, hq', rfl⟩ := hget hq
    exact l1 k p q hp' hq'
  · intro r hr
    obtain ⟨r, hr', rfl⟩ := hget hr
    obtain ⟨k1, ef, k2, -, k4⟩ := l2 r hr'
    exact ⟨k1, ef, k2, k4⟩

/-- **C42** What the step load is: in every recorded increment of step `s` the load of node number `i` in direction
`k` is the entry `3 (s - 1) + k` of the load the user entered for that node (zero if none). -/
theorem C42_step_loads {argsort : List Int → List Nat} (has : IsArgsort argsort) {u : UserInput F} {env : Env F}
    {fuel : Nat} {m m1 m2 : Model F} (hu : Entered u m) (hnd : (u.nodes.map (·.label)).Nodup)
    (h2 : 2 ≤ u.nodes.length) (hb : m.build argsort = .ok m1) (hr : m1.run env fuel = .ok m2)
    (hw : 3 * m1.settings.nsteps ≤ loadWidth u.forces) {nt : NodeTab F} (hnt : m1.nodes = some nt) {res : Results F}
    (hres : m2.results = some res) : ∀ (n : Nat) (r : Analysis F), 0 < m1.settings.nsteps → res.R[n + 1]? = some r →
      ∃ s ef, r.step = s + 1 ∧ s < m1.settings.nsteps ∧ r.extForces = some ef ∧
      ∀ i l, nt.labels[i]? = some l → ∀ k, k < 3 → ef.forces[3 * i + k]? = (loadOf u.forces l)[3 * s + k]? := by
  obtain ⟨c, d, ft, r0, outs, a1, R, le, g1, g2, h3, h4, h5, h6, h7, h8, h9, h10, h11, h12⟩ := build_run hb hr
  obtain ⟨nt', ft', f1, f2, f3, f4, f5, f6, f7⟩ := C03_loads_partial has hu hnd h2 hb
  rw [hnt] at f1; cases f1
  rw [h3] at f2; cases f2
  intro n r hpos hn
  rcases h12 with ⟨e, -⟩ | ⟨-, e1, e2⟩
  · omega
  rw [hres] at e1; cases e1
  rw [e2, List.getElem?_cons_succ, List.getElem?_map, Option.map_eq_some_iff] at hn
  obtain ⟨r, hr, rfl⟩ := hn
  obtain ⟨k, fc, k1, k2, k3⟩ := h11.slices r (List.mem_of_getElem? hr)
  rw [h10] at k1
  refine ⟨k, _, k2, k1, k3, ?_⟩
  intro i l hl c hc
  have hrow : ft.forces.rows[i]? = some (loadOf u.forces l) := by
    rw [f4, List.getElem?_map, hl]; rfl
  have hcols : ft.forces.cols = loadWidth u.forces := by
    have hne : u.forces ≠ [] := by
      intro h0
      rw [h0] at hw
      simp only [loadWidth] at hw
      omega
    cases hfs : u.forces with
    | nil => exact absurd hfs hne
    | cons f fs =>
      have : (f.node, f.force) ∈ ft.nodes.zip ft.forces.rows := f6 f (by rw [hfs]; simp)
      rw [← f5 _ (List.of_mem_zip this).2]
      rfl
  exact stepSlice_get (w := ft.forces.cols) f5 (by rw [hcols]; omega) hrow hc

/-- **C42** For real numbers: the total load at the start of the next step (load factor 0) is the total load of the
last result of the step before. -/
theorem C42_total_load_real {p q : Analysis ℝ} (h : LoadsContinue p q) (hne : q.step ≠ p.step) :
    ∃ ef ef' l, p.extForces = some ef ∧ q.extForces = some ef' ∧ p.lpf = some l ∧
      ∀ (i : Nat) (c f c' f' : ℝ), ef.forcesConst[i]? = some c → ef.forces[i]? = some f → ef'.forcesConst[i]? = some c' →
        ef'.forces[i]? = some f' → c' + 0 * f' = c + l * f := by
  rcases h with ⟨h, -⟩ | ⟨-, ef, ef', l, h1, h2, h3, h4, h5⟩
  · exact absurd h hne
  · refine ⟨ef, ef', l, h1, h2, h3, ?_⟩
    intro i c f c' f' k1 k2 k3 _
    rw [h5, List.getElem?_zipWith, k1, k2] at k3
    cases k3
    ring

/-- Load per result: constant part and step load at node 2, load factor.  1/2 * 1 is carried to step 2. -/
example : showR (fun a => (a.step, a.extForces.map fun e => (e.forcesConst.getD 3 9, e.forces.getD 3 9), a.lpf))
    (buildRun 1 (exBarModel 1 [1])) = .ok [(1, some (0, 0), some 0), (1, some (0, 1), some (1 / 4)),
      (1, some (0, 1), some (1 / 2)), (2, some (1 / 2, 2), some (1 / 4))] := by decide +kernel

/-- The hypothesis on the numbers of increments holds in the example. -/
example : ∀ k n, (exBarModel 1 [1]).settings.incs.ofStep k = some n → n ≠ 0 := by
  intro k n h
  have h : [2, 1][k]? = some n := h
  match k with
  | 0 => cases h; decide
  | 1 => cases h; decide
  | k + 2 => simp at h

/-- A step without increments breaks the continuity: step 2 has no increment, so no part of its load has been
applied, but step 3 counts it with the load factor at the end of step 1. -/
theorem C42_empty_step_counterexample : showR (fun a => (a.step, a.extForces.map fun e => e.forcesConst.getD 3 9, a.lpf))
    (buildRun 1 { exBarModel 1 [1] with
      forces := some ⟨[2], ⟨9, [[1, 0, 0, 2, 0, 0, 4, 0, 0]]⟩⟩
      settings := { (exBarModel 1 [1]).settings with nsteps := 3, incs := .tuple [1, 0, 1] } }) =
    .ok [(1, some 0, some 0), (1, some 0, some (1 / 4)), (3, some (3 / 4), some 0)] := by decide +kernel

/-! ## C43 -/

/-- **C43** The first step starts at zero; every other step starts with load factor 0 from the displacements, forces
and state variables last recorded by the step before (or from where that step started, if it recorded nothing). -/
theorem C43_displacements_continuous {argsort : List Int → List Nat} {env : Env F} {fuel : Nat} {m m1 m2 : Model F}
    (hb : m.build argsort = .ok m1) (hr : m1.run env fuel = .ok m2) (hn : 0 < m1.settings.nsteps) :
    ∃ c d res r0 outs, m1.ctx = some c ∧ m1.dims = some d ∧ m2.results = some res ∧
      RunCalls env fuel m1 c outs ∧ res.R = r0 :: (recorded outs).map (·.a) ∧
      (∀ o, outs[0]? = some o → o.startX = List.replicate d.dof1.length 0 ++ [0] ∧ o.startA.lpf = some 0 ∧
        o.startA.U = r0.U ∧ o.startA.statev = r0.statev) ∧
      ∀ (s : Nat) (o o' : PFOut F), outs[s]? = some o → outs[s + 1]? = some o' → o'.startA.lpf = some 0 ∧
        (∀ r, o.recs.getLast? = some r → o'.startX = r.x.dropLast ++ [0] ∧ o'.startX = r.a.Ured ++ [0] ∧
          o'.startA.U = r.a.U ∧ o'.startA.r = r.a.r ∧ o'.startA.statev = r.a.statev) ∧
        (o.recs = [] → o'.startX = o.startX ∧ o'.startA.U = o.startA.U ∧ o'.startA.statev = o.startA.statev) := by
  obtain ⟨c, d, ft, r0, outs, a1, R, le, h1, h2, h3, h4, h5, h6, h7, h8, h9, h10, h11, h12⟩ := build_run hb hr
  rcases h12 with ⟨e, -⟩ | ⟨-, e1, e2⟩
  · omega
  obtain ⟨-, l1, l2, -, -⟩ := h11.link rfl
  refine ⟨c, d, ⟨R.dropLast, le⟩, r0, outs, h1, h2, e1, h11.built hb h1 h2 h3 h10 h7.lpf, e2, ?_, ?_⟩
  · intro o ho
    obtain ⟨k1, k2, k3⟩ := l2 o ho
    exact ⟨k2, k3, k1.U.trans h8.U, k1.statev.trans h8.statev⟩
  · intro s o o' ho ho'
    obtain ⟨k1, k2, k3⟩ := l1 s o o' ho ho'
    refine ⟨k2, ?_, ?_⟩
    · intro r hr
      obtain ⟨ys, hy⟩ := List.getLast?_eq_some_iff.1 hr
      have hx : (o.recs.map (·.a)).getLastD o.startA = r.a := by rw [hy]; simp
      rw [hx] at k1 k3
      obtain ⟨incs, xl, -, -, -, hp⟩ := stepCall_iff.1 (h11.calls s o ho)
      have hu : r.a.Ured = r.x.dropLast := by
        have hm : r ∈ o.recs := by rw [hy]; simp
        obtain ⟨i, hi⟩ := List.getElem?_of_mem hm
        have hl : i < o.recs.length := (List.getElem?_eq_some_iff.1 hi).1
        have hp' : (o.startA :: o.recs.map (·.a))[i]? = some ((o.startA :: o.recs.map (·.a))[i]'(by simp; omega)) :=
          List.getElem?_eq_getElem _
        obtain ⟨d0, t, t', q1, q2, q3, q4, q5, q6, q7⟩ := pathfollow_increments hp hp' hi
        rw [← q2, ← q3]
        rcases q1.model with ⟨-, hx, b, lpf, -, -, ha⟩ | ⟨-, ⟨b, b', g, dV, lpf, -, -, -, ha⟩⟩
        · rw [ha, hx]
        · rw [ha]
      exact ⟨by rw [← hu]; exact k3, k3, k1.U, k1.r, k1.statev⟩
    · intro hnil
      rw [hnil] at k1 k3
      obtain ⟨incs, xl, -, -, -, hp⟩ := stepCall_iff.1 (h11.calls s o ho)
      obtain ⟨q1, -⟩ := pathfollow_ok hp
      refine ⟨?_, k1.U, k1.statev⟩
      rw [k3, q1]
      rfl

/-! ## C44 -/

/-- **C44** (increments that did not end in the predictor) The displacement table restricted to the active degrees
of freedom is the recorded reduced vector, the extended vector is that vector with the load factor, and the
recorded residual is `-r + const + lpf * load` of the recorded quantities; the old displacement table restricted to
the active degrees of freedom is the reduced vector of the previous result.
Missing from the full statement: increments ended by the predictor, which the English statement includes if the
predictor made evaluations, see `C44_predictor_counterexample`. -/
theorem C44_results_consistent_partial {argsort : List Int → List Nat} {env : Env F} {fuel : Nat} {m m1 m2 : Model F}
    (hb : m.build argsort = .ok m1) (hr : m1.run env fuel = .ok m2) (hn : 0 < m1.settings.nsteps) :
    ∃ c res r0 outs, m1.ctx = some c ∧ m2.results = some res ∧ RunCalls env fuel m1 c outs ∧
      res.R = r0 :: (recorded outs).map (·.a) ∧
      ∀ (k : Nat) (p : Analysis F) (r : Rec F), res.R[k]? = some p → (recorded outs)[k]? = some r → r.out ≠ .predictor →
        SelfConsistent r.a ∧ npTake r.a.U0 r.a.DOF1 = .ok p.Ured ∧ r.a.Ured = r.x.dropLast := by
  obtain ⟨c, d, r0, outs, h1, h2, h3, h4, h5, h6, h7, h8, h9, h10, res, h11, h12⟩ := run_summary hb hr
  rcases h12 with ⟨e, -⟩ | ⟨-, e⟩
  · omega
  · refine ⟨c, res, r0, outs, h1, h11, h9, e, ?_⟩
    intro k p r hp hr ho
    rw [e] at hp
    exact (h8 k p r hp hr).solved h4 ho

/-- With large tolerances the predictor ends the increment: the reduced vector and the load factor stay zero, the
displacement table contains the predicted displacement 1/4. -/
theorem C44_predictor_counterexample : showR (fun a => (a.Ured, a.lpf, a.U)) (buildRun 1
    { exBarModel 1 [1] with settings := { (exBarModel 1 [1]).settings with
        nsteps := 1, incs := .const 1, xtol := -4, ftol := -4 } }) =
    .ok [([0], some 0, [0, 0, 0, 0, 0, 0]), ([0], some 0, [0, 0, 0, 1 / 4, 0, 0])] := by decide +kernel

/-- Recorded quantities of the example: table, reduced vector, residual. -/
example : showR (fun a => (a.U.getD 3 9, a.Ured, a.Vred, a.g)) (buildRun 1 (exBarModel 1 [1])) =
    .ok [(0, [0], [], [0, 0, 0, 0, 0, 0]), (1 / 4, [1 / 4], [1 / 4, 1 / 4], [1 / 4, 0, 0, 0, 0, 0]),
      (1 / 2, [1 / 2], [1 / 2, 1 / 2], [1 / 2, 0, 0, 0, 0, 0]), (1, [1], [1, 1 / 4], [1, 0, 0, 0, 0, 0])] := by
  decide +kernel

/-! ## C47 -/

/-- **C47** What a call of `run` does to a result list that is already there: the first entry is duplicated, the last
one is dropped, and the new increments are appended.
This is what remains of the claim; the claim itself is refuted by `C47_rerun_loses_history`. -/
theorem C47_rerun_partial {env : Env F} {fuel : Nat} {m m' : Model F} (hr : m.run env fuel = .ok m')
    (hn : 0 < m.settings.nsteps) : ∃ c res res' r0 outs, m.ctx = some c ∧ m.results = some res ∧ m'.results = some res' ∧
      RunCalls env fuel m c outs ∧ res.R.head? = some r0 ∧
      res'.R = r0 :: res.R.dropLast ++ (recorded outs).map (·.a) := by
  obtain ⟨c, a, res, ft, r0, rest, g1, g2, g3, g4, g5, -, -, -, -, -, -, -, outs, a1, R, le, g6, g7, g8⟩ := run_ok hr
  rcases g8 with ⟨e, -⟩ | ⟨-, e1, -⟩
  · omega
  refine ⟨c, res, _, r0, outs, g1, g3, e1, g7.runCalls g2 g3 g4 g6 (by simp [g5]), by rw [g5]; rfl, ?_⟩
  rcases List.eq_nil_or_concat rest with rfl | ⟨ys, y, rfl⟩
  · obtain ⟨u0, hu⟩ := Steps.layout (X := [r0]) (j0 := r0) g7
    simp only at hu ⊢
    rw [hu, List.dropLast_concat, g5]
    rfl
  · rw [List.concat_eq_append, show r0 :: r0 :: (ys ++ [y]) = (r0 :: r0 :: ys) ++ [y] from rfl] at g7
    obtain ⟨u0, hu⟩ := Steps.layout g7
    simp only at hu ⊢
    rw [hu, List.dropLast_concat, g5, List.concat_eq_append, show r0 :: (ys ++ [y]) = (r0 :: ys) ++ [y] from rfl,
      List.dropLast_concat]

/-- **C47** is false: a second call of `run` never keeps the history, unless all its results are equal to the
undeformed first one: the old result list is not a prefix of the new one. -/
theorem C47_rerun_loses_history {env : Env F} {fuel : Nat} {m m' : Model F} (hr : m.run env fuel = .ok m')
    (hn : 0 < m.settings.nsteps) {res res' : Results F} (h1 : m.results = some res) (h2 : m'.results = some res')
    (hne : ∃ r ∈ res.R, res.R.head? ≠ some r) : ¬ res.R <+: res'.R := by
  obtain ⟨c, res1, res2, r0, outs, k1, k2, k3, k4, k5, k6⟩ := C47_rerun_partial hr hn
  rw [h1] at k2; cases k2
  rw [h2] at k3; cases k3
  intro hp
  have key : ∀ (i : Nat) (x : Analysis F), res.R[i]? = some x → x = r0 := by
    intro i
    induction i with
    | zero =>
      intro x hx
      rw [List.head?_eq_getElem?] at k5
      rw [k5] at hx
      exact (Option.some.inj hx).symm
    | succ i ih =>
      intro x hx
      have hi : i + 1 < res.R.length := (List.getElem?_eq_some_iff.1 hx).1
      have h3 : res'.R[i + 1]? = some x := by
        obtain ⟨t, ht⟩ := hp
        rw [← ht, List.getElem?_append, if_pos hi]
        exact hx
      rw [k6, List.cons_append, List.getElem?_cons_succ, List.getElem?_append,
        if_pos (by rw [List.length_dropLast]; omega), List.getElem?_dropLast, if_pos (by omega)] at h3
      exact ih x h3
  obtain ⟨r, hm, hr'⟩ := hne
  obtain ⟨i, hi⟩ := List.getElem?_of_mem hm
  rw [key i r hi] at hr'
  exact hr' k5

/-- The example run twice: the last result of the first run (displacement 1, load factor 1/4 in step 2) is lost, and
the undeformed state appears twice. -/
theorem C47_rerun_counterexample :
    showR (fun a => (a.step, a.Ured, a.lpf)) (buildRun 1 (exBarModel 1 [1])) =
      .ok [(1, [0], some 0), (1, [1 / 4], some (1 / 4)), (1, [1 / 2], some (1 / 2)), (2, [1], some (1 / 4))] ∧
    showR (fun a => (a.step, a.Ured, a.lpf)) (buildRun 2 (exBarModel 1 [1])) =
      .ok [(1, [0], some 0), (1, [0], some 0), (1, [1 / 4], some (1 / 4)), (1, [1 / 2], some (1 / 2)),
        (1, [1 / 4], some (1 / 4)), (2, [3 / 4], some (1 / 8))] := by decide +kernel

end TrussPy
