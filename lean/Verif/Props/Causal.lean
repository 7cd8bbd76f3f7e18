import Verif.Lemmas.Compare
import Verif.ExamplesRun
/-!
# C66, C67: what comes later does not matter
-/

set_option linter.unusedSectionVars false

namespace TrussPy

variable {F : Type} [Zero F] [One F] [Add F] [Sub F] [Mul F] [Div F] [Neg F] [Flt F]

theorem prefix_of_filter {outs' : List (PFOut F)} {k n : Nat} {o' : PFOut F} (ho : outs'[k]? = some o')
    (hst : ∀ i o, outs'[i]? = some o → ∀ r ∈ o.recs, r.a.step = i + 1) :
    (recorded (outs'.take k)).map (·.a) ++ (o'.recs.take n).map (·.a) <+: (recorded outs').map (·.a) ∧
    (recorded (outs'.take k)).map (·.a) = ((recorded outs').map (·.a)).filter (fun a => a.step ≤ k) ∧
    o'.recs.map (·.a) = ((recorded outs').map (·.a)).filter (fun a => a.step = k + 1) := by
  obtain ⟨hlt, he⟩ := List.getElem?_eq_some_iff.1 ho
  have hsplit : outs' = outs'.take k ++ o' :: outs'.drop (k + 1) := by
    rw [← he, ← List.drop_eq_getElem_cons hlt, List.take_append_drop]
  have hrec : recorded outs' = recorded (outs'.take k) ++ (o'.recs ++ recorded (outs'.drop (k + 1))) := by
    conv_lhs => rw [hsplit]
    simp [recorded]
  refine ⟨?_, ?_, ?_⟩
  · rw [← List.map_append]
    refine List.IsPrefix.map _ ?_
    rw [hrec]
    rw [List.prefix_append_right_inj]
    exact (List.take_prefix _ _).trans (List.prefix_append _ _)
  · rw [List.filter_map, ← recorded_filter hst k]
    rfl
  · rw [List.filter_map]
    congr 1
    rw [hrec, List.filter_append, List.filter_append]
    have h1 : (recorded (outs'.take k)).filter ((fun a : Analysis F => decide (a.step = k + 1)) ∘ fun r : Rec F => r.a) = [] := by
      rw [List.filter_eq_nil_iff]
      intro r hr
      rw [← recorded_filter hst k, List.mem_filter] at hr
      have := of_decide_eq_true hr.2
      simp; omega
    have h2 : o'.recs.filter ((fun a : Analysis F => decide (a.step = k + 1)) ∘ fun r : Rec F => r.a) = o'.recs := by
      rw [List.filter_eq_self]
      intro r hr
      simpa using hst k o' ho r hr
    have h3 : (recorded (outs'.drop (k + 1))).filter ((fun a : Analysis F => decide (a.step = k + 1)) ∘ fun r : Rec F => r.a) = [] := by
      rw [List.filter_eq_nil_iff]
      intro r hr
      obtain ⟨o, h4, h5⟩ := List.mem_flatMap.1 hr
      obtain ⟨i, hi⟩ := List.getElem?_of_mem h4
      rw [List.getElem?_drop] at hi
      have := hst _ o hi r h5
      simp; omega
    rw [h1, h2, h3]
    simp

theorem nodes_of_sameLoads {k : Nat} {fs fs' : List (ExtForce F)} (h : SameLoads k fs fs') :
    fs'.map (·.node) = fs.map (·.node) := by
  have := congrArg (List.map Prod.fst) h
  simpa [Function.comp_def] using this

/-- The comparison both properties rest on. -/
theorem shorter_run {as as' : List Int → List Nat} (has : IsArgsort as) (has' : IsArgsort as') {u u' : UserInput F}
    {m m' m1' m2' : Model F} (hu : Entered u m) (hu' : Entered u' m') (hn : u'.nodes = u.nodes) (hb : u'.bounds = u.bounds)
    {k n n' : Nat} (hf : SameLoads (k + 1) u.forces u'.forces) (he : m.elems = m'.elems) (hnd : (u.nodes.map (·.label)).Nodup)
    (hlen : 2 ≤ u.nodes.length) (hg : SameGlobal m.settings m'.settings) (hk : m.settings.nsteps = k + 1)
    (hk' : k + 1 ≤ m'.settings.nsteps) (hi : ∀ i < k, m'.settings.incs.ofStep i = m.settings.incs.ofStep i)
    (hin : m.settings.incs.ofStep k = some n) (hin' : m'.settings.incs.ofStep k = some n') (hle : n ≤ n')
    (hx : ∀ i < k + 1, m'.settings.xlimit.ofStep i = m.settings.xlimit.ofStep i)
    {env : Env F} {fuel : Nat} (hbld : m'.build as' = .ok m1') (hrun : m1'.run env fuel = .ok m2') :
    ∃ m1 m2 res res', m.build as = .ok m1 ∧ m1.run env fuel = .ok m2 ∧ m2.results = some res ∧ m2'.results = some res' ∧
      res.R.tail <+: res'.R.tail ∧
      res.R.tail = res'.R.tail.filter (fun a => a.step ≤ k) ++ (res'.R.tail.filter (fun a => a.step = k + 1)).take n ∧
      (n = n' → res.R.tail = res'.R.tail.filter (fun a => a.step ≤ k + 1) ∧
        res.stepLpfEnd = res'.stepLpfEnd.take (k + 1)) := by
  obtain ⟨m1, c, a, r, r', ft, ft', b1, b2, b3, -, b5, b6, b7, b8, b9, b10, b11, b12, b13, b14, b15, b16⟩ :=
    build_compare has has' hu hu' hn hb (nodes_of_sameLoads hf) he hg.ndim hg.nstatev hnd hlen hbld
  have hg1 : SameGlobal m1.settings m1'.settings := by
    unfold SameGlobal at *
    rw [b13, b14]
    simp only
    rw [← hg]
  obtain ⟨m2, outs', le, le', o, o', q1, q2, q3, q4, q5, q6, q7, -, q9⟩ := run_shorter (k := k) (n := n) (n' := n') b2 b3 b5 b6 b7 b8
    b9 b10 b11 b12 hg1 (by rw [b15, b16]; exact sameLoads_rows hf _) (by rw [b13]; exact hk) (by rw [b14]; exact hk')
    (by rw [b13, b14]; exact hi) (by rw [b13]; exact hin) (by rw [b14]; exact hin') hle (by rw [b13, b14]; exact hx) hrun
  obtain ⟨p1, p2, p3⟩ := prefix_of_filter (n := n) q4 q7
  refine ⟨m1, m2, _, _, b1, q1, q2, q3, ?_, ?_, fun hnn => ?_⟩
  · simp only [List.cons_append, List.tail_cons]
    rw [q5]
    exact p1
  · simp only [List.cons_append, List.tail_cons]
    rw [q5, ← p2, ← p3, List.map_take]
  · simp only [List.cons_append, List.tail_cons]
    obtain ⟨rfl, q10⟩ := q9 hnn
    refine ⟨?_, ?_⟩
    · rw [List.filter_map]
      have hfil : ((fun a : Analysis F => decide (a.step ≤ k + 1)) ∘ fun r : Rec F => r.a) = fun r => decide (r.a.step ≤ k + 1) := rfl
      rw [hfil, recorded_filter q7, List.take_add_one, q4, ← List.map_append]
      congr 1
      simp [recorded]
    · obtain ⟨t, rfl⟩ := q10
      rw [← q6, List.take_left]

/-- **C66** Loads, numbers of increments and limits of later steps, and whether there are later steps at all, do not
influence the results of the first `k` steps: if the longer analysis returns, the analysis with only the first `k` steps
returns as well, and its results (after the undeformed state) are exactly those the longer analysis recorded in these
steps, with the same load factors at the ends of the steps. -/
theorem C66_later_steps_do_not_matter {as as' : List Int → List Nat} (has : IsArgsort as) (has' : IsArgsort as')
    {u u' : UserInput F} {es : List (Elem F)} {m m' m1' m2' : Model F} (hu : Entered u m) (hu' : Entered u' m')
    (he : EnteredElems es m) (he' : EnteredElems es m')
    (hn : u'.nodes = u.nodes) (hb : u'.bounds = u.bounds) (hnd : (u.nodes.map (·.label)).Nodup)
    (hlen : 2 ≤ u.nodes.length) {k : Nat} (hk0 : 0 < k) (hk : m.settings.nsteps = k) (hk' : k ≤ m'.settings.nsteps)
    (hf : SameLoads k u.forces u'.forces) (hg : SameGlobal m.settings m'.settings)
    (hi : ∀ i < k, m'.settings.incs.ofStep i = m.settings.incs.ofStep i)
    (hx : ∀ i < k, m'.settings.xlimit.ofStep i = m.settings.xlimit.ofStep i)
    {env : Env F} {fuel : Nat} (hbld : m'.build as' = .ok m1') (hrun : m1'.run env fuel = .ok m2') :
    ∃ m1 m2 res res', m.build as = .ok m1 ∧ m1.run env fuel = .ok m2 ∧ m2.results = some res ∧ m2'.results = some res' ∧
      res.R.tail <+: res'.R.tail ∧ res.R.tail = res'.R.tail.filter (fun a => a.step ≤ k) ∧
      res.stepLpfEnd = res'.stepLpfEnd.take k := by
  obtain ⟨k, rfl⟩ : ∃ j, k = j + 1 := ⟨k - 1, by omega⟩
  have helem : m.elems = m'.elems := by
    have h1 : addElems none es = .ok m.elems := he
    rw [show addElems none es = .ok m'.elems from he'] at h1
    exact (Except.ok.inj h1).symm
  obtain ⟨n, hin'⟩ : ∃ n, m'.settings.incs.ofStep k = some n := by
    obtain ⟨c, a, res, ft, r0, rest, -, -, -, -, -, -, -, -, -, -, -, -, outs, a1, R, le, g6, g7, -⟩ := run_ok hrun
    have hset : m1'.settings.incs = m'.settings.incs ∧ m1'.settings.nsteps = m'.settings.nsteps := by
      obtain ⟨s⟩ := build_steps hbld
      rw [s.hm']
      exact ⟨rfl, rfl⟩
    have hl : k < outs.length := by omega
    obtain ⟨n, xl, h1, -⟩ := stepCall_iff.1 (g7.calls k _ (List.getElem?_eq_getElem hl))
    rw [stepIncs_iff, hset.1] at h1
    exact ⟨n, h1⟩
  obtain ⟨m1, m2, res, res', h1, h2, h3, h4, h5, -, h7⟩ := shorter_run (k := k) has has' hu hu' hn hb hf helem hnd hlen hg hk hk'
    (fun i h => hi i (by omega)) (by rw [← hi k (by omega)]; exact hin') hin' (le_refl n) hx hbld hrun
  exact ⟨m1, m2, res, res', h1, h2, h3, h4, h5, h7 rfl⟩

/-- The calls that enter the two-step bar, and the same bar with the load of the first step only. -/
def exLongInput : UserInput ℚ where
  nodes := [⟨1, [0, 0, 0]⟩, ⟨2, [1, 0, 0]⟩]
  bounds := [⟨1, [0, 0, 0]⟩, ⟨2, [1, 0, 0]⟩]
  forces := [⟨2, [1, 0, 0, 2, 0, 0]⟩]

@[inherit_doc exLongInput]
def exShortInput : UserInput ℚ := { exLongInput with forces := [⟨2, [1, 0, 0]⟩] }

/-- The bar of the examples with its first step only; here one number of increments for all steps. -/
def exShortModel : Model ℚ := { exBarModel 1 [1] with
  forces := some ⟨[2], ⟨3, [[1, 0, 0]]⟩⟩
  settings := { (exBarModel 1 [1]).settings with nsteps := 1, incs := .const 2 } }

/-- The hypotheses of `C66_later_steps_do_not_matter` hold for the bar with two steps and with one, and the two
increments of the one-step analysis are the first two of the three increments of the other. -/
example : Entered exShortInput exShortModel ∧ Entered exLongInput (exBarModel 1 [1]) ∧
    EnteredElems [⟨1, [1, 2], 1, 1, ⟨false, [1]⟩, ⟨false, [1]⟩⟩] exShortModel ∧
    EnteredElems [⟨1, [1, 2], 1, 1, ⟨false, [1]⟩, ⟨false, [1]⟩⟩] (exBarModel 1 [1]) ∧
    SameLoads 1 exShortInput.forces exLongInput.forces ∧
    SameGlobal exShortModel.settings (exBarModel 1 [1]).settings ∧
    (∀ i < 1, (exBarModel 1 [1]).settings.incs.ofStep i = exShortModel.settings.incs.ofStep i) ∧
    showR (fun a => (a.step, a.U.getD 3 9)) (buildRun 1 exShortModel) = .ok [(1, 0), (1, 1 / 4), (1, 1 / 2)] ∧
    showR (fun a => (a.step, a.U.getD 3 9)) (buildRun 1 (exBarModel 1 [1])) =
      .ok [(1, 0), (1, 1 / 4), (1, 1 / 2), (2, 1)] := by
  refine ⟨?_, ?_, ?_, ?_, ?_, rfl, ?_, ?_⟩
  · unfold Entered
    decide +kernel
  · unfold Entered
    decide +kernel
  · unfold EnteredElems
    decide +kernel
  · unfold EnteredElems
    decide +kernel
  · unfold SameLoads
    decide +kernel
  · decide +kernel
  · decide +kernel

/-- **C67** More increments extend the path, they do not change it: if an analysis is repeated with fewer increments
(`n ≤ n'`) in its last step, the shorter analysis returns if the longer one does, and its results are the results of the
longer one before the last step followed by the first `n` results of that step (all of them, if it recorded no more). -/
theorem C67_more_increments_extend_the_path {as as' : List Int → List Nat} (has : IsArgsort as) (has' : IsArgsort as')
    {u : UserInput F} {es : List (Elem F)} {m m' m1' m2' : Model F} (hu : Entered u m) (hu' : Entered u m')
    (he : EnteredElems es m) (he' : EnteredElems es m') (hnd : (u.nodes.map (·.label)).Nodup)
    (hlen : 2 ≤ u.nodes.length) {k n n' : Nat} (hk : m.settings.nsteps = k + 1)
    (hg : { m'.settings with incs := m.settings.incs } = m.settings)
    (hi : ∀ i < k, m'.settings.incs.ofStep i = m.settings.incs.ofStep i)
    (hin : m.settings.incs.ofStep k = some n) (hin' : m'.settings.incs.ofStep k = some n') (hle : n ≤ n')
    {env : Env F} {fuel : Nat} (hbld : m'.build as' = .ok m1') (hrun : m1'.run env fuel = .ok m2') :
    ∃ m1 m2 res res', m.build as = .ok m1 ∧ m1.run env fuel = .ok m2 ∧ m2.results = some res ∧ m2'.results = some res' ∧
      res.R.tail <+: res'.R.tail ∧
      res.R.tail = res'.R.tail.filter (fun a => a.step ≤ k) ++ (res'.R.tail.filter (fun a => a.step = k + 1)).take n := by
  have helem : m.elems = m'.elems := by
    have h1 : addElems none es = .ok m.elems := he
    rw [show addElems none es = .ok m'.elems from he'] at h1
    exact (Except.ok.inj h1).symm
  have hx : m'.settings.xlimit = m.settings.xlimit := by
    conv_rhs => rw [← hg]
  have hs : m'.settings.nsteps = m.settings.nsteps := by
    conv_rhs => rw [← hg]
  obtain ⟨m1, m2, res, res', h1, h2, h3, h4, h5, h6, -⟩ := shorter_run (k := k) has has' hu hu' rfl rfl rfl helem hnd hlen (by
      unfold SameGlobal
      rw [← hx, ← hs]
      exact hg) hk (by omega) hi hin hin' hle (by rw [hx]; exact fun _ _ => rfl) hbld hrun
  exact ⟨m1, m2, res, res', h1, h2, h3, h4, h5, h6⟩

/-- `C67_more_increments_extend_the_path` for the one-step bar with two and with three increments. -/
example : exShortModel.settings.incs.ofStep 0 = some 2 ∧
    showR (fun a => (a.step, a.U.getD 3 9)) (buildRun 1 exShortModel) = .ok [(1, 0), (1, 1 / 4), (1, 1 / 2)] ∧
    showR (fun a => (a.step, a.U.getD 3 9))
      (buildRun 1 { exShortModel with settings := { exShortModel.settings with incs := .const 3 } }) =
      .ok [(1, 0), (1, 1 / 4), (1, 1 / 2), (1, 3 / 4)] := by
  refine ⟨rfl, ?_⟩
  decide +kernel

end TrussPy
