import Verif.Lemmas.Causal
import Verif.Spec.Entered
/-!
# Models that differ only in loads and settings of the steps
-/

set_option linter.unusedSectionVars false

namespace TrussPy

variable {F : Type} [Zero F] [One F] [Add F] [Sub F] [Mul F] [Div F] [Neg F] [Flt F]

/-- The same structure with other loads at the same nodes: if one model builds, so does the other, and they only
differ in the load table. -/
theorem build_compare {as as' : List Int → List Nat} (has : IsArgsort as) (has' : IsArgsort as') {u u' : UserInput F}
    {m m' m1' : Model F} (hu : Entered u m) (hu' : Entered u' m') (hn : u'.nodes = u.nodes) (hb : u'.bounds = u.bounds)
    (hf : u'.forces.map (·.node) = u.forces.map (·.node)) (he : m.elems = m'.elems)
    (hdim : m.settings.ndim = m'.settings.ndim) (hst : m.settings.nstatev = m'.settings.nstatev)
    (hnd : (u.nodes.map (·.label)).Nodup) (hlen : 2 ≤ u.nodes.length) (hbld : m'.build as' = .ok m1') :
    ∃ m1 c a r r' ft ft', m.build as = .ok m1 ∧ m1.ctx = some c ∧ m1'.ctx = some c ∧
      m1.dims = m1'.dims ∧ m1.analysis = some a ∧ m1'.analysis = some a ∧
      m1.results = some ⟨[r], []⟩ ∧ m1'.results = some ⟨[r'], []⟩ ∧ r.lpf = some 0 ∧ r'.lpf = some 0 ∧
      m1.forces = some ft ∧ m1'.forces = some ft' ∧
      m1.settings = { m.settings with nstatev := c.nstatev } ∧ m1'.settings = { m'.settings with nstatev := c.nstatev } ∧
      ft.forces.rows = c.nodes.labels.map (loadOf u.forces) ∧ ft'.forces.rows = c.nodes.labels.map (loadOf u'.forces) := by
  have hnd' : (u'.nodes.map (·.label)).Nodup := by rw [hn]; exact hnd
  have hlen' : 2 ≤ u'.nodes.length := by rw [hn]; exact hlen
  obtain ⟨s⟩ := build_steps hbld
  obtain ⟨c1, c2, c3, c4, c5, ⟨w, c6, c7⟩, c8, c9, c10, c11, c12⟩ := build_closed has' hu' hnd' hlen' s
  have hc2 : Consistent u := by
    refine ⟨?_, ?_, ?_, ?_⟩
    · rw [← hb]; exact c11.bnd
    · rw [← hb, ← hn]; exact c11.bsub
    · rw [← hf]; exact c11.fnd
    · rw [← hf, ← hn]; exact c11.fsub
  have hne2 : u.forces ≠ [] := by
    intro h
    rw [h] at hf
    simp at hf
    exact c12 hf
  have hsl : ∀ sl : List Int, sl.Perm (u.nodes.map (·.label)) → sl.Pairwise (· ≤ ·) → sl = s.nt.labels := fun sl hp hs =>
    sorted_perm_eq (hp.trans (by rw [← hn]; exact c1.symm)) hs (c2.imp le_of_lt)
  have hflat : s.bt.values.flatten = (s.nt.labels.map (supportOf u.bounds)).flatten := by
    rw [c6, hb]; rfl
  have d0 := dofWhere_ok_iff.1 s.hd0
  have d1 := dofWhere_ok_iff.1 s.hd1
  rw [hflat, c3] at d0 d1
  obtain ⟨m1, ⟨s2⟩⟩ := build_make has hu hnd hlen (he.trans s.he) (hdim.trans s.hdim) hc2 hne2 (w := w) (by
      intro l hl
      rw [← hb]
      exact c7 l (c1.mem_iff.2 (by rw [hn]; exact hl))) (by
      intro sl hp hs v hv
      rw [hsl sl hp hs, ← hn]
      rcases hv with rfl | rfl
      · exact d0.2
      · exact d1.2)
  obtain ⟨e1, e2, e3, e4, e5, ⟨w2, e6, e7⟩, e8, e9, e10, e11, e12⟩ := build_closed has hu hnd hlen s2
  have hlab : s2.nt.labels = s.nt.labels := hsl _ e1 (e2.imp le_of_lt)
  have het : s2.et = s.et := by
    have := s2.he
    rw [he, s.he] at this
    exact (Option.some.inj this).symm
  have hl : s2.nt0.labels.length = s.nt0.labels.length := by rw [c3, e3, hn]
  have hbf : s2.bt.values.flatten = s.bt.values.flatten := by
    rw [hflat, e6]
    show (s2.nt.labels.map _).flatten = _
    rw [hlab]
  have g0 : s2.dof0 = s.dof0 := by
    have a := s2.hd0; have b := s.hd0
    rw [hl, hbf, b] at a
    exact (Except.ok.inj a).symm
  have g1 : s2.dof1 = s.dof1 := by
    have a := s2.hd1; have b := s.hd1
    rw [hl, hbf, b] at a
    exact (Except.ok.inj a).symm
  have hnt : s2.nt = s.nt := by
    have n1 := hu'.1
    have n2 := hu.1
    rw [s.hn] at n1
    rw [s2.hn] at n2
    obtain ⟨p1, -⟩ := fixNodes_ok has' n1 s.hfn
    obtain ⟨q1, -⟩ := fixNodes_ok has n2 s2.hfn
    have hcols : s2.nt.coords.cols = s.nt.coords.cols := by
      rw [p1, q1]
      rw [hn, n2] at n1
      have : s2.nt0 = s.nt0 := Option.some.inj (Except.ok.inj n1)
      rw [this]
    have hr : s2.nt.coords.rows = s.nt.coords.rows := by rw [c4, e4, hlab, hn]
    have hc : s2.nt.coords = s.nt.coords := by
      cases hx : s2.nt.coords; cases hy : s.nt.coords
      simp_all
    cases hx : s2.nt; cases hy : s.nt
    simp_all
  have hset : (if s2.et.mtype.contains 2 then 2 else m.settings.nstatev) =
      if s.et.mtype.contains 2 then 2 else m'.settings.nstatev := by rw [het, hst]
  have ctx1 : m1.ctx = some ⟨s.nt, s.et, s.nt0.labels.length, s.dof1.length,
      if s.et.mtype.contains 2 then 2 else m'.settings.nstatev⟩ := by
    have a1 := congrArg Model.nodes s2.hm'
    have a2 : m1.elems = some s2.et := (congrArg Model.elems s2.hm').trans s2.he
    have a3 := congrArg Model.dims s2.hm'
    have a4 := congrArg (fun x => x.settings.nstatev) s2.hm'
    simp only at a1 a3 a4
    unfold Model.ctx
    rw [a1, a2, a3, a4, hset, hnt, het, hl, g1]
    rfl
  have ctx2 : m1'.ctx = some ⟨s.nt, s.et, s.nt0.labels.length, s.dof1.length,
      if s.et.mtype.contains 2 then 2 else m'.settings.nstatev⟩ := by
    have a1 := congrArg Model.nodes s.hm'
    have a2 : m1'.elems = some s.et := (congrArg Model.elems s.hm').trans s.he
    have a3 := congrArg Model.dims s.hm'
    have a4 := congrArg (fun x => x.settings.nstatev) s.hm'
    simp only at a1 a3 a4
    unfold Model.ctx
    rw [a1, a2, a3, a4]
    rfl
  refine ⟨m1, _, _, _, _, s2.ft, s.ft, build_of_steps s2, ctx1, ctx2, ?_, ?_, congrArg Model.analysis s.hm',
    congrArg Model.results s2.hm', congrArg Model.results s.hm', rfl, rfl, congrArg Model.forces s2.hm',
    congrArg Model.forces s.hm', ?_, congrArg Model.settings s.hm', ?_, ?_⟩
  · refine (congrArg Model.dims s2.hm').trans (Eq.trans ?_ (congrArg Model.dims s.hm').symm)
    simp only [hl, het, g0, g1]
  · refine (congrArg Model.analysis s2.hm').trans ?_
    simp only [hl, het, g0, g1, hst]
  · refine (congrArg Model.settings s2.hm').trans ?_
    simp only [het, hst]
  · rw [e9, hlab]
  · rw [c9]

theorem sameLoads_rows {k : Nat} {fs fs' : List (ExtForce F)} (h : SameLoads k fs fs') (labels : List Int) :
    (labels.map (loadOf fs')).map (List.take (3 * k)) = (labels.map (loadOf fs)).map (List.take (3 * k)) := by
  rw [List.map_map, List.map_map]
  apply List.map_congr_left
  intro l _
  have hw : List.take (3 * k) (List.replicate (loadWidth fs') (0 : F)) = List.take (3 * k) (List.replicate (loadWidth fs) 0) := by
    have : min (3 * k) (loadWidth fs') = min (3 * k) (loadWidth fs) := by
      cases fs with
      | nil =>
        cases fs' with
        | nil => rfl
        | cons _ _ => simp [SameLoads] at h
      | cons f fs =>
        cases fs' with
        | nil => simp [SameLoads] at h
        | cons f' fs' =>
          simp only [SameLoads, List.map_cons, List.cons.injEq, Prod.mk.injEq] at h
          have := congrArg List.length h.1.2
          simpa [loadWidth] using this
    rw [List.take_replicate, List.take_replicate, this]
  have key : ∀ fs fs' : List (ExtForce F), SameLoads k fs fs' →
      (fs'.find? (fun f => f.node == l)).map (fun p => p.force.take (3 * k)) =
      (fs.find? (fun f => f.node == l)).map (fun p => p.force.take (3 * k)) := by
    intro fs
    induction fs with
    | nil =>
      intro fs' h
      cases fs' with
      | nil => rfl
      | cons _ _ => simp [SameLoads] at h
    | cons f fs ih =>
      intro fs' h
      cases fs' with
      | nil => simp [SameLoads] at h
      | cons f' fs' =>
        simp only [SameLoads, List.map_cons, List.cons.injEq, Prod.mk.injEq] at h
        obtain ⟨⟨h1, h2⟩, h3⟩ := h
        rw [List.find?_cons, List.find?_cons, h1]
        cases hq : f.node == l with
        | true => simp [h2]
        | false => exact ih fs' h3
  have := key fs fs' h
  show List.take (3 * k) (loadOf fs' l) = List.take (3 * k) (loadOf fs l)
  unfold loadOf
  revert this
  cases fs'.find? (fun f => f.node == l) with
  | none =>
    cases fs.find? (fun f => f.node == l) with
    | none => intro _; exact hw
    | some _ => intro h; simp at h
  | some _ =>
    cases fs.find? (fun f => f.node == l) with
    | none => intro h; simp at h
    | some _ => intro h; simpa using h

/-- The step number of every increment. -/
theorem Steps.stepNumber {env : Env F} {fuel : Nat} {c : Ctx F} {s : Settings F} {rows : List (List F)}
    {a0 : Analysis F} {r0 : Results F} {outs : List (PFOut F)} {a : Analysis F} {res : Results F}
    (h : Steps env fuel c s rows a0 r0 outs a res) : ∀ i o, outs[i]? = some o → ∀ r ∈ o.recs, r.a.step = i + 1 := by
  induction h with
  | nil => intro i o hi; simp at hi
  | @snoc outs a res incs xl a1 o R l hs h1 h2 h3 h4 h5 h6 ih =>
    intro i o' hi r hr
    rw [List.getElem?_append] at hi
    split at hi
    · exact ih i o' hi r hr
    · next hlt =>
      have : i = outs.length := by
        by_contra hne
        rw [List.getElem?_eq_none (by simp; omega)] at hi
        cases hi
      subst this
      simp at hi
      subst hi
      obtain ⟨e1, -⟩ := pathfollow_loads h4 r hr
      obtain ⟨-, hst, -⟩ := setStep_ok h3
      rw [e1, hst]

theorem Steps.lpfSome {env : Env F} {fuel : Nat} {c : Ctx F} {s : Settings F} {rows : List (List F)}
    {a0 : Analysis F} {r0 : Results F} {outs : List (PFOut F)} {a : Analysis F} {res : Results F}
    (h : Steps env fuel c s rows a0 r0 outs a res) (h0 : (lpfOf r0.R).isSome) : (lpfOf res.R).isSome := by
  cases h with
  | nil => exact h0
  | snoc _ _ _ _ _ _ g6 =>
    show (_ : Option F).isSome
    have := lastLpf_iff.1 g6
    simp only [lpfOf, this, Option.isSome_some]

/-- The end of a step with fewer increments. -/
theorem endStep_fewer {as : List (Analysis F)} {R : List (Analysis F)} (hne : R ≠ []) (hR : (lpfOf R).isSome)
    (ha : ∀ a ∈ as, a.lpf.isSome) : ∃ R1 l, syncU0 (as.foldl recordOne R) = .ok R1 ∧ lastLpf R1 = .ok l := by
  rcases List.eq_nil_or_concat R with rfl | ⟨X, j, rfl⟩
  · exact absurd rfl hne
  rw [List.concat_eq_append] at *
  rw [foldl_recordOne, syncU0_snoc]
  have hj : j.lpf.isSome := by simpa [lpfOf] using hR
  have : (as.getLastD j).lpf.isSome := by
    rcases List.eq_nil_or_concat as with rfl | ⟨as, b, rfl⟩
    · exact hj
    · rw [List.concat_eq_append, List.getLastD_concat]
      exact ha b (by simp)
  obtain ⟨l, hl⟩ := Option.isSome_iff_exists.1 this
  refine ⟨_, l, rfl, ?_⟩
  rw [lastLpf_iff, List.getLast?_concat]
  exact hl

theorem recorded_filter {outs : List (PFOut F)} (h : ∀ i o, outs[i]? = some o → ∀ r ∈ o.recs, r.a.step = i + 1) (k : Nat) :
    (recorded outs).filter (fun r => r.a.step ≤ k) = recorded (outs.take k) := by
  induction outs using List.reverseRecOn with
  | nil => simp [recorded]
  | append_singleton outs o ih =>
    have ih := ih (fun i o hi => h i o (by
      rw [List.getElem?_append_left (List.getElem?_eq_some_iff.1 hi).1]; exact hi))
    have ho := h outs.length o (by simp)
    rw [recorded_snoc, List.filter_append, ih]
    by_cases hk : k ≤ outs.length
    · rw [List.take_append_of_le_length hk]
      rw [List.filter_eq_nil_iff.2 (by
        intro r hr
        have := ho r hr
        simp; omega), List.append_nil]
    · rw [List.take_of_length_le (l := outs) (by omega),
        List.take_of_length_le (by rw [List.length_append, List.length_singleton]; omega), recorded_snoc]
      congr 1
      rw [List.filter_eq_self]
      intro r hr
      have := ho r hr
      simp; omega

/-- A shorter run of the same model, step by step and in the last step with fewer increments. -/
theorem run_shorter {env : Env F} {fuel : Nat} {m m' m2' : Model F} {c : Ctx F} {a r r' : Analysis F} {ft ft' : ForceTab F}
    (hc : m.ctx = some c) (hc' : m'.ctx = some c) (ha : m.analysis = some a) (ha' : m'.analysis = some a)
    (hres : m.results = some ⟨[r], []⟩) (hres' : m'.results = some ⟨[r'], []⟩) (hr : r.lpf = some 0) (hr' : r'.lpf = some 0)
    (hf : m.forces = some ft) (hf' : m'.forces = some ft') (hg : SameGlobal m.settings m'.settings) {k n n' : Nat}
    (hrows : ft'.forces.rows.map (List.take (3 * (k + 1))) = ft.forces.rows.map (List.take (3 * (k + 1))))
    (hk : m.settings.nsteps = k + 1) (hk' : k + 1 ≤ m'.settings.nsteps)
    (hi : ∀ i < k, m'.settings.incs.ofStep i = m.settings.incs.ofStep i) (hn : m.settings.incs.ofStep k = some n)
    (hn' : m'.settings.incs.ofStep k = some n') (hle : n ≤ n')
    (hx : ∀ i < k + 1, m'.settings.xlimit.ofStep i = m.settings.xlimit.ofStep i) (h : m'.run env fuel = .ok m2') :
    ∃ m2 outs' le le', ∃ o o' : PFOut F, m.run env fuel = .ok m2 ∧
      m2.results = some ⟨r :: (recorded (outs'.take k)).map (·.a) ++ o.recs.map (·.a), le⟩ ∧
      m2'.results = some ⟨r' :: (recorded outs').map (·.a), le'⟩ ∧ outs'[k]? = some o' ∧ o.recs = o'.recs.take n ∧
      le.length = k + 1 ∧ (∀ i o, outs'[i]? = some o → ∀ r ∈ o.recs, r.a.step = i + 1) ∧
      le.take k <+: le' ∧ (n = n' → o = o' ∧ le <+: le') := by
  obtain ⟨c1, a1, res1, ft1, q, rest, g1, g2, g3, g4, g5, glog, -, -, -, -, -, -, outs', a2, R', le', g6, g7, g8⟩ := run_ok h
  rw [hc'] at g1; cases g1
  rw [ha'] at g2; cases g2
  rw [hres'] at g3; cases g3
  rw [hf'] at g4; cases g4
  simp only [List.cons.injEq] at g5
  obtain ⟨rfl, rfl⟩ := g5
  rcases g8 with ⟨e, -⟩ | ⟨-, g8, -⟩
  · omega
  have hkl : k < outs'.length := by omega
  obtain ⟨a3, res3, hs3, hp3⟩ := g7.take (k + 1) (by omega)
  obtain ⟨o', ho'⟩ : ∃ o', outs'[k]? = some o' := ⟨_, List.getElem?_eq_getElem hkl⟩
  have htake : outs'.take (k + 1) = outs'.take k ++ [o'] := by
    rw [List.take_add_one, ho']
    rfl
  rw [htake] at hs3
  obtain ⟨b, res4, incs, xl, a4, R4, l4, hs4, j1, j2, j3, j4, j5, j6, -, j7⟩ := hs3.last
  have hlk : (outs'.take k).length = k := by simp; omega
  rw [hlk] at j1 j2 j3
  obtain ⟨res5, t1, t2, t2', t3, t4⟩ := hs4.transfer (s := m.settings) (k := k + 1) (r0 := ⟨[r, r], []⟩)
    (r0' := ⟨[r', r'], []⟩) hg hrows (by simp) (by simp)
    (by simp [lpfOf, hr, hr']) rfl (by rw [hlk]; exact hi) (by rw [hlk]; exact fun i h => hx i (by omega)) (by omega)
  rw [stepIncs_iff, hn'] at j1
  cases j1
  rw [stepXlimit_iff, hx _ (by omega), ← stepXlimit_iff] at j2
  rw [setStep_same hrows (by omega), ← t4] at j3
  rw [← stepCfg_same hg] at j4
  obtain ⟨o, p1, p2, p3⟩ := pathfollow_prefix hle j4
  have hsome : (lpfOf res5.R).isSome := t1.lpfSome (by simp [lpfOf, hr])
  obtain ⟨R1, l1, q1, q2⟩ := endStep_fewer (as := o.recs.map (·.a)) t2 hsome (by
    intro x hx
    obtain ⟨y, hy, rfl⟩ := List.mem_map.1 hx
    obtain ⟨-, -, -, l, h1, -⟩ := pathfollow_loads p1 y hy
    rw [h1]
    rfl)
  have hs5 := Steps.snoc t1 (by rw [hlk]; exact stepIncs_iff.2 hn) (by rw [hlk]; exact j2) (by rw [hlk]; exact j3) p1 q1 q2
  have hrun := run_of_steps hc ha hres hf (by rw [hg.log, hg.j0]; exact glog) (by rw [hlk, hk]) hs5
  have hend : (res5.stepLpfEnd).length = k := by
    obtain ⟨ends, -, i1, i2, -⟩ := t1.chain
    rw [i1]
    simp [i2, hlk]
  have hd1 : R1.dropLast = r :: (recorded (outs'.take k)).map (·.a) ++ o.recs.map (·.a) := by
    obtain ⟨u0, hu⟩ := Steps.layout (X := [r]) hs5
    simp only at hu
    rw [hu, List.dropLast_concat, recorded_snoc]
    simp
  have hd2 : R'.dropLast = r' :: (recorded outs').map (·.a) := by
    obtain ⟨u0, hu⟩ := Steps.layout (X := [r']) g7
    simp only at hu
    rw [hu, List.dropLast_concat]
    rfl
  cases j7
  simp only at hp3
  refine ⟨_, outs', res5.stepLpfEnd ++ [l1], le', o, o', hrun, by simp only [hd1], by rw [g8, hd2], ho', p2, by simp [hend], g7.stepNumber, ?_,
    fun hnn => ?_⟩
  · rw [List.take_append_of_le_length (by omega), List.take_of_length_le (by omega), t4]
    exact (List.prefix_append _ _).trans hp3
  · have := p3 (.inr hnn)
    subst this
    refine ⟨rfl, ?_⟩
    obtain ⟨R6, k1, k2, -⟩ := endStep t2 t2' t3 j5 j6
    rw [q1] at k1
    cases k1
    rw [q2] at k2
    cases k2
    rw [t4]
    exact hp3

end TrussPy
