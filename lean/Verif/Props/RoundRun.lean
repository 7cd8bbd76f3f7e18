import Verif.Spec.RoundedRun
import Verif.Lemmas.RoundRun
import Verif.Props.RoundFollow
import Verif.Props.Ieee
import Verif.Props.TwoBar
/-!
# Property C113: a run in rounded arithmetic
-/

set_option linter.unusedSectionVars false

namespace TrussPy

section
variable {F : Type} [Zero F] [One F] [Add F] [Sub F] [Mul F] [Div F] [Neg F] [Flt F]

theorem initDxmax_pair {x : List F} {n : Nat} (hx : x.length = n) {du dl : F} :
    initDxmax (x ++ [0]) (.vec [du, dl]) = List.replicate n du ++ [dl] := by
  show List.replicate ((x ++ [(0 : F)]).length - 1) du ++ [dl] = _
  rw [List.length_append, hx]
  rfl

/-- The first step in the number format stands for the first step in real numbers. -/
theorem stands_for {val : F → ℝ} (h0 : val 0 = 0) {u : UserInput F} {es : List (Elem F)} {c' : Ctx ℝ} {bars' : List (Bar ℝ)} {a' : Analysis ℝ}
    {ef' : StepForces ℝ} {c : Ctx F} {d : Dims} {bars : List (Bar F)} {A1 : Analysis F} {ef : StepForces F}
    (hs : LaidStep (u.image val) (es.map (Elem.image val)) c' bars' a' ef')
    (hf : ef'.forces = (stepSlice (c'.nodes.labels.map (loadOf (u.image val).forces)) 0).flatten)
    (hfc : ef'.forcesConst = ef'.forces.map fun _ => 0)
    (q1 : Evaluable c bars A1 ef) (q2 : A1.Ready c) (q3 : A1.f0red = A1.DOF1.map fun p => ef.forces.getD p 0)
    (q4 : A1.DOF1 = d.dof1) (q5 : A1.U = List.replicate (3 * c.nnodes) 0)
    (q6 : Meant u es c.nodes.labels bars) (q7 : c.nodes.labels.Perm (u.nodes.map (·.label))) (q8 : c.nodes.labels.Pairwise (· < ·))
    (q9 : c.nnodes = c.nodes.labels.length) (q11 : d.dof1.Pairwise (· < ·)) (q12 : ∀ i ∈ d.dof1, i < 3 * c.nnodes)
    (q13 : ∀ (i : Nat) (l : Int), c.nodes.labels[i]? = some l → ∀ e : Fin 3, 3 * i + e ∈ d.dof1 ↔ (supportOf u.bounds l)[e.val]? = some 1)
    (q14 : ef.forces = (stepSlice (c.nodes.labels.map (loadOf u.forces)) 0).flatten) (q15 : ef.forcesConst = ef.forces.map fun _ => 0) :
    StandsFor val c bars A1 ef c' bars' a' ef' ∧ c.nodes.labels = c'.nodes.labels := by
  have hlab : (u.image val).nodes.map (·.label) = u.nodes.map (·.label) := by
    simp [UserInput.image, Node.image, Function.comp_def]
  have hl : c.nodes.labels = c'.nodes.labels := labels_unique q8 hs.laid.sorted (q7.trans (by rw [← hlab]; exact hs.laid.perm.symm))
  have hnn : c'.nnodes = c.nnodes := by rw [q9, hs.laid.nnodes, hl]
  have hdof : a'.DOF1 = A1.DOF1 := by
    rw [q4]
    refine sorted_unique hs.laid.dofSorted q11 fun p => ?_
    by_cases hp : p < 3 * c.nnodes
    · have hlen : p / 3 < c.nodes.labels.length := by omega
      have h1 := q13 (p / 3) _ (List.getElem?_eq_getElem hlen) (comp p)
      have h2 := hs.laid.dof (p / 3) _ (by rw [← hl]; exact List.getElem?_eq_getElem hlen) (comp p)
      rw [dof_split] at h1 h2
      exact h2.trans h1.symm
    · exact ⟨fun h => absurd (hnn ▸ hs.laid.dofLt p h) hp, fun h => absurd (q12 p h) hp⟩
  have hforces : ef.forces.map val = ef'.forces := by
    rw [q14, hf, ← hl, ← stepSlice_image, List.map_map]
    congr 2
    refine List.map_congr_left fun l _ => ?_
    exact (loadOf_image h0 u.forces l).symm
  refine ⟨⟨q1, q2, q3, ?_, ?_, ⟨hnn, ?_, hdof, ?_⟩⟩, hl⟩
  · have hun : (u.nodes.map (·.label)).Nodup := by rw [← hlab]; exact hs.laid.nodup
    exact Meant.image (q7.nodup_iff.2 hun) hun q6 (by rw [hl]; exact hs.laid.meant)
  · show (⟨ef.forces.map val, ef.forcesConst.map val⟩ : StepForces ℝ) = ef'
    have : ef.forcesConst.map val = ef'.forcesConst := by
      rw [q15, hfc, ← hforces, List.map_map, List.map_map]
      refine List.map_congr_left fun v _ => h0
    rw [hforces, this]
  · rw [← hs.eval.dofs, ← q1.dofs, hdof]
  · intro i _
    rw [hs.U, q5, List.getD_eq_getElem?_getD, List.getD_eq_getElem?_getD, List.getElem?_replicate, List.getElem?_replicate, hnn]
    split <;> exact h0.symm

/-- What the table of a recorded increment shows. -/
theorem shows_point {val : F → ℝ} (h0 : val 0 = 0) {u : UserInput ℝ} {es : List (Elem ℝ)} {c' : Ctx ℝ} {bars : List (Bar ℝ)} {dofs : List Nat}
    (hl : Laid u es c' bars dofs) {P : List (Int × Fin 3)} (hP : FreeList u P) {a : Analysis F} (hI : ReducedTo a.U dofs a.Ured)
    (hU : a.U.length = 3 * c'.nnodes) {x : List F} (hx : x.length = P.length + 1) (hr : a.Ured = x.dropLast) (hlpf : x.getLast? = a.lpf)
    {U : Int → V3 ℝ} {l tol : ℝ} (hs : AllowedVelocity u U) (hc : ∀ i ≤ P.length, |val (x.getD i 0) - component P U l i| ≤ tol) :
    ShowsPoint val c'.nodes.labels a U l tol := by
  have hPd := hl.freeList hP
  have hPl : P.length = dofs.length := by rw [hPd, List.length_map]
  have hlast := hc P.length (le_refl _)
  have hcl : component P U l P.length = l := by
    unfold component
    rw [List.getElem?_eq_none (le_refl _)]
  rw [hcl] at hlast
  refine ⟨⟨x.getD P.length 0, ?_, hlast⟩, ?_⟩
  · rw [← hlpf, List.getLast?_eq_getElem?, hx, Nat.add_sub_cancel, List.getD_eq_getElem?_getD,
      List.getElem?_eq_getElem (by omega)]
    rfl
  · intro i lab hi e
    have hin : 3 * i + e.val < 3 * c'.nnodes := by
      have := (List.getElem?_eq_some_iff.1 hi).1
      have := hl.nnodes
      have := e.isLt
      omega
    show |val (a.U.getD (3 * i + e.val) 0) - U lab e| ≤ tol
    by_cases hm : 3 * i + e.val ∈ dofs
    · obtain ⟨k, hk⟩ := List.getElem?_of_mem hm
      have hkl := (List.getElem?_eq_some_iff.1 hk).1
      have h1 := (hI.free k _ hk).1
      have h2 := hc k (by omega)
      have h3 : component P U l k = U lab e := by
        unfold component
        have hp := dof_parts i e
        rw [hPd, List.getElem?_map, hk]
        show U (dofLabel c' (3 * i + e)) (comp (3 * i + e)) = _
        rw [hp.2]
        congr 1
        unfold dofLabel
        rw [hp.1, List.getD_eq_getElem?_getD, hi]
        rfl
      rw [h3] at h2
      rw [hr, List.getElem?_dropLast, if_pos (by omega)] at h1
      rw [List.getD_eq_getElem?_getD, h1, ← List.getD_eq_getElem?_getD]
      exact h2
    · have h1 := hI.locked _ (by rw [hU]; exact hin) hm
      rw [List.getD_eq_getElem?_getD, h1]
      obtain ⟨n, hn, rfl⟩ := hl.node hi
      rw [hs n hn e (fun h => hm ((hl.dof i _ hi e).2 h))]
      show |val 0 - 0| ≤ tol
      rw [h0]
      simpa using le_trans (abs_nonneg _) hlast

end

/-- **C113.** Given an elastic truss, entered in real numbers, and a path of regular equilibria of it under the loads of the first step, there are a step width
`h0`, a bound `η0` on the errors and constants `κ`, `L`, `Γ` such that for every number format with rounding error `δ ≤ η/Γ`, every linear solver with relative
error up to `1/32` and absolute error up to `η ≤ η0`, every model in which this truss is entered in numbers of the format, and all step widths below `h0`:
`build` and `run` return, and the results are the undeformed state and points of the path, up to `L` times the tolerance; the parameter of
the `i`-th of them is `i h`, up to `6 i` times the tolerance. -/
theorem C113_run_rounded {u' : UserInput ℝ} {es' : List (Elem ℝ)} {nsteps : Nat} (hv : ValidInput u' es' nsteps) (hns : 1 ≤ nsteps)
    (hel : ∀ e ∈ es', e.mtype = 1) {P : List (Int × Fin 3)} (hP : FreeList u' P) {j : Int} (hj1 : 1 ≤ j.natAbs)
    (hj2 : j.natAbs ≤ P.length + 1) {S : ℝ} (hS : 0 ≤ S) {U : ℝ → Int → V3 ℝ} {l : ℝ → ℝ} (ht : Trail u' es' P j S U l) :
    ∃ h0 > 0, ∃ η0 > 0, ∃ κ L Γ : ℝ, 0 ≤ κ ∧ 1 ≤ Γ ∧
      ∀ (F : Type) [Zero F] [One F] [Add F] [Sub F] [Mul F] [Div F] [Neg F] [Flt F] (val : F → ℝ) (δ η θ τ : ℝ), Rounds val δ → Γ * δ ≤ η →
      η ≤ η0 → 0 ≤ θ → θ ≤ 1 / 32 → 0 ≤ τ → τ ≤ η →
      ∀ (u : UserInput F) (es : List (Elem F)), u.image val = u' → es.map (Elem.image val) = es' →
      ∀ (argsort : List Int → List Nat), IsArgsort argsort → ∀ m : Model F, Entered u m → EnteredElems es m → m.settings.ndim = 3 →
      m.settings.nsteps = 1 → m.settings.log ≤ 1 →
      ∀ env : Env F, SolvesNear val env.spsolve (P.length + 1) κ θ τ →
      (∀ l : List F, l ≠ [] → ∃ i, (env.argsortF l).getLast? = some i ∧ i < l.length) →
      ∀ h f : F, HeldControl m.settings P.length j h → Flt.pow10neg m.settings.ftol = f → 0 < val h → val h < h0 →
      0 < val f → 6 * val f ≤ val h → val h + 8 * val f ≤ val m.settings.dxtol * val h →
      |val (Flt.pow10neg m.settings.xtol)| ≤ 1 / δ → |val m.settings.dxtol| ≤ 1 / δ →
      ∀ K xl, m.settings.incs.ofStep 0 = some K → m.settings.xlimit.ofStep 0 = some xl → 1 ≤ xl.1 → xl.1 ≤ P.length + 1 → |val xl.2| ≤ 1 / δ →
      K * (val h + 6 * val f) ≤ S →
      ∀ N : Nat, Γ * ((val h + val f) * (3 / 4) ^ N + η) < val f →
      Γ * ((val h + val f) * (3 / 4) ^ N + η) < val (Flt.pow10neg m.settings.xtol) → (N : Int) + 1 ≤ m.settings.nfev →
      ∀ fuel, 1 ≤ fuel → ∃ m1 m2 nt res q, m.build argsort = .ok m1 ∧ m1.run env fuel = .ok m2 ∧ m1.nodes = some nt ∧
        nt.labels.Perm (u'.nodes.map (·.label)) ∧ m2.results = some res ∧
        FollowsClosely val nt.labels res.R (val h) (val f) L U l S K xl q ∧ res.R.length = q + 1 := by
  by_cases hex : ∃ (as : List Int → List Nat) (m0 : Model ℝ), IsArgsort as ∧ Entered u' m0 ∧ EnteredElems es' m0 ∧
      m0.settings.ndim = 3 ∧ m0.settings.nstatev = 0
  swap
  · refine ⟨1, one_pos, 1, one_pos, 0, 0, 1, le_rfl, le_rfl, ?_⟩
    rintro F _ _ _ _ _ _ _ _ val δ η θ τ - - - - - - - u es rfl rfl as has m hu he
    obtain ⟨m', e1, e2, e3, e4⟩ := entered_image (val := val) hu he
    exact absurd ⟨as, m', has, e1, e2, e3, e4⟩ hex
  obtain ⟨c', d', bars', a', ef', hlaid, hstep, hready, hDA, hUr, hfree, hall⟩ :=
    step_ready hv hns (fun e he h2 => absurd h2 (by rw [hel e he]; decide)) 0 hex
  -- the loads
  have hloads : ef'.forces = (stepSlice (c'.nodes.labels.map (loadOf u'.forces)) 0).flatten ∧ ef'.forcesConst = ef'.forces.map fun _ => 0 := by
    obtain ⟨as, m0, has, hu, he, hd, hn⟩ := hex
    obtain ⟨m1, a, r, ft, g1, g2, gd, g5, g7, g9, g11, g13, hset⟩ := hall as has m0 hu he hd hn
    have h2n : 2 ≤ u'.nodes.length := by
      obtain ⟨s⟩ := build_steps g1
      have he' := he
      unfold EnteredElems at he'
      rw [s.he] at he'
      exact two_nodes he' hv.posed
    obtain ⟨nt, ft', f1, f2, f3, f4, f5, -⟩ := C03_loads_partial has hu hv.posed.nodes h2n g1
    rw [ctx_nodes g2] at f1; cases f1
    rw [g11] at f2; cases f2
    obtain ⟨-, -, -, fc, hfc, hext, -⟩ := setStep_ok hset
    rw [hstep.eval.ext] at hext
    have hef := Option.some.inj hext
    rw [hef]
    exact ⟨by rw [← f4], (Except.ok.inj hfc).symm⟩
  have hPd := hlaid.freeList hP
  have hPl : P.length = a'.DOF1.length := by rw [hPd, List.length_map, hDA]
  have hk : j.natAbs - 1 < a'.DOF1.length + 1 := by rw [← hPl]; omega
  have hjk : j.natAbs = ((⟨j.natAbs - 1, hk⟩ : Fin (a'.DOF1.length + 1)) : Nat) + 1 := by
    show j.natAbs = j.natAbs - 1 + 1
    omega
  have hpath := hstep.path hP hjk hS ht
  have hU0 := undeformed hstep hDA hUr ht.start ht.startLoad
  have hlaw : ∀ b ∈ bars', b.law = .el := by
    intro b hb
    obtain ⟨i, hi⟩ := List.getElem?_of_mem hb
    obtain ⟨hlt, rfl⟩ := List.getElem?_eq_some_iff.1 hi
    have hlt' : i < es'.length := by rw [hlaid.meant.length_eq]; exact hlt
    obtain ⟨nA, -, nE, -, hbo⟩ := (List.forall₂_iff_get.1 hlaid.meant).2 i hlt' hlt
    rcases hbo.law with ⟨-, q⟩ | ⟨p, -⟩
    · exact q
    · have := hel _ (List.get_mem es' ⟨i, hlt'⟩)
      omega
  have hlen0 : ∀ b ∈ bars', len b.ref ≠ 0 := by
    intro b hb
    obtain ⟨i, hi⟩ := List.getElem?_of_mem hb
    obtain ⟨hlt, rfl⟩ := List.getElem?_eq_some_iff.1 hi
    have hlt' : i < es'.length := by rw [hlaid.meant.length_eq]; exact hlt
    obtain ⟨nA, hA, nE, hE, hbo⟩ := (List.forall₂_iff_get.1 hlaid.meant).2 i hlt' hlt
    have := ht.length 0 ⟨le_rfl, hS⟩ _ (List.get_mem es' ⟨i, hlt'⟩) _ _ hbo.conn
    show len (bars'.get ⟨i, hlt⟩).ref ≠ 0
    rw [hlaid.ref hA hE hbo]
    have e : span u' (U 0) nA.label nE.label = span u' 0 nA.label nE.label := by
      funext d
      unfold span
      rw [ht.start nA hA, ht.start nE hE]
      rfl
    rwa [e] at this
  obtain ⟨g0, hg0, η0, hη0, κ, L, Γ, hκ, hΓ, key⟩ := C111_follows_path_rounded hstep.eval hstep.lpf hstep.f0 hlaw hlen0 (n := a'.DOF1.length)
    (by rw [hstep.eval.dofs]) hfree hjk hS hpath
  refine ⟨g0, hg0, η0, hη0, κ, L, Γ, hκ, hΓ, ?_⟩
  rintro F _ _ _ _ _ _ _ _ val δ η θ τ hR hδη hηη hθ0 hθ hτ0 hτ u es rfl rfl as has m hu he hd hs1 hlog env hsp hsort h f hfix hff hh hlt hf0 hfh hdx hxr hdr
    K xl hK hxl hx1 hx2 hxv hKS N hN1 hN2 hN3 fuel hfuel
  obtain ⟨m1, c, d, bars, a, r0, ft, A1, ef, q1, q2, q3, q4, q5, q6, q7, q8, q9, q10, q11, q12, q13, q14, q15, q16, q17, q18, q19, q20, q21, q22,
    q23, q24, q25⟩ := first_step has hv.of_image hns hu he hd
  obtain ⟨hSF, hlabs⟩ := stands_for hR.zero hstep hloads.1 hloads.2 q10 q11 q12 q13 q15 q16 q17 q18 q19 q21 q22 q23 q24 q25
  have hdofs : d.dof1 = a'.DOF1 := by rw [← q13]; exact hSF.twin.dof1.symm
  have hcfg : stepCfg m1.settings K xl = stepCfg m.settings K xl := by rw [q8]; rfl
  have hw := initDxmax_pair (x := A1.Ured) (n := a'.DOF1.length) (by rw [q14, hdofs]; simp) (du := m.settings.du) (dl := m.settings.dlpf)
  obtain ⟨o, o1, o2, o3⟩ := key F val δ η θ τ hR hδη hηη hθ0 hθ hτ0 hτ c bars A1 ef hSF env (by rw [← hPl]; exact hsp) hsort h hh hlt
    (stepCfg m.settings K xl) hfix.fixed hfix.control hfix.plain (by rw [← hff] at hf0; exact hf0) (by rw [← hff] at hfh; exact hfh)
    (by rw [← hff] at hdx; exact hdx) hxr hdr A1.Ured (by
      rw [hU0, q14, hdofs, hUr, hDA, List.map_append, List.map_replicate, hR.zero]
      show _ ++ [val 0] = _
      rw [hR.zero]) (by
      show (initDxmax (A1.Ured ++ [0]) (.vec [m.settings.du, m.settings.dlpf])).length = _
      rw [hw]
      simp) (by
      show (initDxmax (A1.Ured ++ [0]) (.vec [m.settings.du, m.settings.dlpf]))[j.natAbs - 1]? = _
      rw [hw]
      have := hfix.width
      rw [hPl] at this
      split at this
      next hle =>
        rw [List.getElem?_append_left (by rw [List.length_replicate]; omega), List.getElem?_replicate, if_pos (by omega), this]
      next hle =>
        rw [List.getElem?_append_right (by rw [List.length_replicate]; omega), List.length_replicate,
          show j.natAbs - 1 - a'.DOF1.length = 0 by omega, ← this]
        rfl) (by
      intro q hq
      have hq : some xl = some q := hq
      cases hq
      rw [← hPl]
      exact ⟨hx1, hx2, hxv⟩) (by rw [← hff] at hKS; exact hKS) N (by rw [← hff] at hN1; exact hN1) (by rw [← hff] at hN2; exact hN2) hN3 fuel hfuel
  have hlen : o.recs.length ≤ K := (C38_limit_stop _ _ _ _ _ _ o o1).2.1
  rw [← hcfg] at o1
  have hPd' : P = a'.DOF1.map fun p => (dofLabel c' p, comp p) := by rw [hDA]; exact hPd
  obtain ⟨m2, hrun⟩ := one_step_returns hs1 hlog q2 q4 q5 q6 q7 q8 q9 hK hxl o1
  obtain ⟨res, s1, s2, s3, s4⟩ := run_records q1 hrun (by omega) q2 q3 q4 q5 q7 q8 q9 hK hxl o1 fun q r hr => (o2 q r hr).1
  refine ⟨m1, m2, c.nodes, res, o.recs.length, q1, hrun, s1, ?_, s2, ⟨?_, hlen, ?_⟩, s3 hs1⟩
  · rw [hlabs]
    exact hlaid.perm
  · intro i hi
    have hir := List.getElem?_eq_getElem hi
    generalize o.recs[i] = r at hir
    obtain ⟨r1, y, t, r2, r3, r4, r5, r6⟩ := o2 i r hir
    obtain ⟨p1, p2, p3, p4, p5, p6⟩ := s4 i r hir
    refine ⟨r.a, t, p1, r3, by rw [← hff]; exact r4, ?_⟩
    rw [hlabs]
    refine shows_point hR.zero hstep.laid hP (by rw [← hdofs]; exact p5) (by rw [hSF.twin.nnodes]; exact p6) (by rw [r2, hPl]; simp) p3 p4
      (ht.supports t r3) fun k hk => ?_
    rw [hPl] at hk
    have h6 := r6 ⟨k, by omega⟩
    rw [← component_eq hPd'] at h6
    rw [r2, List.getD_eq_getElem?_getD, List.getElem?_ofFn, dif_pos (by omega), ← hff]
    exact h6
  · rcases o3 with o3 | ⟨r, v, q, o4, o5, o6, o7⟩
    · exact Or.inl o3
    · right
      have o5 : some xl = some q := o5
      cases o5
      have hpos : 0 < o.recs.length := List.length_pos_of_mem (List.mem_of_getLast? o4)
      rw [List.getLast?_eq_getElem?] at o4
      obtain ⟨p1, p2, -⟩ := s4 _ r o4
      refine ⟨hpos, r.a, v, ?_, ?_, o7⟩
      · rwa [Nat.sub_add_cancel hpos] at p1
      · rw [p2]
        exact o6

/-! ## The hypotheses are met

By the two-bar truss with width, height, modulus and area 1, pushed down through the flat position, in every number format with small enough rounding error
that has a number near every number up to 4. -/

section
variable {F : Type} [Zero F] [One F] [Neg F]

def rtInput : UserInput F where
  nodes := [⟨2, [0, 0, 1]⟩, ⟨1, [-1, 0, 0]⟩, ⟨3, [1, 0, 0]⟩]
  bounds := [⟨1, [0, 0, 0]⟩, ⟨3, [0, 0, 0]⟩, ⟨2, [0, 0, 1]⟩]
  forces := [⟨2, [0, 0, -1]⟩]

def rtElems : List (Elem F) := [⟨1, [1, 2], 1, 1, ⟨false, [1]⟩, ⟨false, [1]⟩⟩, ⟨2, [2, 3], 1, 1, ⟨false, [1]⟩, ⟨false, [1]⟩⟩]

def rtModel (s : Settings F) : Model F where
  nodes := some ⟨[2, 1, 3], ⟨3, [[0, 0, 1], [-1, 0, 0], [1, 0, 0]]⟩⟩
  elems := some ⟨[1, 2], ⟨2, [[1, 2], [2, 3]]⟩, [1, 1], [1, 1], ⟨false, 1, [[1], [1]]⟩, ⟨false, 1, [[1], [1]]⟩⟩
  bounds := some ⟨[1, 3, 2], .d2 ⟨3, [[0, 0, 0], [0, 0, 0], [0, 0, 1]]⟩⟩
  forces := some ⟨[2], ⟨3, [[0, 0, -1]]⟩⟩
  settings := s

end

/-- The results show the apex moved from the height 1 to below the height -3/4, at the exact load factors, up to any given accuracy. -/
theorem rt_run (ε : ℝ) (hε : 0 < ε) : ∃ κ : ℝ, 0 ≤ κ ∧ ∀ C0 : ℝ, 0 ≤ C0 → ∃ σ > 0, ∀ (F : Type) [Zero F] [One F] [Add F] [Sub F] [Mul F] [Div F] [Neg F]
    [Flt F] (val : F → ℝ) (δ : ℝ), Rounds val δ → δ ≤ σ → (∀ t : ℝ, |t| ≤ 4 → ∃ x : F, |val x - t| ≤ δ) →
    ∀ sp : List (List F) → List F → Py (List F), SolvesNear val sp 2 κ 0 (C0 * δ) → ∀ argsort : List Int → List Nat, IsArgsort argsort →
    ∃ (s : Settings F) (h f L : ℝ) (K : Nat) (xl : Int × F) (m1 m2 : Model F) (nt : NodeTab F) (res : Results F) (q : Nat),
      (rtModel s).build argsort = .ok m1 ∧ m1.run ⟨sp, fun l => List.range l.length⟩ 1 = .ok m2 ∧ m1.nodes = some nt ∧ m2.results = some res ∧
      FollowsClosely val nt.labels res.R h f L tbMove (vmLoad 1 1 1 1) 2 K xl q ∧ res.R.length = q + 1 ∧
      L * f ≤ ε ∧ 9 / 5 ≤ K * h ∧ K * (6 * f) ≤ 1 / 20 := by
  obtain ⟨h0, hh0, η0, hη0, κ, L, Γ, hκ, hΓ, H⟩ := C113_run_rounded (tbValid 1 1 1 1) le_rfl
    (by intro e he; simp only [tbElems, List.mem_cons, List.not_mem_nil, or_false] at he; rcases he with rfl | rfl <;> rfl)
    (tbFree 1 1) (j := -1) (by decide) (by decide) (by norm_num : (0 : ℝ) ≤ 2) (tbTrail (E := 1) (A := 1) one_pos 2)
  refine ⟨κ, hκ, fun C0 hC0 => ?_⟩
  obtain ⟨M, hM⟩ := exists_nat_gt (4 / h0)
  rw [div_lt_iff₀ hh0] at hM
  have hM1 : (0 : ℝ) < M + 1 := by positivity
  have hM1' : (1 : ℝ) ≤ M + 1 := by have : (0 : ℝ) ≤ M := Nat.cast_nonneg M; linarith
  set T : ℝ := 19 / 10 / (M + 1) with hT
  have hMT : ((M : ℝ) + 1) * T = 19 / 10 := by rw [hT]; field_simp
  have hT0 : 0 < T := by positivity
  have hT2 : T ≤ 19 / 10 := by
    have := mul_le_mul_of_nonneg_right hM1' hT0.le
    linarith
  have hTh : 2 * T < h0 := by
    by_contra hc
    have := mul_le_mul_of_nonneg_left (not_lt.1 hc) hM1.le
    linarith
  obtain ⟨k, hk⟩ := exists_pow_lt_of_lt_one (show 0 < min (T / 400) (ε / (2 * (|L| + 1))) by positivity) (show (10 : ℝ)⁻¹ < 1 by norm_num)
  have hp : (10 : ℝ)⁻¹ ^ k = (10 : ℝ) ^ (-(k : Int)) := by rw [zpow_neg, zpow_natCast, inv_pow]
  rw [hp] at hk
  have ht0 : (0 : ℝ) < (10 : ℝ) ^ (-(k : Int)) := by positivity
  set t := (10 : ℝ) ^ (-(k : Int)) with ht
  have htT : t ≤ T / 400 := (hk.trans_le (min_le_left _ _)).le
  have htL : (|L| + 1) * (2 * t) ≤ ε := by
    have h1 : t ≤ ε / (2 * (|L| + 1)) := (hk.trans_le (min_le_right _ _)).le
    rw [le_div_iff₀ (by positivity)] at h1
    linarith
  set Λ := Γ + C0 + 2 with hΛ
  have hΛ1 : 1 ≤ Λ := by linarith
  set σ := min (min (η0 / Λ) (t / 8 / (Γ * Λ))) (min (t / 4) (1 / 4)) with hσ
  have hσ0 : 0 < σ := by positivity
  obtain ⟨N, hN⟩ := exists_pow_lt_of_lt_one (show 0 < t / 32 / Γ by positivity) (by norm_num : (3 / 4 : ℝ) < 1)
  refine ⟨σ, hσ0, ?_⟩
  intro F _ _ _ _ _ _ _ _ val δ hR hδσ hdense sp hsol as has
  have hδ0 := hR.pos
  have d1 : Λ * δ ≤ η0 := by
    have := hδσ.trans ((min_le_left _ _).trans (min_le_left _ _))
    rw [le_div_iff₀ (by linarith)] at this
    linarith
  have d2 : Γ * (Λ * δ) ≤ t / 8 := by
    have := hδσ.trans ((min_le_left _ _).trans (min_le_right _ _))
    rw [le_div_iff₀ (by positivity)] at this
    linarith
  have d3 : δ ≤ t / 4 := hδσ.trans ((min_le_right _ _).trans (min_le_left _ _))
  have d4 : δ ≤ 1 / 4 := hδσ.trans ((min_le_right _ _).trans (min_le_right _ _))
  have hbig : (4 : ℝ) ≤ 1 / δ := by
    rw [le_div_iff₀ hδ0]
    linarith
  obtain ⟨h, hhT⟩ := hdense T (by rw [abs_of_pos hT0]; linarith)
  obtain ⟨D, hd2⟩ := hdense 3 (by norm_num)
  have hft := hR.pow10neg k (by linarith)
  rw [← ht] at hft
  have hδt : δ * (1 + t) ≤ t / 2 := by
    have : δ * t ≤ δ * 1 := mul_le_mul_of_nonneg_left (by linarith) hδ0.le
    linarith
  replace hft := abs_le.1 (hft.trans hδt)
  replace hhT := abs_le.1 hhT
  replace hd2 := abs_le.1 hd2
  have hNf : Γ * ((val h + val (Flt.pow10neg (k : Int) : F)) * (3 / 4) ^ N + Λ * δ) < val (Flt.pow10neg (k : Int) : F) := by
    rw [lt_div_iff₀ (by linarith)] at hN
    have h1 : (0 : ℝ) ≤ (3 / 4) ^ N * Γ := by positivity
    have h2 : (val h + val (Flt.pow10neg (k : Int) : F)) * ((3 / 4) ^ N * Γ) ≤ 4 * ((3 / 4) ^ N * Γ) := mul_le_mul_of_nonneg_right (by linarith) h1
    have e : Γ * ((val h + val (Flt.pow10neg (k : Int) : F)) * (3 / 4) ^ N + Λ * δ) =
      (val h + val (Flt.pow10neg (k : Int) : F)) * ((3 / 4) ^ N * Γ) + Γ * (Λ * δ) := by ring
    rw [e]
    linarith
  have hneg : val (-1) = -1 := by rw [hR.neg 1 (by rw [hR.one, abs_one]; linarith), hR.one]
  have hKh : ((M : ℝ) + 1) * val h ≤ 19 / 10 + 19 / 16000 := by
    have := mul_le_mul_of_nonneg_left (show val h ≤ T + T / 1600 by linarith) hM1.le
    linarith
  have hKh' : 19 / 10 - 19 / 16000 ≤ ((M : ℝ) + 1) * val h := by
    have := mul_le_mul_of_nonneg_left (show T - T / 1600 ≤ val h by linarith) hM1.le
    linarith
  have hKf : ((M : ℝ) + 1) * (6 * val (Flt.pow10neg (k : Int) : F)) ≤ 1 / 20 := by
    have := mul_le_mul_of_nonneg_left (show 6 * val (Flt.pow10neg (k : Int) : F) ≤ 9 / 400 * T by linarith) hM1.le
    linarith
  obtain ⟨m1, m2, nt, res, q, g1, g2, g3, -, g4, g5, g6⟩ := H F val δ (Λ * δ) 0 (C0 * δ) hR
    (mul_le_mul_of_nonneg_right (by linarith) hδ0.le) d1 le_rfl (by norm_num) (by positivity)
    (mul_le_mul_of_nonneg_right (by linarith) hδ0.le) rtInput rtElems
    (by simp [rtInput, UserInput.image, Node.image, ExtForce.image, tbInput, hneg, hR.zero, hR.one])
    (by simp [rtElems, Elem.image, tbElems, hR.one]) as has
    (rtModel
      { maxfac := 1, minfac := 1, increase := 1, reduce := 1, dxtol := D, dlpf := h, du := h, xlimit := .const 1 D, log := 0, j0 := some (-1),
        jFixed := true, incs := .const (M + 1), xtol := k, ftol := k, nfev := N + 1 })
    ⟨rfl, rfl, rfl⟩ rfl rfl rfl (by show (0 : Int) ≤ 1; decide) ⟨sp, fun l => List.range l.length⟩ hsol
    (fun l hl => ⟨l.length - 1, by
      have := List.length_pos_iff.2 hl
      exact ⟨by show (List.range l.length).getLast? = _; rw [List.getLast?_range, if_neg (by omega)], by omega⟩⟩)
    h (Flt.pow10neg k) ⟨rfl, rfl, rfl, if_pos (by decide)⟩ rfl (by linarith) (by linarith) (by linarith) (by linarith)
    (by
      show val h + 8 * val (Flt.pow10neg (k : Int) : F) ≤ val D * val h
      have : 2 * val h ≤ val D * val h := mul_le_mul_of_nonneg_right (by linarith) (by linarith)
      linarith)
    (by show |val (Flt.pow10neg (k : Int) : F)| ≤ _; rw [abs_le]; constructor <;> linarith)
    (by show |val D| ≤ _; rw [abs_le]; constructor <;> linarith)
    (M + 1) (1, D) rfl rfl le_rfl (by show (1 : Int) ≤ _; decide) (by show |val D| ≤ _; rw [abs_le]; constructor <;> linarith)
    (by push_cast; linarith) N hNf hNf le_rfl 1 le_rfl
  refine ⟨_, _, _, L, M + 1, (1, D), m1, m2, nt, res, q, g1, g2, g3, g4, g5, g6, ?_, by push_cast; linarith, by push_cast; exact hKf⟩
  have h5 : L * val (Flt.pow10neg (k : Int) : F) ≤ |L| * val (Flt.pow10neg (k : Int) : F) := mul_le_mul_of_nonneg_right (le_abs_self L) (by linarith)
  have h6 : |L| * val (Flt.pow10neg (k : Int) : F) ≤ |L| * (2 * t) := mul_le_mul_of_nonneg_left (by linarith) (abs_nonneg L)
  linarith

/-- `Bin p` with enough digits meets the requirements. -/
theorem bin_enough {κ σ : ℝ} (hκ : 0 ≤ κ) (hσ : 0 < σ) : ∃ p0 : Nat, ∀ p, p0 ≤ p → ∃ δ ≤ σ, Rounds (F := Bin p) Bin.val δ ∧
    (∀ t : ℝ, |t| ≤ 4 → ∃ x : Bin p, |Bin.val x - t| ≤ δ) ∧ SolvesNear (F := Bin p) Bin.val Bin.solve 2 κ 0 (2 * κ * (2 * κ ^ 2 + 1) * δ) := by
  obtain ⟨p0, hp0⟩ := exists_pow_lt_of_lt_one (show 0 < min (σ / 16) (1 / (κ ^ 2 + 1)) by positivity) (by norm_num : (1 / 2 : ℝ) < 1)
  refine ⟨p0 + 8, fun p hp => ?_⟩
  have hU0 : (0 : ℝ) < 1 / 2 ^ p := by positivity
  have h1 : ((1 : ℝ) / 2) ^ p ≤ (1 / 2) ^ p0 := pow_le_pow_of_le_one (by norm_num) (by norm_num) (by omega)
  rw [div_pow, one_pow] at h1
  have h2 := h1.trans (hp0.le.trans (min_le_left _ _))
  have h3 := h1.trans (hp0.le.trans (min_le_right _ _))
  have hκp : κ ^ 2 ≤ 2 ^ (4 * p) := by
    rw [one_div_le_one_div (by positivity) (by positivity)] at h3
    have : (2 : ℝ) ^ p ≤ 2 ^ (4 * p) := pow_le_pow_right₀ (by norm_num) (by omega)
    linarith
  have hs : (2 : ℝ) ^ (-(4 * p : ℤ)) ≤ 1 / 2 ^ p := by
    have h1 : (2 : ℝ) ^ (-(4 * p : ℤ)) ≤ 2 ^ (-(p : ℤ)) := zpow_le_zpow_right₀ (by norm_num) (by omega)
    rwa [zpow_neg 2 (p : ℤ), zpow_natCast, ← one_div] at h1
  refine ⟨16 * (1 / 2 ^ p), by linarith, C112_ieee_rounds (Bin.ieee (by omega)) (by omega) le_rfl le_rfl, fun t ht => ⟨Bin.round t, ?_⟩, ?_⟩
  · have h4 : (4 : ℝ) ≤ 2 ^ (4 * p) := by
      calc (4 : ℝ) = 2 ^ 2 := by norm_num
        _ ≤ _ := pow_le_pow_right₀ (by norm_num) (by omega)
    have := (Bin.round_nearest (p := p) (by omega) (ht.trans h4)).error
    have h5 : 1 / 2 ^ p * |t| ≤ 1 / 2 ^ p * 4 := mul_le_mul_of_nonneg_left ht hU0.le
    linarith
  · refine (Bin.solve_near (by omega) 2 hκ hκp).mono ?_
    push_cast
    have h6 : 0 ≤ κ * (1 / 2 ^ p) := by positivity
    have h7 : 0 ≤ κ ^ 2 * (κ * (1 / 2 ^ p)) := by positivity
    have h8 : κ * 2 ^ (-(4 * p : ℤ)) ≤ κ * (1 / 2 ^ p) := mul_le_mul_of_nonneg_left hs hκ
    linarith

/-- The two-bar truss in floating-point arithmetic with enough digits. -/
example (ε : ℝ) (hε : 0 < ε) (argsort : List Int → List Nat) (has : IsArgsort argsort) : ∃ p0 : Nat, ∀ p, p0 ≤ p →
    ∃ (s : Settings (Bin p)) (h f L : ℝ) (K : Nat) (xl : Int × Bin p) (m1 m2 : Model (Bin p)) (nt : NodeTab (Bin p)) (res : Results (Bin p)) (q : Nat),
      (rtModel s).build argsort = .ok m1 ∧ m1.run ⟨Bin.solve, fun l => List.range l.length⟩ 1 = .ok m2 ∧ m1.nodes = some nt ∧
      m2.results = some res ∧ FollowsClosely Bin.val nt.labels res.R h f L tbMove (vmLoad 1 1 1 1) 2 K xl q ∧ res.R.length = q + 1 ∧
      L * f ≤ ε ∧ 9 / 5 ≤ K * h ∧ K * (6 * f) ≤ 1 / 20 := by
  obtain ⟨κ, hκ, H⟩ := rt_run ε hε
  obtain ⟨σ, hσ, H⟩ := H (2 * κ * (2 * κ ^ 2 + 1)) (by positivity)
  obtain ⟨p0, hp0⟩ := bin_enough hκ hσ
  refine ⟨p0, fun p hp => ?_⟩
  obtain ⟨δ, h1, h2, h3, h4⟩ := hp0 p hp
  exact H (Bin p) Bin.val δ h2 h1 h3 Bin.solve h4 argsort has

end TrussPy
