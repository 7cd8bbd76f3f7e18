import Verif.Lemmas.History
import Verif.Lemmas.Quick
import Verif.Props.Stages
import Verif.Props.TwoBarLinear
/-!
# Property C117: under small loads the state of a stable truss depends on the loads acting, not on the load history
-/

set_option linter.unusedSectionVars false

namespace TrussPy

section
variable {u : UserInput ℝ} {es : List (Elem ℝ)} {nsteps : Nat}

/-- Applying small loads step after step gives joined equilibrium paths. -/
theorem Response.stages {ρ σ : ℝ} {D : (Int → V3 ℝ) → Int → V3 ℝ} (hD : Response u es ρ σ D) (P : List (Int × Fin 3))
    (forces : List (ExtForce ℝ)) {ns : Nat} {T : Nat → ℝ} (hT : LoadHistory { u with forces := forces } ns ρ T) :
    Stages { u with forces := forces } es P (P.length + 1) ns T (fun k s => D (actingLoad { u with forces := forces } T k s))
      (fun _ s => s) := by
  have hk0 : ((P.length : Int) + 1).natAbs - 1 = P.length := by omega
  have hc : ∀ (V : Int → V3 ℝ) (x : ℝ), component P V x P.length = x := by
    intro V x
    unfold component
    rw [List.getElem?_eq_none (le_refl _)]
  generalize hu' : ({ u with forces := forces } : UserInput ℝ) = u' at hT ⊢
  have hn : u'.nodes = u.nodes := by rw [← hu']
  have hb : u'.bounds = u.bounds := by rw [← hu']
  have hsmall : ∀ f, SmallLoads u' ρ f → SmallLoads u ρ f := by
    intro f hf n hn'
    exact hf n (by rw [hn]; exact hn')
  have hpull : ∀ U, pull u' es U = pull u es U := by
    intro U
    rw [← hu']
    rfl
  have hfree : ∀ lab d, FreeAt u' lab d → FreeAt u lab d := by
    intro lab d h
    rw [← hu'] at h
    exact h
  have hall : ∀ v, AllowedVelocity u v → AllowedVelocity u' v := by
    intro v h
    rw [← hu']
    exact h
  have hall' : ∀ v, AllowedVelocity u' v → AllowedVelocity u v := by
    intro v h
    rw [← hu'] at h
    exact h
  have hloads : ∀ k < ns, ∀ s ∈ Set.Icc 0 (T k), SmallLoads u ρ (actingLoad u' T k s) := fun k hk s hs => hsmall _ (hT.small k hk s hs)
  refine ⟨hT.width, fun k hk => ⟨rfl, ?_, continuousOn_id, fun s hs => hall _ (hD.supports _ (hloads k hk s hs)), ?_, ?_, ?_, ?_, ?_⟩, ?_, ?_⟩
  · intro n hn' d
    rw [hn] at hn'
    refine (hD.cont n hn' d).comp ?_ fun s hs => hloads k hk s hs
    refine (continuous_pi fun lab => continuous_pi fun e => ?_).continuousOn
    unfold actingLoad
    fun_prop
  · intro s hs
    rw [hk0, hc, hc, Int.sign_eq_one_of_pos (by omega)]
    push_cast
    ring
  · intro s hs lab d hf
    rw [hpull, hD.equilibrium _ (hloads k hk s hs) lab d (hfree _ _ hf)]
    rfl
  · intro s hs e he A E hce
    have := hD.length _ (hloads k hk s hs) e he A E hce
    rw [← hu'] at this ⊢
    exact this
  · intro s hs e he
    have := hD.below _ (hloads k hk s hs) e he
    rw [← hu'] at this ⊢
    exact this
  · intro s hs v μ hv hd h0
    rw [hk0, hc] at h0
    subst h0
    refine ⟨fun n hn' d => hD.regular _ (hloads k hk s hs) v (hall' _ hv) (fun lab d hf => ?_) n (by rw [← hn]; exact hn') d, rfl⟩
    have hf' : FreeAt u' lab d := by rw [← hu']; exact hf
    have h1 := (hd lab d hf').add_const ((s + 0 * 0) * stepLoad u' k lab d)
    refine h1.congr_of_eventuallyEq (Filter.Eventually.of_forall fun t => ?_)
    simp only [hpull, mul_zero, sub_add_cancel]
  · intro n hn' d
    rw [hn] at hn'
    have : actingLoad u' T 0 0 = 0 := by
      funext lab e
      simp [actingLoad]
    simp only [this]
    exact hD.unloaded n hn' d
  · intro k hk n _ d
    have : actingLoad u' T (k + 1) 0 = actingLoad u' T k (T k) := by
      funext lab e
      simp [actingLoad, Finset.sum_range_succ]
    simp only [this]

/-- **C117, existence.** A structure of stiff elements that is no mechanism has a response: displacements as a function of the
loads, for all small loads. -/
theorem C117_response (hv : ValidInput u es nsteps) (hns : 1 ≤ nsteps) (hst : StiffElems u es)
    (hk : KinematicallyStable u es) {m0 : Model ℝ} (hu0 : Entered u m0) (he0 : EnteredElems es m0) :
    ∃ ρ > 0, ∃ σ > 0, ∃ D, Response u es ρ σ D := by
  obtain ⟨c, bars, a, ef, h⟩ := entered_step hv hns hst hu0 he0
  exact h.response hst hk

/-- **C117, runs.** Let `D` be the response of a truss.  Whatever loads are entered and in whatever steps they are applied, as long as the
loads that act together stay small: `build` and `run` return, and every result has the load factor of its increment and, up to `L` times the
tolerance, the displacements `D` of the loads acting at that moment. -/
theorem C117_runs_follow_loads {ρ σ : ℝ} {D : (Int → V3 ℝ) → Int → V3 ℝ} (hD : Response u es ρ σ D) (hus : UsualPlastic es)
    {P : List (Int × Fin 3)} (hP : FreeList u P) {env : Env ℝ} (hsp : SolvesRegular env.spsolve (P.length + 1)) (hA : ArgMax env)
    (nst : Nat) (forces : List (ExtForce ℝ)) {ns : Nat} {T : Nat → ℝ} (hv : ValidInput { u with forces := forces } es ns) (hns : 1 ≤ ns)
    (hT : LoadHistory { u with forces := forces } ns ρ T) :
    ∃ h0 > 0, ∃ f0 > 0, ∃ L C : ℝ, ∀ argsort m h K,
      LoadSettings { u with forces := forces } es P.length ns nst T σ h0 f0 L C argsort m h K → ∀ fuel, 1 ≤ fuel →
      ∃ nt R, Ran env argsort fuel m nt R ∧ R.length = 1 + ∑ k ∈ Finset.range ns, K k ∧
        ∀ k < ns, ∀ i < K k, ∃ r, R[1 + (∑ q ∈ Finset.range k, K q) + i]? = some r ∧ r.step = k + 1 ∧
          r.Vred[P.length]? = some ((i + 1) * h) ∧ ∀ (p : Nat) (lab : Int), nt.labels[p]? = some lab → ∀ d,
            |row3 r.U p d - D (actingLoad { u with forces := forces } T k ((i + 1) * h)) lab d| ≤ L * (10 : ℝ) ^ (-m.settings.ftol) := by
  have hk0 : ((P.length : Int) + 1).natAbs - 1 = P.length := by omega
  have hP' : FreeList { u with forces := forces } P := ⟨hP.order, hP.mem⟩
  obtain ⟨h0, hh0, f0, hf0, L, C, key⟩ := C106_run_follows_stages hv hns hus hP' (j := (P.length : Int) + 1) (by omega) (by omega)
    (hD.stages P forces hT) hsp hA nst
  refine ⟨h0, hh0, f0, hf0, L, C, fun argsort m h K hs fuel hfuel => ?_⟩
  choose! xl hxl using hs.limit
  obtain ⟨m1, m2, nt, res, g1, g2, g3, g4, g5⟩ := key argsort hs.sort m hs.entered hs.elems hs.ndim hs.nstatev hs.nsteps hs.log h hs.pos
    hs.fine hs.control hs.tolerance K xl (fun k hk => by
      obtain ⟨x1, x2, x3, x4, x5⟩ := hxl k hk
      refine ⟨(hs.incs k hk).1, x1, (hs.incs k hk).2, x2, x3, fun t ht => ?_⟩
      unfold component
      split
      · next p hp =>
        obtain ⟨⟨n, hn, hl⟩, -⟩ := (hP.mem p).1 (List.mem_of_getElem? hp)
        have h1 := hD.small _ (fun n' hn' => hT.small k hk t ht n' hn') n hn p.2
        rw [hl] at h1
        linarith
      · rw [abs_of_nonneg ht.1]
        linarith [ht.2]) hs.iterations fuel hfuel
  refine ⟨nt, res.R, ⟨m1, m2, res, g1, g2, g3, g4, rfl⟩, g5.count, fun k hk i hi => ?_⟩
  obtain ⟨r, p1, p2, p3, p4⟩ := g5.points k hk i hi
  refine ⟨r, p1, p2, ?_, p3.disp⟩
  rw [hk0] at p4
  rw [p4]
  unfold component
  rw [List.getElem?_eq_none (le_refl _)]

/-- The last result of such a run. -/
theorem last_result {ρ σ : ℝ} {D : (Int → V3 ℝ) → Int → V3 ℝ} (hD : Response u es ρ σ D) (hus : UsualPlastic es)
    {P : List (Int × Fin 3)} (hP : FreeList u P) {env : Env ℝ} (hsp : SolvesRegular env.spsolve (P.length + 1)) (hA : ArgMax env)
    (nst : Nat) (forces : List (ExtForce ℝ)) {ns : Nat} {T : Nat → ℝ} (hv : ValidInput { u with forces := forces } es ns) (hns : 1 ≤ ns)
    (hT : LoadHistory { u with forces := forces } ns ρ T) :
    ∃ h0 > 0, ∃ f0 > 0, ∃ L C : ℝ, ∀ argsort m h K,
      LoadSettings { u with forces := forces } es P.length ns nst T σ h0 f0 L C argsort m h K → ∀ fuel, 1 ≤ fuel →
      ∃ nt R r, Ran env argsort fuel m nt R ∧ R.getLast? = some r ∧ r.step = ns ∧ ∀ (p : Nat) (lab : Int), nt.labels[p]? = some lab → ∀ d,
        |row3 r.U p d - D (actingLoad { u with forces := forces } T (ns - 1) (T (ns - 1))) lab d| ≤ L * (10 : ℝ) ^ (-m.settings.ftol) := by
  obtain ⟨h0, hh0, f0, hf0, L, C, key⟩ := C117_runs_follow_loads hD hus hP hsp hA nst forces hv hns hT
  refine ⟨h0, hh0, f0, hf0, L, C, fun argsort m h K hs fuel hfuel => ?_⟩
  obtain ⟨nt, R, g1, g2, g3⟩ := key argsort m h K hs fuel hfuel
  have hlt : ns - 1 < ns := by omega
  have hK := (hs.incs (ns - 1) hlt).2
  have hpos : 0 < K (ns - 1) := by
    rcases Nat.eq_zero_or_pos (K (ns - 1)) with h0 | h0
    · have := hT.width (ns - 1) hlt
      rw [← hK, h0, Nat.cast_zero, zero_mul] at this
      exact absurd this (lt_irrefl _)
    · exact h0
  obtain ⟨r, p1, p2, -, p4⟩ := g3 (ns - 1) hlt (K (ns - 1) - 1) (by omega)
  have hcast : (((K (ns - 1) - 1 : Nat) : ℝ) + 1) * h = T (ns - 1) := by
    rw [← hK]
    congr 1
    have : K (ns - 1) - 1 + 1 = K (ns - 1) := by omega
    exact_mod_cast this
  rw [hcast] at p4
  refine ⟨nt, R, r, g1, ?_, by omega, p4⟩
  rw [List.getLast?_eq_getElem?, g2, ← p1]
  congr 1
  obtain ⟨q, rfl⟩ : ∃ q, ns = q + 1 := ⟨ns - 1, by omega⟩
  rw [Finset.sum_range_succ, Nat.add_sub_cancel]
  rw [Nat.add_sub_cancel] at hpos
  omega

theorem LoadSettings.mono {u : UserInput ℝ} {n ns nst : Nat} {T : Nat → ℝ} {σ h0 f0 L C h0' f0' L' C' : ℝ}
    {argsort : List Int → List Nat} {m : Model ℝ} {h : ℝ} {K : Nat → Nat} (hs : LoadSettings u es n ns nst T σ h0 f0 L C argsort m h K)
    (hh : h0 ≤ h0') (hf : f0 ≤ f0') (hL : L' ≤ L) (hC : |C'| ≤ C) : LoadSettings u es n ns nst T σ h0' f0' L' C' argsort m h K := by
  have hp : (0 : ℝ) < (10 : ℝ) ^ (-m.settings.ftol) := by positivity
  have hL' : L' * (10 : ℝ) ^ (-m.settings.ftol) ≤ L * (10 : ℝ) ^ (-m.settings.ftol) := mul_le_mul_of_nonneg_right hL hp.le
  refine ⟨hs.sort, hs.entered, hs.elems, hs.ndim, hs.nstatev, hs.nsteps, hs.log, hs.pos, hs.fine.trans_le hh, hs.control,
    hs.tolerance.trans hf, hs.incs, fun k hk => ?_, ?_⟩
  · obtain ⟨xl, x1, x2, x3, x4, x5⟩ := hs.limit k hk
    exact ⟨xl, x1, x2, x3, by linarith, by linarith⟩
  · obtain ⟨N, n1, n2, n3⟩ := hs.iterations
    have hr : 0 ≤ h + (10 : ℝ) ^ (-m.settings.ftol) := add_nonneg hs.pos.le hp.le
    exact ⟨N, n1.mono hC hr, n2.mono hC hr, n3⟩

/-- **C117, order of the loads.** Two users enter the same truss and apply small loads in different steps, in a different order, with
different numbers and widths of increments.  If in the end the same loads act in all free directions, the last results agree up to
`L` times the tolerances. -/
theorem C117_order_of_loads {ρ σ : ℝ} {D : (Int → V3 ℝ) → Int → V3 ℝ} (hD : Response u es ρ σ D) (hus : UsualPlastic es)
    {P : List (Int × Fin 3)} (hP : FreeList u P) {env : Env ℝ} (hsp : SolvesRegular env.spsolve (P.length + 1)) (hA : ArgMax env)
    (nst : Nat) {forces forces' : List (ExtForce ℝ)} {ns ns' : Nat} {T T' : Nat → ℝ}
    (hv : ValidInput { u with forces := forces } es ns) (hns : 1 ≤ ns) (hT : LoadHistory { u with forces := forces } ns ρ T)
    (hv' : ValidInput { u with forces := forces' } es ns') (hns' : 1 ≤ ns') (hT' : LoadHistory { u with forces := forces' } ns' ρ T')
    (hend : ∀ lab d, FreeAt u lab d → actingLoad { u with forces := forces } T (ns - 1) (T (ns - 1)) lab d =
      actingLoad { u with forces := forces' } T' (ns' - 1) (T' (ns' - 1)) lab d) :
    ∃ h0 > 0, ∃ f0 > 0, ∃ L C : ℝ, ∀ argsort m h K argsort' m' h' K',
      LoadSettings { u with forces := forces } es P.length ns nst T σ h0 f0 L C argsort m h K →
      LoadSettings { u with forces := forces' } es P.length ns' nst T' σ h0 f0 L C argsort' m' h' K' → ∀ fuel, 1 ≤ fuel →
      ∃ nt R r nt' R' r', Ran env argsort fuel m nt R ∧ Ran env argsort' fuel m' nt' R' ∧ R.getLast? = some r ∧ R'.getLast? = some r' ∧
        ∀ (p p' : Nat) (lab : Int), nt.labels[p]? = some lab → nt'.labels[p']? = some lab → ∀ d,
          |row3 r.U p d - row3 r'.U p' d| ≤ L * (10 : ℝ) ^ (-m.settings.ftol) + L * (10 : ℝ) ^ (-m'.settings.ftol) := by
  obtain ⟨h1, hh1, f1, hf1, L1, C1, key1⟩ := last_result hD hus hP hsp hA nst forces hv hns hT
  obtain ⟨h2, hh2, f2, hf2, L2, C2, key2⟩ := last_result hD hus hP hsp hA nst forces' hv' hns' hT'
  refine ⟨min h1 h2, lt_min hh1 hh2, min f1 f2, lt_min hf1 hf2, max L1 L2, max |C1| |C2|, ?_⟩
  intro as m h K as' m' h' K' hs hs' fuel hfuel
  obtain ⟨nt, R, r, g1, g2, -, g4⟩ := key1 as m h K (hs.mono (min_le_left _ _) (min_le_left _ _) (le_max_left _ _) (le_max_left _ _)) fuel hfuel
  obtain ⟨nt', R', r', g1', g2', -, g4'⟩ := key2 as' m' h' K'
    (hs'.mono (min_le_right _ _) (min_le_right _ _) (le_max_right _ _) (le_max_right _ _)) fuel hfuel
  refine ⟨nt, R, r, nt', R', r', g1, g1', g2, g2', fun p p' lab hp hp' d => ?_⟩
  obtain ⟨n, hn, rfl⟩ : ∃ n ∈ u.nodes, n.label = lab := by
    obtain ⟨m1, -, -, k0, -, k1, -⟩ := g1
    obtain ⟨nt2, k2, -, k3, k4⟩ := C01_nodes_keep_coordinates hs.sort hs.entered hv.posed.nodes k0
    rw [k1] at k2; cases k2
    have h1 : lab ∈ (nt.labels.zip nt.coords.rows).map Prod.fst := by
      rw [List.map_fst_zip k3.le]
      exact List.mem_of_getElem? hp
    obtain ⟨x, hx, rfl⟩ := List.mem_map.1 h1
    obtain ⟨n, hn, rfl⟩ := List.mem_map.1 (k4.mem_iff.1 hx)
    exact ⟨n, hn, rfl⟩
  have hlt : ns - 1 < ns := by omega
  have hlt' : ns' - 1 < ns' := by omega
  have hsm : SmallLoads u ρ (actingLoad { u with forces := forces } T (ns - 1) (T (ns - 1))) :=
    fun n hn => hT.small _ hlt _ ⟨(hT.width _ hlt).le, le_rfl⟩ n hn
  have hsm' : SmallLoads u ρ (actingLoad { u with forces := forces' } T' (ns' - 1) (T' (ns' - 1))) :=
    fun n hn => hT'.small _ hlt' _ ⟨(hT'.width _ hlt').le, le_rfl⟩ n hn
  have heq := hD.unique _ hsm _ (hD.supports _ hsm') (hD.small _ hsm')
    (fun lab d hf => by rw [hD.equilibrium _ hsm' lab d hf, hend lab d hf]) n hn d
  have e1 := g4 p _ hp d
  have e2 := g4' p' _ hp' d
  rw [heq] at e2
  have hp1 : (0 : ℝ) < (10 : ℝ) ^ (-m.settings.ftol) := by positivity
  have hp2 : (0 : ℝ) < (10 : ℝ) ^ (-m'.settings.ftol) := by positivity
  have e3 := mul_le_mul_of_nonneg_right (le_max_left L1 L2) hp1.le
  have e4 := mul_le_mul_of_nonneg_right (le_max_right L1 L2) hp2.le
  rw [abs_le] at e1 e2 ⊢
  constructor <;> linarith [e1.1, e1.2, e2.1, e2.2]

/-- **C117, unloading.** If after small loads have been applied and removed nothing acts in the free directions any more, the
last result shows the undeformed structure up to `L` times the tolerance. -/
theorem C117_unloading {ρ σ : ℝ} {D : (Int → V3 ℝ) → Int → V3 ℝ} (hD : Response u es ρ σ D) (hus : UsualPlastic es)
    {P : List (Int × Fin 3)} (hP : FreeList u P) {env : Env ℝ} (hsp : SolvesRegular env.spsolve (P.length + 1)) (hA : ArgMax env)
    (nst : Nat) {forces : List (ExtForce ℝ)} {ns : Nat} {T : Nat → ℝ}
    (hv : ValidInput { u with forces := forces } es ns) (hns : 1 ≤ ns) (hT : LoadHistory { u with forces := forces } ns ρ T)
    (hend : ∀ lab d, FreeAt u lab d → actingLoad { u with forces := forces } T (ns - 1) (T (ns - 1)) lab d = 0) :
    ∃ h0 > 0, ∃ f0 > 0, ∃ L C : ℝ, ∀ argsort m h K,
      LoadSettings { u with forces := forces } es P.length ns nst T σ h0 f0 L C argsort m h K → ∀ fuel, 1 ≤ fuel →
      ∃ nt R r, Ran env argsort fuel m nt R ∧ R.getLast? = some r ∧ r.step = ns ∧ ∀ p < nt.labels.length, ∀ d,
        |row3 r.U p d| ≤ L * (10 : ℝ) ^ (-m.settings.ftol) := by
  obtain ⟨h0, hh0, f0, hf0, L, C, key⟩ := last_result hD hus hP hsp hA nst forces hv hns hT
  refine ⟨h0, hh0, f0, hf0, L, C, fun as m h K hs fuel hfuel => ?_⟩
  obtain ⟨nt, R, r, g1, g2, g3, g4⟩ := key as m h K hs fuel hfuel
  refine ⟨nt, R, r, g1, g2, g3, fun p hp d => ?_⟩
  have hlab := List.getElem?_eq_getElem hp
  generalize nt.labels[p] = lab at hlab
  obtain ⟨n, hn, rfl⟩ : ∃ n ∈ u.nodes, n.label = lab := by
    obtain ⟨m1, -, -, k0, -, k1, -⟩ := g1
    obtain ⟨nt2, k2, -, k3, k4⟩ := C01_nodes_keep_coordinates hs.sort hs.entered hv.posed.nodes k0
    rw [k1] at k2; cases k2
    have h1 : lab ∈ (nt.labels.zip nt.coords.rows).map Prod.fst := by
      rw [List.map_fst_zip k3.le]
      exact List.mem_of_getElem? hlab
    obtain ⟨x, hx, rfl⟩ := List.mem_map.1 h1
    obtain ⟨n, hn, rfl⟩ := List.mem_map.1 (k4.mem_iff.1 hx)
    exact ⟨n, hn, rfl⟩
  have hlt : ns - 1 < ns := by omega
  have hsm : SmallLoads u ρ (actingLoad { u with forces := forces } T (ns - 1) (T (ns - 1))) :=
    fun n hn => hT.small _ hlt _ ⟨(hT.width _ hlt).le, le_rfl⟩ n hn
  have hρ : 0 ≤ ρ := (abs_nonneg _).trans (hsm n hn d)
  have hσ : 0 ≤ σ := (abs_nonneg _).trans (hD.small _ hsm n hn d)
  have hsm0 : SmallLoads u ρ 0 := fun n hn d => by
    show |(0 : ℝ)| ≤ ρ
    rw [abs_zero]
    exact hρ
  have heq := hD.unique _ hsm _ (hD.supports _ hsm0) (hD.small _ hsm0)
    (fun lab d hf => by rw [hD.equilibrium _ hsm0 lab d hf, hend lab d hf]; rfl) n hn d
  have e1 := g4 p _ hlab d
  rw [← heq, hD.unloaded n hn d, sub_zero] at e1
  exact e1

end

/-! ## The hypotheses are met: loads `p`, then `q`, on the apex of the two-bar truss -/

/-- Loads for two steps. -/
def tbLoads (p q : ℝ) : List (ExtForce ℝ) := [⟨2, [0, 0, p, 0, 0, q]⟩]

/-- The model after entering the two-bar truss with these loads. -/
def tbLoadModel (w H E A p q : ℝ) (s : Settings ℝ) : Model ℝ :=
  { tbModel w H E A s with forces := some ⟨[2], ⟨6, [[0, 0, p, 0, 0, q]]⟩⟩ }

theorem tbLoadValid (w H E A p q : ℝ) : ValidInput { tbInput w H with forces := tbLoads p q } (tbElems E A) 2 :=
  have h := tbValid w H E A
  { posed := ⟨h.posed.nodes, h.posed.elems, h.posed.coords, h.posed.joins, h.posed.law⟩
    props := h.props
    elems := h.elems
    supports := h.supports
    supportsOnce := h.supportsOnce
    supportsAt := h.supportsAt
    loads := by simp [tbLoads]
    loadsOnce := by simp [tbLoads]
    loadsAt := by simp [tbLoads, tbInput]
    width := by simp [tbLoads, loadWidth]
    free := h.free }

theorem tbStepLoad (w H p q : ℝ) (lab : Int) (d : Fin 3) :
    stepLoad { tbInput w H with forces := tbLoads p q } 0 lab d = (if lab = 2 ∧ d = 2 then p else 0) ∧
    stepLoad { tbInput w H with forces := tbLoads p q } 1 lab d = (if lab = 2 ∧ d = 2 then q else 0) := by
  by_cases hl : lab = 2
  · subst hl
    fin_cases d <;> simp [stepLoad, tbLoads, loadOf]
  · have : (2 == lab) = false := by simpa using fun h => hl h.symm
    have hr : ∀ (n i : Nat), (List.replicate n (0 : ℝ))[i]?.getD 0 = 0 := by
      intro n i
      rw [List.getElem?_replicate]
      split <;> rfl
    simp [stepLoad, tbLoads, loadOf, hl, this, hr]

theorem tbHistory (w H p q : ℝ) {ρ t : ℝ} (ht : 0 < t) (hp : t * |p| + t * |q| ≤ ρ) :
    LoadHistory { tbInput w H with forces := tbLoads p q } 2 ρ fun _ => t where
  width _ _ := ht
  small := by
    rintro k hk s ⟨hs0, hs1⟩ n - d
    obtain ⟨h0, h1⟩ := tbStepLoad w H p q n.label d
    have e1 : ∀ x : ℝ, |s * (if n.label = 2 ∧ d = 2 then x else 0)| ≤ t * |x| := by
      intro x
      rw [abs_mul, abs_of_nonneg hs0]
      refine mul_le_mul hs1 ?_ (abs_nonneg _) ht.le
      split
      · exact le_rfl
      · rw [abs_zero]; exact abs_nonneg _
    have e2 : |t * (if n.label = 2 ∧ d = 2 then p else 0)| ≤ t * |p| := by
      rw [abs_mul, abs_of_nonneg ht.le]
      refine mul_le_mul_of_nonneg_left ?_ ht.le
      split
      · exact le_rfl
      · rw [abs_zero]; exact abs_nonneg _
    have hq0 : 0 ≤ t * |q| := by positivity
    obtain rfl | rfl : k = 0 ∨ k = 1 := by omega
    · simp only [actingLoad, Finset.range_zero, Finset.sum_empty, zero_add, h0]
      linarith [e1 p]
    · simp only [actingLoad, Finset.sum_range_one, h0, h1]
      exact (abs_add_le _ _).trans ((add_le_add e2 (e1 q)).trans hp)

/-- Suitable settings exist, whatever is required. -/
theorem tbLoadSettings (w H E A p q : ℝ) {t : ℝ} (ht : 0 < t) (σ : ℝ) {h0 f0 : ℝ} (hh0 : 0 < h0) (hf0 : 0 < f0) (L C : ℝ) {δ : ℝ}
    (hδ : 0 < δ) (argsort : List Int → List Nat) (has : IsArgsort argsort) :
    ∃ s h K, LoadSettings { tbInput w H with forces := tbLoads p q } (tbElems E A) 1 2 rbSettings.nstatev (fun _ => t) σ h0 f0 L C argsort
      (tbLoadModel w H E A p q s) h K ∧ L * (10 : ℝ) ^ (-s.ftol) ≤ δ ∧ 1 ≤ K 0 := by
  obtain ⟨M, hM⟩ := exists_nat_gt (t / h0)
  rw [div_lt_iff₀ hh0] at hM
  have hM1 : (0 : ℝ) < M + 1 := by positivity
  have hhM : ((M : ℝ) + 1) * (t / (M + 1)) = t := by field_simp
  have hhpos : 0 < t / ((M : ℝ) + 1) := by positivity
  have hhlt : t / ((M : ℝ) + 1) < h0 := by
    rw [div_lt_iff₀ hM1]
    nlinarith
  generalize t / ((M : ℝ) + 1) = h at hhM hhpos hhlt
  obtain ⟨k, hk⟩ := exists_pow_lt_of_lt_one (show 0 < min f0 (δ / (|L| + 1)) by positivity) (show (10 : ℝ)⁻¹ < 1 by norm_num)
  have hp10 : (10 : ℝ)⁻¹ ^ k = (10 : ℝ) ^ (-(k : Int)) := by rw [zpow_neg, zpow_natCast, inv_pow]
  rw [hp10] at hk
  have hfpos : (0 : ℝ) < (10 : ℝ) ^ (-(k : Int)) := by positivity
  have hfL : L * (10 : ℝ) ^ (-(k : Int)) ≤ δ := by
    have h1 : (10 : ℝ) ^ (-(k : Int)) * (|L| + 1) ≤ δ := by
      rw [← le_div_iff₀ (by positivity)]
      exact hk.le.trans (min_le_right _ _)
    have h2 : L * (10 : ℝ) ^ (-(k : Int)) ≤ |L| * (10 : ℝ) ^ (-(k : Int)) := mul_le_mul_of_nonneg_right (le_abs_self L) hfpos.le
    linarith
  obtain ⟨N, hN⟩ := pow_unbounded_of_one_lt (C * (h + (10 : ℝ) ^ (-(k : Int))) / (10 : ℝ) ^ (-(k : Int))) (by norm_num : (1 : ℝ) < 2)
  rw [div_lt_iff₀ hfpos, mul_comm (2 ^ N)] at hN
  refine ⟨{ rbSettings with
      jFixed := true, j0 := some 2, dlpf := h, incs := .const (M + 1), xlimit := .const 1 (|σ| + t + δ), xtol := k, ftol := k,
      stepcontrol := false, nfev := N + 1, nsteps := 2, dxtol := 1 }, h, fun _ => M + 1, ⟨has, ?_, ?_, rfl, rfl, rfl, ?_, hhpos, hhlt,
    ⟨rfl, rfl, rfl, le_rfl, rfl⟩, hk.le.trans (min_le_left _ _), ?_, ?_, ⟨N, .inl hN, .inl hN, le_rfl⟩⟩, hfL, by simp⟩
  · exact ⟨rfl, rfl, rfl⟩
  · exact tbEnteredElems w H E A rbSettings
  · show (0 : Int) ≤ 1
    decide
  · intro j _
    refine ⟨rfl, ?_⟩
    push_cast
    exact hhM
  · intro j _
    refine ⟨(1, |σ| + t + δ), rfl, le_rfl, by simp, ?_, ?_⟩
    · show σ + L * (10 : ℝ) ^ (-(k : Int)) ≤ |σ| + t + δ
      linarith [le_abs_self σ]
    · show t + L * (10 : ℝ) ^ (-(k : Int)) ≤ |σ| + t + δ
      linarith [abs_nonneg σ]

/-- The two-bar truss has a response. -/
theorem tbResponse {w H E A : ℝ} (hw : 0 < w) (hH : 0 < H) (hE : 0 < E) (hA : 0 < A) :
    ∃ ρ > 0, ∃ σ > 0, ∃ D, Response (tbInput w H) (tbElems E A) ρ σ D :=
  C117_response (tbValid w H E A) le_rfl (tbStiff hw hE hA) (tbStable hH) (tbEntered w H E A rbSettings)
    (tbEnteredElems w H E A rbSettings)

/-- A small part of the load `p`, then of `q`: in the last result of the first step the displacements are, up to any `δ`, those in
equilibrium with this part `t` of `p`. -/
example {w H E A : ℝ} (p q : ℝ) (hw : 0 < w) (hH : 0 < H) (hE : 0 < E) (hA : 0 < A) {δ : ℝ} (hδ : 0 < δ)
    (argsort : List Int → List Nat) (has : IsArgsort argsort) :
    ∃ s t nt R r V, 0 < t ∧ Ran exactEnv argsort 1 (tbLoadModel w H E A p q s) nt R ∧ r ∈ R ∧ r.step = 1 ∧ r.Vred[1]? = some t ∧
      pull (tbInput w H) (tbElems E A) V 2 2 = t * p ∧ ∀ k lab, nt.labels[k]? = some lab → ∀ d, |row3 r.U k d - V lab d| ≤ δ := by
  obtain ⟨ρ, hρ, σ, hσ, D, hD⟩ := tbResponse hw hH hE hA
  have ht : 0 < ρ / (|p| + |q| + 1) := by positivity
  have htp : ρ / (|p| + |q| + 1) * |p| + ρ / (|p| + |q| + 1) * |q| ≤ ρ := by
    rw [← mul_add, div_mul_eq_mul_div, div_le_iff₀ (by positivity)]
    nlinarith
  have hT := tbHistory w H p q ht htp
  obtain ⟨h0, hh0, f0, hf0, L, C, key⟩ := C117_runs_follow_loads hD (tbUsual E A) (tbFree w H) (exactEnv_solves 2) exactEnv_argmax
    rbSettings.nstatev _ (tbLoadValid w H E A p q) (by norm_num) hT
  generalize ρ / (|p| + |q| + 1) = t at ht htp hT key
  obtain ⟨s, h, K, hs, hL, hK⟩ := tbLoadSettings w H E A p q ht σ hh0 hf0 L C hδ argsort has
  obtain ⟨nt, R, g1, -, g3⟩ := key argsort _ h K hs 1 le_rfl
  obtain ⟨r, p1, p2, p3, p4⟩ := g3 0 (by norm_num) (K 0 - 1) (by omega)
  have hlast : (((K 0 - 1 : Nat) : ℝ) + 1) * h = t := by
    rw [← (hs.incs 0 (by norm_num)).2]
    congr 1
    have : K 0 - 1 + 1 = K 0 := by omega
    exact_mod_cast this
  rw [hlast] at p3 p4
  refine ⟨s, t, nt, R, r, _, ht, g1, List.mem_of_getElem? p1, p2, p3, ?_, fun k lab hk d => (p4 k lab hk d).trans hL⟩
  rw [hD.equilibrium _ (hT.small 0 (by norm_num) t ⟨ht.le, le_rfl⟩) 2 2 ((tbFreeAt w H 2 2).2 rfl)]
  simp [actingLoad, (tbStepLoad w H p q 2 2).1]

/-- A small part of the load `p` is applied and removed again: the apex comes back to its place up to any `δ`. -/
example {w H E A : ℝ} (p : ℝ) (hw : 0 < w) (hH : 0 < H) (hE : 0 < E) (hA : 0 < A) {δ : ℝ} (hδ : 0 < δ)
    (argsort : List Int → List Nat) (has : IsArgsort argsort) :
    ∃ s nt R r, Ran exactEnv argsort 1 (tbLoadModel w H E A p (-p) s) nt R ∧ R.getLast? = some r ∧ r.step = 2 ∧
      ∀ k < nt.labels.length, ∀ d, |row3 r.U k d| ≤ δ := by
  obtain ⟨ρ, hρ, σ, hσ, D, hD⟩ := tbResponse hw hH hE hA
  have ht : 0 < ρ / (|p| + |-p| + 1) := by positivity
  have htp : ρ / (|p| + |-p| + 1) * |p| + ρ / (|p| + |-p| + 1) * |-p| ≤ ρ := by
    rw [← mul_add, div_mul_eq_mul_div, div_le_iff₀ (by positivity)]
    nlinarith
  obtain ⟨h0, hh0, f0, hf0, L, C, key⟩ := C117_unloading hD (tbUsual E A) (tbFree w H) (exactEnv_solves 2) exactEnv_argmax
    rbSettings.nstatev (tbLoadValid w H E A p (-p)) (by norm_num) (tbHistory w H p (-p) ht htp) (by
      intro lab d _
      obtain ⟨e0, e1⟩ := tbStepLoad w H p (-p) lab d
      simp only [actingLoad, show 2 - 1 = 1 from rfl, Finset.sum_range_one, e0, e1]
      split <;> ring)
  obtain ⟨s, h, K, hs, hL, -⟩ := tbLoadSettings w H E A p (-p) ht σ hh0 hf0 L C hδ argsort has
  obtain ⟨nt, R, r, g1, g2, g3, g4⟩ := key argsort _ h K hs 1 le_rfl
  exact ⟨s, nt, R, r, g1, g2, g3, fun k hk d => (g4 k hk d).trans hL⟩

/-- Small parts of the loads `p` and `q` in either order: the final positions of the nodes agree up to any `δ`. -/
example {w H E A : ℝ} (p q : ℝ) (hw : 0 < w) (hH : 0 < H) (hE : 0 < E) (hA : 0 < A) {δ : ℝ} (hδ : 0 < δ)
    (argsort : List Int → List Nat) (has : IsArgsort argsort) :
    ∃ s s' nt R r nt' R' r', Ran exactEnv argsort 1 (tbLoadModel w H E A p q s) nt R ∧
      Ran exactEnv argsort 1 (tbLoadModel w H E A q p s') nt' R' ∧ R.getLast? = some r ∧ R'.getLast? = some r' ∧
      ∀ k k' lab, nt.labels[k]? = some lab → nt'.labels[k']? = some lab → ∀ d, |row3 r.U k d - row3 r'.U k' d| ≤ δ := by
  obtain ⟨ρ, hρ, σ, hσ, D, hD⟩ := tbResponse hw hH hE hA
  have ht : 0 < ρ / (|p| + |q| + 1) := by positivity
  have htp : ρ / (|p| + |q| + 1) * |p| + ρ / (|p| + |q| + 1) * |q| ≤ ρ := by
    rw [← mul_add, div_mul_eq_mul_div, div_le_iff₀ (by positivity)]
    nlinarith
  obtain ⟨h0, hh0, f0, hf0, L, C, key⟩ := C117_order_of_loads hD (tbUsual E A) (tbFree w H) (exactEnv_solves 2) exactEnv_argmax
    rbSettings.nstatev (tbLoadValid w H E A p q) (by norm_num) (tbHistory w H p q ht htp) (tbLoadValid w H E A q p) (by norm_num)
    (tbHistory w H q p ht (by linarith)) (by
      intro lab d _
      obtain ⟨e0, e1⟩ := tbStepLoad w H p q lab d
      obtain ⟨e2, e3⟩ := tbStepLoad w H q p lab d
      simp only [actingLoad, show 2 - 1 = 1 from rfl, Finset.sum_range_one, e0, e1, e2, e3]
      split <;> ring)
  obtain ⟨s, h, K, hs, hL, -⟩ := tbLoadSettings w H E A p q ht σ hh0 hf0 L C (half_pos hδ) argsort has
  obtain ⟨s', h', K', hs', hL', -⟩ := tbLoadSettings w H E A q p ht σ hh0 hf0 L C (half_pos hδ) argsort has
  obtain ⟨nt, R, r, nt', R', r', g1, g2, g3, g4, g5⟩ := key argsort _ h K argsort _ h' K' hs hs' 1 le_rfl
  refine ⟨s, s', nt, R, r, nt', R', r', g1, g2, g3, g4, fun k k' lab hk hk' d => (g5 k k' lab hk hk' d).trans ?_⟩
  have : L * (10 : ℝ) ^ (-s.ftol) + L * (10 : ℝ) ^ (-s'.ftol) ≤ δ := by linarith
  exact this

end TrussPy
