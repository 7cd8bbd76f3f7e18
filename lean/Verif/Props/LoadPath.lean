import Verif.Lemmas.LoadPath
import Verif.Props.Trail
import Verif.Props.FreeTrail
/-!
# Property C104: stable trusses have an equilibrium path, runs follow it, and small loads give linear truss theory
-/

set_option linter.unusedSectionVars false

namespace TrussPy

section
variable {u : UserInput ℝ} {es : List (Elem ℝ)} {nsteps : Nat}

/-- The state in which path following starts, for input that can be entered. -/
theorem entered_step (hv : ValidInput u es nsteps) (hns : 1 ≤ nsteps) (hst : StiffElems u es) {m : Model ℝ} (hu : Entered u m)
    (he : EnteredElems es m) : ∃ c bars a ef, LaidStep u es c bars a ef := by
  obtain ⟨c, d, bars, A1, ef, -, h, -⟩ := step_ready hv hns hst.plastic m.settings.nstatev
    ⟨refArgsort, { m with settings := { m.settings with ndim := 3 } }, refArgsort_isArgsort, hu, he, rfl, rfl⟩
  exact ⟨c, bars, A1, ef, h⟩

/-- **C104, linear theory.** If all elements are stiff (elastic or plastic) and the structure is no mechanism, linear truss theory has exactly one solution
for the entered loads. -/
theorem C104_linear_solution (hv : ValidInput u es nsteps) (hns : 1 ≤ nsteps) (hst : StiffElems u es)
    (hk : KinematicallyStable u es) {m : Model ℝ} (hu : Entered u m) (he : EnteredElems es m) :
    (∃ v, LinearSolution u es v) ∧
      ∀ v v', LinearSolution u es v → LinearSolution u es v' → ∀ n ∈ u.nodes, ∀ d, v n.label d = v' n.label d := by
  obtain ⟨c, bars, a, ef, h⟩ := entered_step hv hns hst hu he
  exact h.linear_exists hst hk

/-- **C104, existence of the path.** Such a structure has a regular equilibrium path from the undeformed state on, on which the load factor
grows evenly; near the undeformed state there are no other equilibria under these loads; and the path starts in the direction
of linear truss theory. -/
theorem C104_load_path (hv : ValidInput u es nsteps) (hns : 1 ≤ nsteps) (hst : StiffElems u es)
    (hk : KinematicallyStable u es) {m : Model ℝ} (hu : Entered u m) (he : EnteredElems es m) {dl : ℝ} (hdl : 0 < dl) :
    ∃ S > 0, ∃ U U' : ℝ → Int → V3 ℝ, (∀ du, FreeTrail u es du dl S U U' (fun s => dl * s) fun _ => dl) ∧
      (∀ v, LinearSolution u es v → ∀ n ∈ u.nodes, ∀ d, U' 0 n.label d = dl * v n.label d) ∧
      ∃ ρ > 0, ∀ (V : Int → V3 ℝ) (s : ℝ), AllowedVelocity u V → (∀ n ∈ u.nodes, ∀ d, |V n.label d| ≤ ρ) → s ∈ Set.Icc 0 S →
        (∀ lab d, FreeAt u lab d → pull u es V lab d = dl * s * firstLoad u lab d) →
        ∀ n ∈ u.nodes, ∀ d, V n.label d = U s n.label d := by
  obtain ⟨c, bars, a, ef, h⟩ := entered_step hv hns hst hu he
  exact h.loadPath hst hk hdl

theorem FreeTrail.restrict {du dl S T : ℝ} {U U' : ℝ → Int → V3 ℝ} {l l' : ℝ → ℝ} (ht : FreeTrail u es du dl S U U' l l') (hT : T ≤ S) :
    FreeTrail u es du dl T U U' l l' := by
  have hsub : Set.Icc 0 T ⊆ Set.Icc 0 S := Set.Icc_subset_Icc_right hT
  exact ⟨ht.start, ht.startLoad, ht.grows, fun s hs n hn d => (ht.deriv s (hsub hs) n hn d).mono hsub,
    fun s hs => (ht.derivLoad s (hsub hs)).mono hsub, fun n hn d => (ht.cont n hn d).mono hsub, ht.contLoad.mono hsub,
    fun s hs => ht.speed s (hsub hs), fun s hs => ht.supports s (hsub hs), fun s hs => ht.equilibrium s (hsub hs),
    fun s hs => ht.length s (hsub hs), fun s hs => ht.below s (hsub hs), fun s hs => ht.regular s (hsub hs)⟩

/-- A path on which the load factor grows evenly is a path controlled by the load factor. -/
theorem FreeTrail.trail {du S : ℝ} {U U' : ℝ → Int → V3 ℝ} (ht : FreeTrail u es du 1 S U U' (fun s => 1 * s) fun _ => 1)
    (P : List (Int × Fin 3)) : Trail u es P (P.length + 1) S U fun s => 1 * s := by
  have hk : ((P.length : Int) + 1).natAbs - 1 = P.length := by omega
  have hc : ∀ (V : Int → V3 ℝ) (x : ℝ), component P V x P.length = x := by
    intro V x
    unfold component
    rw [List.getElem?_eq_none (le_refl _)]
  refine ⟨ht.start, ht.startLoad, fun n hn d s hs => (ht.deriv s hs n hn d).continuousWithinAt,
    fun s hs => (ht.derivLoad s hs).continuousWithinAt, ht.supports, ?_, ht.equilibrium, ht.length, ht.below, ?_⟩
  · intro s hs
    rw [hk, hc, Int.sign_eq_one_of_pos (by omega)]
    push_cast
    ring
  · intro s hs v μ hva hd h0
    rw [hk, hc] at h0
    obtain ⟨r, h1, h2⟩ := ht.regular s hs v μ hva hd
    have hr : r = 0 := by rw [h0, mul_one] at h2; exact h2.symm
    refine ⟨fun n hn d => ?_, h0⟩
    rw [h1 n hn d, hr, zero_mul]

/-- **C104, load control.** Such a structure has under the load factors `0 ≤ l ≤ S` equilibrium displacements `U l`, the only ones near the
undeformed state, and runs controlled by the load factor, with steps of width `h` below `h0`, return and record exactly the load
factors `h`, `2 h`, … and, up to `L` times the tolerance, the displacements `U h`, `U (2 h)`, …. -/
theorem C104_load_control_run (hv : ValidInput u es nsteps) (hns : 1 ≤ nsteps) (hst : StiffElems u es)
    (hk : KinematicallyStable u es) {m0 : Model ℝ} (hu0 : Entered u m0) (he0 : EnteredElems es m0) {P : List (Int × Fin 3)}
    (hP : FreeList u P) {env : Env ℝ} (hsp : SolvesRegular env.spsolve (P.length + 1)) (hA : ArgMax env) (nst : Nat) :
    ∃ S > 0, ∃ U : ℝ → Int → V3 ℝ, (∀ l ∈ Set.Icc 0 S, AllowedVelocity u (U l) ∧
        ∀ lab d, FreeAt u lab d → pull u es (U l) lab d = l * firstLoad u lab d) ∧
      (∃ ρ > 0, ∀ (V : Int → V3 ℝ) (l : ℝ), AllowedVelocity u V → (∀ n ∈ u.nodes, ∀ d, |V n.label d| ≤ ρ) → l ∈ Set.Icc 0 S →
        (∀ lab d, FreeAt u lab d → pull u es V lab d = l * firstLoad u lab d) → ∀ n ∈ u.nodes, ∀ d, V n.label d = U l n.label d) ∧
      ∃ h0 > 0, ∃ f0 > 0, ∃ L C : ℝ, ∀ (argsort : List Int → List Nat), IsArgsort argsort → ∀ m : Model ℝ,
        Entered u m → EnteredElems es m → m.settings.ndim = 3 → m.settings.nstatev = nst → m.settings.nsteps = 1 →
        m.settings.log ≤ 1 →
        ∀ h, 0 < h → h < h0 → FixedControl m.settings P.length (P.length + 1) h → (10 : ℝ) ^ (-m.settings.ftol) ≤ f0 →
        ∀ K xl, m.settings.incs.ofStep 0 = some K → m.settings.xlimit.ofStep 0 = some xl → 1 ≤ xl.1 → xl.1 ≤ P.length + 1 →
        K * h ≤ S → EnoughIterations m.settings C h → ∀ fuel, 1 ≤ fuel →
        ∃ m1 m2 nt res q, m.build argsort = .ok m1 ∧ m1.run env fuel = .ok m2 ∧ m1.nodes = some nt ∧ m2.results = some res ∧
          res.R.length = q + 1 ∧
          (∀ i < q, ∃ r lpf, res.R[i + 1]? = some r ∧ r.Vred[P.length]? = some lpf ∧ lpf = (i + 1) * h ∧
            ∀ (k : Nat) (lab : Int), nt.labels[k]? = some lab → ∀ d,
              |row3 r.U k d - U ((i + 1) * h) lab d| ≤ L * (10 : ℝ) ^ (-m.settings.ftol)) ∧
          (q = K ∨ 0 < q ∧ ∃ r v, res.R[q]? = some r ∧ r.Vred[(xl.1 - 1).toNat]? = some v ∧ xl.2 < |v|) := by
  obtain ⟨S, hS, U, U', ht, -, ρ, hρ, huniq⟩ := C104_load_path hv hns hst hk hu0 he0 one_pos
  obtain ⟨h0, hh0, f0, hf0, L, C, key⟩ := C101_single_step_run hv hns hst.plastic hP (j := (P.length : Int) + 1) (by omega) (by omega) hS.le
    ((ht 1).trail P) hsp hA nst
  refine ⟨S, hS, U, fun l hl => ⟨(ht 1).supports l hl, fun lab d hf => ?_⟩, ⟨ρ, hρ, fun V l hV hb hl heq => ?_⟩, h0, hh0, f0, hf0, L, C, ?_⟩
  · have := (ht 1).equilibrium l hl lab d hf
    rwa [one_mul] at this
  · refine huniq V l hV hb hl fun lab d hf => ?_
    rw [one_mul]
    exact heq lab d hf
  · intro as has m hu he hdim hn hs1 hlog h hh hlt hfix hf K xl hK hxl hx1 hx2 hKS hN fuel hfuel
    obtain ⟨m1, m2, nt, res, q, g1, g2, g3, g4, g5, g6⟩ := key as has m hu he hdim hn hs1 hlog h hh hlt hfix hf K xl hK hxl hx1 hx2 hKS hN
      fuel hfuel
    refine ⟨m1, m2, nt, res, q, g1, g2, g3, g4, g6, fun i hi => ?_, g5.stop⟩
    obtain ⟨r, p1, p2, p3⟩ := g5.points i hi
    rw [show ((P.length : Int) + 1).natAbs - 1 = P.length by omega, Int.sign_eq_one_of_pos (by omega)] at p3
    refine ⟨r, _, p1, p3, ?_, p2.disp⟩
    push_cast
    ring

theorem exists_bound (ns : List (Node ℝ)) (v : Int → V3 ℝ) : ∃ B : ℝ, 0 ≤ B ∧ ∀ n ∈ ns, ∀ d, |v n.label d| ≤ B := by
  induction ns with
  | nil => exact ⟨0, le_rfl, by simp⟩
  | cons n ns ih =>
    obtain ⟨B, hB, h⟩ := ih
    refine ⟨B + ∑ d, |v n.label d|, add_nonneg hB (Finset.sum_nonneg fun _ _ => abs_nonneg _), ?_⟩
    intro n' hn' d
    rcases List.mem_cons.1 hn' with rfl | hn'
    · have := Finset.single_le_sum (f := fun d => |v n'.label d|) (fun _ _ => abs_nonneg _) (Finset.mem_univ d)
      linarith
    · have h1 := h n' hn' d
      have h2 : 0 ≤ ∑ d, |v n.label d| := Finset.sum_nonneg fun _ _ => abs_nonneg _
      linarith

/-- Near its beginning the path is as close to linear truss theory as wanted. -/
theorem FreeTrail.near {du dl S : ℝ} {U U' : ℝ → Int → V3 ℝ} {l l' : ℝ → ℝ} (ht : FreeTrail u es du dl S U U' l l') (hS : 0 < S) {ε : ℝ}
    (hε : 0 < ε) : ∃ T > 0, T ≤ S ∧ ∀ s ∈ Set.Icc 0 T, ∀ n ∈ u.nodes, ∀ d, |U s n.label d - s * U' 0 n.label d| ≤ ε * s := by
  have hone : ∀ n ∈ u.nodes, ∀ d, ∀ᶠ s in nhdsWithin 0 (Set.Icc 0 S), |U s n.label d - s * U' 0 n.label d| ≤ ε * s := by
    intro n hn d
    have h1 := (ht.deriv 0 ⟨le_rfl, hS.le⟩ n hn d).isLittleO.bound hε
    filter_upwards [h1, self_mem_nhdsWithin] with s hs hm
    rw [ht.start n hn d] at hs
    simpa [abs_of_nonneg hm.1] using hs
  have hall : ∀ᶠ s in nhdsWithin 0 (Set.Icc 0 S), ∀ n ∈ u.nodes, ∀ d, |U s n.label d - s * U' 0 n.label d| ≤ ε * s := by
    generalize u.nodes = ns at hone
    induction ns with
    | nil => simp
    | cons n ns ih =>
      have h1 : ∀ᶠ s in nhdsWithin 0 (Set.Icc 0 S), ∀ d, |U s n.label d - s * U' 0 n.label d| ≤ ε * s :=
        Filter.eventually_all.2 fun d => hone n (by simp) d
      filter_upwards [h1, ih fun n hn => hone n (by simp [hn])] with s h1 h2 n' hn' d
      rcases List.mem_cons.1 hn' with rfl | hn'
      · exact h1 d
      · exact h2 n' hn' d
  obtain ⟨δ, hδ, hb⟩ := Metric.mem_nhdsWithin_iff.1 hall
  refine ⟨min S (δ / 2), lt_min hS (by positivity), min_le_left _ _, fun s hs => ?_⟩
  refine hb ⟨?_, hs.1, hs.2.trans (min_le_left _ _)⟩
  rw [Metric.mem_ball, Real.dist_eq, sub_zero, abs_of_nonneg hs.1]
  have := hs.2.trans (min_le_right _ _)
  linarith

/-- **C104, small loads.** For every `ε` there is a length `S` such that runs in the default mode, with step widths `t * du`, `t * dl`, `t`
below `t0`, and increments that together stay below `S`, return, and in every result the displacements are those of linear
truss theory times the load factor, up to `ε` times the load factor and `L` times the tolerance. -/
theorem C104_small_load_run (hv : ValidInput u es nsteps) (hns : 1 ≤ nsteps) (hst : StiffElems u es)
    (hk : KinematicallyStable u es) {m0 : Model ℝ} (hu0 : Entered u m0) (he0 : EnteredElems es m0) {P : List (Int × Fin 3)}
    (hP : FreeList u P) {v : Int → V3 ℝ} (hlin : LinearSolution u es v) {du dl : ℝ} (hdu : 0 < du) (hdl : 0 < dl)
    {env : Env ℝ} (hsp : SolvesRegular env.spsolve (P.length + 1)) (hA : ArgMax env) {η W : ℝ} (hη : 0 < η) (hW : 1 ≤ W) {ε : ℝ}
    (hε : 0 < ε) (nst : Nat) :
    ∃ S > 0, ∃ t0 > 0, ∃ φ0 > 0, ∃ L C : ℝ, ∀ (argsort : List Int → List Nat), IsArgsort argsort → ∀ m : Model ℝ,
      Entered u m → EnteredElems es m → m.settings.ndim = 3 → m.settings.nstatev = nst → m.settings.nsteps = 1 →
      m.settings.log ≤ 1 →
      ∀ t, 0 < t → t < t0 → FreeControl m.settings du dl η W t → (10 : ℝ) ^ (-m.settings.ftol) ≤ φ0 * t →
      ∀ K xl, m.settings.incs.ofStep 0 = some K → m.settings.xlimit.ofStep 0 = some xl → 1 ≤ xl.1 → xl.1 ≤ P.length + 1 →
      K * ((1 + η) * (W * t)) ≤ S → IterationsFor m.settings C t → ∀ fuel, 1 ≤ fuel →
      ∃ m1 m2 nt res q, m.build argsort = .ok m1 ∧ m1.run env fuel = .ok m2 ∧ m1.nodes = some nt ∧ m2.results = some res ∧
        res.R.length = q + 1 ∧
        (∀ i < q, ∃ r lpf, res.R[i + 1]? = some r ∧ r.lpf = some lpf ∧ ∀ (k : Nat) (lab : Int), nt.labels[k]? = some lab → ∀ d,
          |row3 r.U k d - lpf * v lab d| ≤ ε * |lpf| + L * (10 : ℝ) ^ (-m.settings.ftol)) ∧
        (q = K ∨ 0 < q ∧ ∃ r v, res.R[q]? = some r ∧ r.Vred[(xl.1 - 1).toNat]? = some v ∧ xl.2 < |v|) := by
  obtain ⟨S, hS, U, U', ht, htan, -⟩ := C104_load_path hv hns hst hk hu0 he0 hdl
  obtain ⟨T, hT, hTS, hnear⟩ := (ht du).near hS (ε := ε * dl) (by positivity)
  obtain ⟨B, hB, hvB⟩ := exists_bound u.nodes v
  obtain ⟨t0, ht0, φ0, hφ0, L, C, key⟩ := C103_single_step_run hv hns hst.plastic hP hdu hdl hT ((ht du).restrict hTS) hsp hA hη hW nst
  refine ⟨T, hT, t0, ht0, φ0, hφ0, L * (1 + ε + B), C, ?_⟩
  intro as has m hu he hdim hn hs1 hlog t htp htlt hfc hf K xl hK hxl hx1 hx2 hKS hN fuel hfuel
  obtain ⟨m1, m2, nt, res, q, p, g1, g2, g3, g4, g5, g6⟩ := key as has m hu he hdim hn hs1 hlog t htp htlt hfc hf K xl hK hxl hx1 hx2 hKS hN
    fuel hfuel
  have hmem : ∀ {k : Nat} {lab : Int}, nt.labels[k]? = some lab → ∃ n ∈ u.nodes, n.label = lab := by
    intro k lab hkl
    obtain ⟨nt', k1, -, k2, k3⟩ := C01_nodes_keep_coordinates has hu hv.posed.nodes g1
    rw [g3] at k1; cases k1
    have h1 : lab ∈ (nt.labels.zip nt.coords.rows).map Prod.fst := by
      rw [List.map_fst_zip k2.le]
      exact List.mem_of_getElem? hkl
    obtain ⟨x, hx, rfl⟩ := List.mem_map.1 h1
    obtain ⟨n, hn, rfl⟩ := List.mem_map.1 (k3.mem_iff.1 hx)
    exact ⟨n, hn, rfl⟩
  refine ⟨m1, m2, nt, res, q, g1, g2, g3, g4, g6, fun i hi => ?_, g5.stop⟩
  obtain ⟨r, p1, ⟨⟨lpf, p2, p3⟩, p4⟩, -⟩ := g5.points i hi
  refine ⟨r, lpf, p1, p2, fun k lab hkl d => ?_⟩
  obtain ⟨n, hn', rfl⟩ := hmem hkl
  have hpos : ∀ i ≤ q, 0 ≤ p i := by
    intro i
    induction i with
    | zero => intro _; rw [g5.first]
    | succ i ih =>
      intro hi
      have := (g5.forward i (by omega)).1
      linarith [ih (by omega)]
  have hs : p (i + 1) ∈ Set.Icc 0 T := ⟨hpos _ (by omega), (g5.forward i hi).2.1⟩
  have h1 := p4 k _ hkl d
  have h2 := hnear _ hs n hn' d
  rw [htan v hlin n hn' d] at h2
  have h3 := hvB n hn' d
  set s := p (i + 1) with hsd
  set τ := L * (10 : ℝ) ^ (-m.settings.ftol) with hτ
  have hτ0 : 0 ≤ τ := le_trans (abs_nonneg _) h1
  have h4 : |row3 r.U k d - lpf * v n.label d| ≤ |row3 r.U k d - U s n.label d| + |U s n.label d - s * (dl * v n.label d)| +
      |(dl * s - lpf) * v n.label d| := by
    refine le_trans (le_of_eq ?_) ((abs_add_le _ _).trans (add_le_add_left (abs_add_le _ _) _))
    congr 1
    ring
  have h5 : |(dl * s - lpf) * v n.label d| ≤ τ * B := by
    rw [abs_mul, abs_sub_comm]
    exact mul_le_mul p3 h3 (abs_nonneg _) hτ0
  have h6 : dl * s ≤ |lpf| + τ := by
    have := (abs_le.1 p3).1
    linarith [le_abs_self lpf]
  have h7 : ε * (dl * s) ≤ ε * (|lpf| + τ) := mul_le_mul_of_nonneg_left h6 hε.le
  have h8 : L * (1 + ε + B) * (10 : ℝ) ^ (-m.settings.ftol) = τ + ε * τ + τ * B := by rw [hτ]; ring
  rw [h8]
  linarith

end

/-! The hypotheses of these theorems are met by the two-bar truss (`Props/TwoBarLinear.lean`, where they are applied). -/

end TrussPy
