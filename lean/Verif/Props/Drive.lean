import Verif.Lemmas.Drive
import Verif.Props.PlasticPath
/-!
# Property C108: one free direction, driven by its displacement, through yielding and unloading
-/

set_option linter.unusedSectionVars false

namespace TrussPy

/-- **C108.** The user enters a truss with one free direction `p`, loaded there in each of the `ns` steps.  With the
displacement as fixed control component `build` and `run` return for every step width `h`, and the results are known in closed
form: the displacement grows by `h` per increment, the state variables of the plastic elements are those of the strain histories,
whether elements yield, unload or yield again, and the load factors balance the internal forces up to the tolerance.  Three
iterations are enough. -/
theorem C108_driven_run {u : UserInput ℝ} {es : List (Elem ℝ)} {ns : Nat} (hv : ValidInput u es ns) (hns : 1 ≤ ns)
    (hus : UsualPlastic es) {p : Int × Fin 3} (hP : FreeList u [p]) {j : Int} (hj : j.natAbs = 1)
    (hload : ∀ k < ns, stepLoad u k p.1 p.2 ≠ 0) {env : Env ℝ} (hsp : SolvesRegular env.spsolve 2) (hA : ArgMax env)
    {argsort : List Int → List Nat} (has : IsArgsort argsort) {m : Model ℝ} (hu : Entered u m) (he : EnteredElems es m)
    (hd : m.settings.ndim = 3) (hst : m.settings.nsteps = ns) (hlog : m.settings.log ≤ 1) {h : ℝ} (hh : 0 < h)
    (hfix : FixedControl m.settings 1 j h) (hN : 3 ≤ m.settings.nfev) {K : Nat → Nat} {lim : Nat → ℝ}
    (hK : ∀ k < ns, 1 ≤ K k ∧ m.settings.incs.ofStep k = some (K k) ∧ m.settings.xlimit.ofStep k = some (1, lim k) ∧
      ((∑ i ∈ Finset.range (k + 1), K i : Nat) : ℝ) * h ≤ lim k)
    (_hlen : ∀ t ≤ ∑ k ∈ Finset.range ns, K k, ∀ e ∈ es, ∀ A E, e.conn = [A, E] →
      len (span u (driven p (t * (h * (j.sign : ℝ)))) A E) ≠ 0) {fuel : Nat} (hfuel : 1 ≤ fuel) :
    ∃ m1 m2 nt res l, m.build argsort = .ok m1 ∧ m1.run env fuel = .ok m2 ∧ m1.nodes = some nt ∧ m2.results = some res ∧
      FollowsDrive u es p nt.labels res.R (h * (j.sign : ℝ)) ((10 : ℝ) ^ (-m.settings.ftol)) ns K l := by
  obtain ⟨c, d, bars, w, a0, hb, hinv, hdof, hnn, hall⟩ := stages_ready hv hus m.settings.nstatev ⟨argsort, m, has, hu, he, hd, rfl⟩
  obtain ⟨m1, a, r0, ft, g1, g2, g3, g4, g5, g6, g7, g8, g9⟩ := hall argsort has m hu he hd rfl
  have hset : m1.settings.ftol = m.settings.ftol ∧ m1.settings.nfev = m.settings.nfev ∧
      m1.settings.incs = m.settings.incs ∧ m1.settings.xlimit = m.settings.xlimit ∧ m1.settings.nsteps = m.settings.nsteps ∧
      m1.settings.log = m.settings.log := by
    rw [g7]
    exact ⟨rfl, rfl, rfl, rfl, rfl, rfl⟩
  obtain ⟨e1, e3, e4, e5, e6, e7⟩ := hset
  have hfix1 : FixedControl m1.settings 1 j h := by
    rw [g7]
    exact ⟨hfix.fixed, hfix.control, hfix.plain, hfix.overshoot, hfix.width⟩
  -- the free direction
  have hfl := hb.laid.freeList hP
  obtain ⟨q, hq⟩ : ∃ q, a0.DOF1 = [q] := by
    refine List.length_eq_one_iff.1 ?_
    have := congrArg List.length hfl
    simpa using this.symm
  have hp : p = (dofLabel c q, comp q) := by
    rw [hq] at hfl
    simpa using hfl
  have hlq : Laid u es c bars [q] := by rw [← hq]; exact hb.laid
  set v : ℝ := h * (j.sign : ℝ) with hvdef
  have hWex : ∀ t : Nat, ∃ W, scatter a0.U a0.DOF1 [t * v] = .ok W := fun t => scatter_ok (by rw [hq]; rfl)
  choose W hW using hWex
  have hWU : ∀ (t i : Nat) (lab : Int), c.nodes.labels[i]? = some lab → ∀ e, row3 (W t) i e = driven p (t * v) lab e := by
    intro t i lab hi e
    have := hW t
    rw [hb.U, hq] at this
    exact hlq.driven hP this hi e
  obtain ⟨outs, a1, R, le, s1, s2, s3, s4⟩ := drive_steps hb hq hj hsp hA hh hfix1 (by rw [e3]; exact hN)
    (ε := fun b t => b.stretch (W t) - 1) hW (fun _ _ _ => rfl) hfuel
    (by rw [hp] at hload; exact hload) (K := K) (lim := lim) (by rw [e4, e5]; exact hK) g5 ns le_rfl
  rw [e1] at s4
  -- the results
  have hR : R.dropLast = r0 :: (recorded outs).map (·.a) := by
    obtain ⟨u0, hu0⟩ := Steps.layout (X := [r0]) (j0 := r0) s1
    have hu0 : R = _ := hu0
    rw [hu0, List.dropLast_concat]
    rfl
  rcases List.eq_nil_or_concat outs with rfl | ⟨outs', o, ho⟩
  · simp at s2; omega
  rw [List.concat_eq_append] at ho
  have hlen : outs'.length + 1 = ns := by rw [← s2, ho]; simp
  have hrun : m1.run env fuel = .ok { m1 with analysis := some o.final, results := some ⟨R.dropLast, le⟩ } :=
    run_of_steps (outs := outs') (rest := []) g2 g3 g4 g6 (by rw [e7]; intro hl; exact absurd hl (not_lt.2 hlog))
      (by rw [e6, hst]; exact hlen) (by rw [g8, g9, ← ho]; exact s1)
  obtain ⟨n1, n2⟩ := recorded_get (K := K) fun k o hk => (s4 k o hk).1
  rw [s2] at n1
  -- the load factors
  let l : Nat → ℝ := fun t => (((recorded outs)[t - 1]?).bind (·.a.lpf)).getD 0
  have hl : ∀ (k : Nat) (o : PFOut ℝ), outs[k]? = some o → ∀ (i : Nat) (r : Rec ℝ), o.recs[i]? = some r → ∀ lv, r.a.lpf = some lv →
      l ((∑ m ∈ Finset.range k, K m) + i + 1) = lv := by
    intro k o' ho' i r hr lv hlv
    show (((recorded outs)[(∑ m ∈ Finset.range k, K m) + i + 1 - 1]?).bind (·.a.lpf)).getD 0 = lv
    rw [Nat.add_sub_cancel, n2 k o' ho' i r hr]
    simp [hlv]
  have hle : ∀ k < ns, l (∑ m ∈ Finset.range (k + 1), K m) = le.getD k 0 := by
    intro k hk
    obtain ⟨o', ho'⟩ : ∃ o', outs[k]? = some o' := ⟨_, List.getElem?_eq_getElem (by omega)⟩
    obtain ⟨t1, ⟨r, t2, t3⟩, -⟩ := s4 k o' ho'
    rw [List.getLast?_eq_getElem?, t1] at t2
    have := hl k o' ho' _ r t2 _ t3
    rw [Finset.sum_range_succ, show (∑ m ∈ Finset.range k, K m) + K k = (∑ m ∈ Finset.range k, K m) + (K k - 1) + 1 by
      have := (hK k hk).1
      omega]
    exact this
  refine ⟨m1, _, c.nodes, _, l, g1, hrun, ctx_nodes g2, rfl, ?_, ?_⟩
  · show R.dropLast.length = _
    rw [hR, List.length_cons, List.length_map, n1, Nat.add_comm]
  · intro k hk i hi
    obtain ⟨o', ho'⟩ : ∃ o', outs[k]? = some o' := ⟨_, List.getElem?_eq_getElem (by omega)⟩
    obtain ⟨t1, -, t2⟩ := s4 k o' ho'
    obtain ⟨r, hr⟩ : ∃ r, o'.recs[i]? = some r := ⟨_, List.getElem?_eq_getElem (by omega)⟩
    obtain ⟨p1, p2, lv, p3, p4, p5⟩ := t2 i r hr
    have hpos := n2 k o' ho' i r hr
    have hnum : 1 + (∑ m ∈ Finset.range k, K m) + i = (∑ m ∈ Finset.range k, K m) + i + 1 := by omega
    rw [hnum]
    have hll := hl k o' ho' i r hr lv p3
    refine ⟨r.a, ?_, s1.stepNumber k o' ho' r (List.mem_of_getElem? hr), ?_, ?_, ?_, ?_⟩
    · show R.dropLast[_]? = _
      rw [hR, List.getElem?_cons_succ, List.getElem?_map, hpos]
      rfl
    · rw [p3, hll]
    · -- the table
      have hlt : (∑ m ∈ Finset.range k, K m) + i < (a0 :: (recorded outs).map (·.a)).length := by
        have := (List.getElem?_eq_some_iff.1 hpos).1
        simp; omega
      have hcr : Carry a0 a0 := by constructor <;> rfl
      have hI := s1.pairs hinv hcr hinv (List.getElem?_eq_getElem hlt) hpos
      have hsol := hI.solved hdof (by rw [p1]; simp)
      have hred : ReducedTo r.a.U d.dof1 r.a.Ured := by
        have ht := hsol.1.reduced
        rw [hI.next.dof1] at ht
        obtain ⟨t1, t2⟩ := (npTake_eq_ok_iff _ _ _).1 ht
        refine ⟨t1, ?_, ?_⟩
        · intro k i hk
          obtain ⟨t3, t4⟩ := t2 k (List.getElem?_eq_some_iff.1 hk).1
          rw [hk] at t3
          have t3 : r.a.Ured[k]? = r.a.U[i]? := t3
          exact ⟨t3.symm, fun e => t4 (t3.trans e)⟩
        · intro i hi hni
          exact hI.next.U i (by rw [hI.next.fits.U, hnn] at hi; exact hi) hni
      have hlaid := hb.laid
      rw [hinv.dof1] at hlaid
      have hsh := shows_of (tol := 0) (l := lv) hlaid hP hred hI.next.fits.U (x := r.x) (by rw [p4]; rfl) hsol.2.2
        (by rw [p4, p3]; rfl) (driven_allowed hP (((∑ m ∈ Finset.range k, K m) + i + 1 : Nat) * v)) (by
          intro i' hi
          have : i' = 0 ∨ i' = 1 := by simp at hi; omega
          rcases this with rfl | rfl
          · rw [p4]
            generalize ((∑ m ∈ Finset.range k, K m) + i + 1 : Nat) * v = x
            simp [component, driven]
          · rw [p4]; simp [component])
      intro n lab hn d'
      have := hsh.2 n lab hn d'
      exact sub_eq_zero.1 (abs_nonpos_iff.1 this)
    · exact hb.laid.remembers (U := fun t => driven p (t * v)) hWU p2
    · have hpull := hb.laid.barPull (U := fun t => driven p (t * v)) hWU ((∑ m ∈ Finset.range k, K m) + i + 1) (q := q)
        (by rw [hq]; simp)
      rw [hpull] at p5
      have hsum : ∑ m ∈ Finset.range k, l (∑ q ∈ Finset.range (m + 1), K q) * stepLoad u m p.1 p.2 =
          ∑ i ∈ Finset.range k, le.getD i 0 * stepLoad u i (dofLabel c q) (comp q) := by
        refine Finset.sum_congr rfl fun i hi => ?_
        rw [hle i (lt_trans (Finset.mem_range.1 hi) hk), hp]
      rw [hll, hsum]
      unfold drivenPull
      rw [hp]
      rw [hp] at p5
      exact p5

/-! ## The two-bar truss of a plastic material, pushed through in two increments -/

/-- Plastic strain after yielding in compression at the strain `-e`, starting from the virgin material. -/
theorem hardened_yield {m : Spec.Plastic} (hm : m.Valid) {ε : Nat → ℝ} {e : ℝ} (he : 0 < e) (h1 : ε 1 = -e) (hy : m.Sy ≤ m.E * e) :
    hardened m ε 1 = (m.Sy + m.K * ((m.E * e - m.Sy) / (m.E + m.K)), -((m.E * e - m.Sy) / (m.E + m.K))) := by
  have hE := hm.E
  have hpos : 0 < m.E + m.K := by linarith [hm.K]
  have hf : Spec.flow m m.Sy 0 (-e) = (m.E * e - m.Sy) / (m.E + m.K) := by
    unfold Spec.flow
    rw [sub_zero, mul_neg, abs_neg, abs_of_pos (mul_pos hE he)]
    exact max_eq_right (div_nonneg (by linarith) hpos.le)
  have hs : Real.sign (m.E * (-e - 0)) = -1 := Real.sign_of_neg (by have := mul_pos hE he; linarith)
  show (Spec.newY m m.Sy 0 (ε 1), Spec.newP m m.Sy 0 (ε 1)) = _
  rw [h1]
  unfold Spec.newY Spec.newP
  rw [hf, hs]
  congr 1
  ring

/-- Back at the strain 0 the plastic strain has not changed, if the stress due to it is below the new yield stress. -/
theorem hardened_back {m : Spec.Plastic} (hm : m.Valid) {ε : Nat → ℝ} {e : ℝ} (he : 0 < e) (h1 : ε 1 = -e) (h2 : ε 2 = 0)
    (hy : m.Sy ≤ m.E * e) (hb : m.E * ((m.E * e - m.Sy) / (m.E + m.K)) ≤ m.Sy + m.K * ((m.E * e - m.Sy) / (m.E + m.K))) :
    (hardened m ε 2).2 = -((m.E * e - m.Sy) / (m.E + m.K)) := by
  have hE := hm.E
  have hpos : 0 < m.E + m.K := by linarith [hm.K]
  have h0 := hardened_yield hm he h1 hy
  show Spec.newP m (hardened m ε 1).1 (hardened m ε 1).2 (ε 2) = _
  rw [h0, h2]
  simp only
  have hg : 0 ≤ (m.E * e - m.Sy) / (m.E + m.K) := div_nonneg (by linarith) hpos.le
  generalize (m.E * e - m.Sy) / (m.E + m.K) = g at *
  unfold Spec.newP Spec.flow
  rw [sub_neg_eq_add, zero_add, abs_of_nonneg (mul_nonneg hE.le hg), max_eq_left (div_nonpos_of_nonpos_of_nonneg (by linarith) hpos.le)]
  ring

theorem tbDriven (s : ℝ) : driven (2, 2) (-s) = tbMove s := rfl

theorem pbStrain {w H E K Sy A : ℝ} (s : ℝ) : ∀ e ∈ pbElems E K Sy A,
    elementStrain (tbInput w H) (tbMove s) e = √(w ^ 2 + (H - s) ^ 2) / √(w ^ 2 + H ^ 2) - 1 := by
  have z : ∀ l d, (0 : Int → V3 ℝ) l d = tbMove 0 l d := by
    intro l d
    simp [tbMove]
  intro e he
  simp only [pbElems, List.mem_cons, List.not_mem_nil, or_false] at he
  rcases he with rfl | rfl
  · simp only [elementStrain]
    rw [tbSpan1 (s := s) (by simp [tbMove]) (fun _ => rfl), tbSpan1 (s := 0) (fun _ => rfl) (z 2), vmLen, vmLen, sub_zero]
  · simp only [elementStrain]
    rw [tbSpan2 (s := s) (by simp [tbMove]) (fun _ => rfl), tbSpan2 (s := 0) (fun _ => rfl) (z 2), vmLen, vmLen, neg_sq, neg_sq, sub_zero]

/-- Internal force in the turned-over position. -/
theorem pbPull {w H E K Sy A : ℝ} (hw : 0 < w) (hH : 0 < H) (hE : 0 < E) (hK : 0 ≤ K) (hSy : 0 < Sy)
    (hy : Sy ≤ E * (1 - w / √(w ^ 2 + H ^ 2))) {γ : ℝ} (hγ : γ = (E * (1 - w / √(w ^ 2 + H ^ 2)) - Sy) / (E + K))
    (hb : E * γ ≤ Sy + K * γ) :
    drivenPull (tbInput w H) (pbElems E K Sy A) (2, 2) (-H) 2 = -(2 * E * γ * A * (H / √(w ^ 2 + H ^ 2))) := by
  have hL : 0 < √(w ^ 2 + H ^ 2) := Real.sqrt_pos.2 (by positivity)
  have hwL : w < √(w ^ 2 + H ^ 2) := Real.lt_sqrt_of_sq_lt (by nlinarith)
  have he : 0 < 1 - w / √(w ^ 2 + H ^ 2) := by
    have := (div_lt_one hL).2 hwL
    linarith
  have hm : (⟨E, K, Sy⟩ : Spec.Plastic).Valid := ⟨hE, hK, hSy⟩
  have hdr : ∀ q : Nat, driven (2, 2) (q * -H) = tbMove (q * H) := fun q => by rw [mul_neg, tbDriven]
  have hstress : ∀ e ∈ pbElems E K Sy A, elementStress e (fun q => elementStrain (tbInput w H) (driven (2, 2) (q * -H)) e) 2 = E * γ := by
    intro e hee
    have hε : (fun q : Nat => elementStrain (tbInput w H) (driven (2, 2) (q * -H)) e) =
        fun q : Nat => √(w ^ 2 + (H - q * H) ^ 2) / √(w ^ 2 + H ^ 2) - 1 := by
      funext q
      rw [hdr, pbStrain _ e hee]
    rw [hε]
    have h1 : √(w ^ 2 + (H - (1 : Nat) * H) ^ 2) / √(w ^ 2 + H ^ 2) - 1 = -(1 - w / √(w ^ 2 + H ^ 2)) := by
      rw [Nat.cast_one, one_mul, sub_self, zero_pow two_ne_zero, add_zero, Real.sqrt_sq hw.le]
      ring
    have h2 : √(w ^ 2 + (H - (2 : Nat) * H) ^ 2) / √(w ^ 2 + H ^ 2) - 1 = 0 := by
      rw [show H - ((2 : Nat) : ℝ) * H = -H by push_cast; ring, neg_sq, div_self hL.ne', sub_self]
    have hp := hardened_back hm (ε := fun q : Nat => √(w ^ 2 + (H - q * H) ^ 2) / √(w ^ 2 + H ^ 2) - 1) he h1 h2 hy
      (by rw [hγ] at hb; exact hb)
    simp only [pbElems, List.mem_cons, List.not_mem_nil, or_false] at hee
    have hgo : E * (√(w ^ 2 + (H - (2 : Nat) * H) ^ 2) / √(w ^ 2 + H ^ 2) - 1 -
        (hardened ⟨E, K, Sy⟩ (fun q : Nat => √(w ^ 2 + (H - q * H) ^ 2) / √(w ^ 2 + H ^ 2) - 1) 2).2) = E * γ := by
      rw [h2, hp, hγ]
      ring
    rcases hee with rfl | rfl
    · unfold elementStress
      rw [if_pos rfl]
      exact hgo
    · unfold elementStress
      rw [if_pos rfl]
      exact hgo
  unfold drivenPull stressPull
  have e1 := hstress ⟨1, [1, 2], 1, 2, ⟨false, [E, K, Sy]⟩, ⟨false, [A]⟩⟩ (by simp [pbElems])
  have e2 := hstress ⟨2, [2, 3], 1, 2, ⟨false, [E, K, Sy]⟩, ⟨false, [A]⟩⟩ (by simp [pbElems])
  simp only [pbElems, List.map_cons, List.map_nil, List.sum_cons, List.sum_nil, add_zero]
  rw [e1, e2, hdr 2, tbSpan1 (s := (2 : Nat) * H) (by simp [tbMove]) (fun _ => rfl), tbSpan2 (s := (2 : Nat) * H) (by simp [tbMove]) (fun _ => rfl),
    vmLen, vmLen, show H - ((2 : Nat) : ℝ) * H = -H by push_cast; ring, neg_sq, neg_neg]
  simp
  ring

/-- **C108, permanent set.** The two-bar truss, pushed in two increments from its initial position through the flat one into the
turned-over one, yields on the way.  In the turned-over position, where the elastic truss is free of stress, the bars are too
short: the run reports the load which holds them there, `2 E γ A H / L`, up to the tolerance, and the plastic strain `-γ`. -/
theorem C108_two_bar_set {w H E K Sy A : ℝ} (hw : 0 < w) (hH : 0 < H) (hE : 0 < E) (hK : 0 ≤ K) (hSy : 0 < Sy)
    (hy : Sy ≤ E * (1 - w / √(w ^ 2 + H ^ 2))) {γ : ℝ} (hγ : γ = (E * (1 - w / √(w ^ 2 + H ^ 2)) - Sy) / (E + K))
    (hb : E * γ ≤ Sy + K * γ) {env : Env ℝ} (hsp : SolvesRegular env.spsolve 2) (hA : ArgMax env)
    {argsort : List Int → List Nat} (has : IsArgsort argsort) {s : Settings ℝ} (hd : s.ndim = 3) (hst : s.nsteps = 1)
    (hlog : s.log ≤ 1) (hfix : FixedControl s 1 (-1) H) (hN : 3 ≤ s.nfev) (hinc : s.incs.ofStep 0 = some 2) {lim : ℝ}
    (hlim : s.xlimit.ofStep 0 = some (1, lim)) (hlim2 : 2 * H ≤ lim) {fuel : Nat} (hfuel : 1 ≤ fuel) :
    ∃ m1 m2 nt res r l, (pbModel w H E K Sy A s).build argsort = .ok m1 ∧ m1.run env fuel = .ok m2 ∧ m1.nodes = some nt ∧
      m2.results = some res ∧ res.R.length = 3 ∧ res.R[2]? = some r ∧ r.lpf = some l ∧
      (∀ (n : Nat) (lab : Int), nt.labels[n]? = some lab → ∀ d, row3 r.U n d = tbMove (2 * H) lab d) ∧
      |l - 2 * E * γ * A * (H / √(w ^ 2 + H ^ 2))| < (10 : ℝ) ^ (-s.ftol) ∧
      ∀ k < 2, ∃ y rest, r.statev.bind (·[k]?) = some (y :: -γ :: rest) := by
  have hload : stepLoad (tbInput w H) 0 2 2 = -1 := by simp [stepLoad, tbInput, loadOf]
  have hL : 0 < √(w ^ 2 + H ^ 2) := Real.sqrt_pos.2 (by positivity)
  have hwL : w < √(w ^ 2 + H ^ 2) := Real.lt_sqrt_of_sq_lt (by nlinarith)
  have he : 0 < 1 - w / √(w ^ 2 + H ^ 2) := by
    have := (div_lt_one hL).2 hwL
    linarith
  have hsgn : H * (((-1 : Int).sign : Int) : ℝ) = -H := by simp
  obtain ⟨m1, m2, nt, res, l, e1, e2, e3, e4, e5⟩ := C108_driven_run (pbValid w H E K Sy A) le_rfl (pbUsual A hE hK hSy) (tbFree w H)
    (j := -1) (by decide) (by
      intro k hk
      obtain rfl : k = 0 := by omega
      show stepLoad (tbInput w H) 0 2 2 ≠ 0
      rw [hload]
      norm_num) hsp hA has (m := pbModel w H E K Sy A s) (tbEntered w H E A s) (pbEnteredElems w H E K Sy A s) hd hst hlog hH hfix
    hN (K := fun _ => 2) (lim := fun _ => lim) (by
      intro k hk
      obtain rfl : k = 0 := by omega
      exact ⟨by decide, hinc, hlim, by simpa using hlim2⟩) (by
      intro t _ e hee P Q hc
      rw [hsgn, show (t : ℝ) * -H = -(t * H) by ring, tbDriven]
      obtain ⟨e', h1, h2⟩ := (pbTwin E K Sy A).mem hee
      exact (tbTrail (H := H) (E := E) (A := A) hw (t * H)).length (t * H) ⟨by positivity, le_rfl⟩ e' h1 P Q (h2.trans hc)) hfuel
  rw [hsgn] at e5
  obtain ⟨r, p1, -, p3, p4, p5, p6⟩ := e5.points 0 one_pos 1 one_lt_two
  refine ⟨m1, m2, nt, res, r, l 2, e1, e2, e3, e4, by rw [e5.count]; rfl, p1, p3, ?_, ?_, ?_⟩
  · intro n lab hn d
    have := p4 n lab hn d
    rw [this, ← tbDriven]
    congr 1
    simp
  · have p6 : |drivenPull (tbInput w H) (pbElems E K Sy A) (2, 2) (-H) 2 -
      ((∑ m ∈ Finset.range 0, l (∑ q ∈ Finset.range (m + 1), 2) * stepLoad (tbInput w H) m 2 2) +
        l 2 * stepLoad (tbInput w H) 0 2 2)| < (10 : ℝ) ^ (-s.ftol) := p6
    rw [Finset.sum_range_zero, hload, pbPull hw hH hE hK hSy hy hγ hb] at p6
    rw [show l 2 - 2 * E * γ * A * (H / √(w ^ 2 + H ^ 2)) = -(2 * E * γ * A * (H / √(w ^ 2 + H ^ 2))) - (0 + l 2 * -1) by ring]
    exact p6
  · intro k hk
    obtain ⟨e, hke⟩ : ∃ e, (pbElems E K Sy A)[k]? = some e := ⟨_, List.getElem?_eq_getElem (by simpa [pbElems] using hk)⟩
    have hmem := List.mem_of_getElem? hke
    have hmt : e.mtype = 2 ∧ e.mprop.vals = [E, K, Sy] := by
      simp only [pbElems, List.mem_cons, List.not_mem_nil, or_false] at hmem
      rcases hmem with rfl | rfl <;> exact ⟨rfl, rfl⟩
    obtain ⟨y, p, rest, q1, q2⟩ := p5 k e hke hmt.1
    rw [hmt.2] at q2
    have q2 : _ = hardened ⟨E, K, Sy⟩ _ 2 := q2
    have q3 := congrArg Prod.snd q2
    have hε : ∀ q : Nat, elementStrain (tbInput w H) (driven (2, 2) (q * -H)) e =
        √(w ^ 2 + (H - q * H) ^ 2) / √(w ^ 2 + H ^ 2) - 1 := by
      intro q
      rw [mul_neg, tbDriven, pbStrain _ e hmem]
    rw [hardened_back (m := ⟨E, K, Sy⟩) ⟨hE, hK, hSy⟩ he (by
        show elementStrain (tbInput w H) (driven (2, 2) ((1 : Nat) * -H)) e = _
        rw [hε, Nat.cast_one, one_mul, sub_self, zero_pow two_ne_zero, add_zero, Real.sqrt_sq hw.le]
        ring) (by
        show elementStrain (tbInput w H) (driven (2, 2) ((2 : Nat) * -H)) e = _
        rw [hε, show H - ((2 : Nat) : ℝ) * H = -H by push_cast; ring, neg_sq, div_self hL.ne', sub_self]) hy
        (by rw [hγ] at hb; exact hb)] at q3
    refine ⟨y, rest, ?_⟩
    rw [q1, hγ]
    exact congrArg some (congrArg (y :: · :: rest) q3)

/-- All hypotheses are met: width 3, height 4, modulus 1, plastic modulus 1, yield stress 1/5, area 1.  The plastic strain is
-1/10, the load in the turned-over position 4/25. -/
example {argsort : List Int → List Nat} (has : IsArgsort argsort) : ∃ m1 m2 nt res r l,
    (pbModel 3 4 1 1 (1 / 5) 1 { rbSettings with
      j0 := some (-1), du := 4, incs := .const 2, xlimit := .const 1 8, nfev := 3, nsteps := 1 }).build argsort = .ok m1 ∧
    m1.run exactEnv 1 = .ok m2 ∧ m1.nodes = some nt ∧
      m2.results = some res ∧ res.R.length = 3 ∧ res.R[2]? = some r ∧ r.lpf = some l ∧
      (∀ (n : Nat) (lab : Int), nt.labels[n]? = some lab → ∀ d, row3 r.U n d = tbMove (2 * 4) lab d) ∧
      |l - 2 * 1 * (1 / 10 : ℝ) * 1 * (4 / √(3 ^ 2 + 4 ^ 2))| < (10 : ℝ) ^ (-rbSettings.ftol) ∧
      ∀ k < 2, ∃ y rest, r.statev.bind (·[k]?) = some (y :: -(1 / 10 : ℝ) :: rest) := by
  have h5 : √((3 : ℝ) ^ 2 + 4 ^ 2) = 5 := by
    rw [show (3 : ℝ) ^ 2 + 4 ^ 2 = 5 ^ 2 by norm_num, Real.sqrt_sq (by norm_num)]
  exact C108_two_bar_set (w := 3) (H := 4) (E := 1) (K := 1) (Sy := 1 / 5) (A := 1) (γ := 1 / 10) (by norm_num) (by norm_num) (by norm_num) (by norm_num) (by norm_num) (by rw [h5]; norm_num)
    (by rw [h5]; norm_num) (by norm_num) (exactEnv_solves 2) exactEnv_argmax has (lim := 8) rfl rfl (by show (0 : Int) ≤ 1; decide)
    ⟨rfl, rfl, rfl, by show (1 : ℝ) ≤ 101 / 100; norm_num, if_pos (by decide)⟩ (by show (3 : Int) ≤ 3; decide) rfl rfl
    (by norm_num) (le_refl 1)

end TrussPy
