import Verif.Props.FreeTrail
import Verif.Props.TwoBar
import Verif.Props.AutoSnap
/-!
# Property C103 for a concrete structure: the two-bar truss entered by the user snaps through in the default mode
-/

set_option linter.unusedSectionVars false

namespace TrussPy

theorem tbFreeTrail {w H E A : ℝ} (hw : 0 < w) (hH : 0 < H) (hE : 0 < E) (hA : 0 < A) (dl S : ℝ) :
    FreeTrail (tbInput w H) (tbElems E A) 1 dl S tbMove (fun _ => tbMove 1) (vmLoad w H E A) (vmSlope w H E A) where
  start := by
    intro n _ d
    simp [tbMove]
  startLoad := by simp [vmLoad]
  grows := vmSlope_start hH hE hA
  deriv := by
    intro s _ n _ d
    unfold tbMove
    split
    · exact (hasDerivAt_id s).neg.hasDerivWithinAt
    · exact hasDerivWithinAt_const _ _ _
  derivLoad := fun s _ => (vmLoad_deriv hw H E A s).hasDerivWithinAt
  cont := fun _ _ _ => continuousOn_const
  contLoad := (vmSlope_cont hw H E A).continuousOn
  speed := fun s _ => Or.inr ⟨⟨2, [0, 0, H]⟩, by simp [tbInput], 2, by simp [tbMove]⟩
  supports := (tbTrail (H := H) (E := E) (A := A) hw S).supports
  equilibrium := (tbTrail hw S).equilibrium
  length := (tbTrail (H := H) (E := E) (A := A) hw S).length
  below _ _ := tbBelow E A _ _
  regular := by
    intro s _ v μ hv hd
    have hz : ∀ n ∈ (tbInput w H).nodes, ∀ d, v n.label d = -v 2 2 * tbMove 1 n.label d := by
      intro n hn d
      by_cases h : (n.label, d) = (2, 2)
      · simp only [Prod.mk.injEq] at h
        rw [h.1, h.2]
        simp [tbMove]
      · have h0 : tbMove 1 n.label d = 0 := if_neg (by simpa using h)
        rw [h0, mul_zero]
        refine hv n hn d fun h1 => h ?_
        exact (tbFreeAt w H _ d).1 ⟨⟨n, hn, rfl⟩, h1⟩
    refine ⟨-v 2 2, hz, ?_⟩
    have z1 : ∀ d, v 1 d = 0 := by
      intro d
      have := hz ⟨1, [-w, 0, 0]⟩ (by simp [tbInput]) d
      simpa [tbMove] using this
    have z2 : ∀ d, v 2 d = -v 2 2 * tbMove 1 2 d := hz ⟨2, [0, 0, H]⟩ (by simp [tbInput])
    have z3 : ∀ d, v 3 d = 0 := by
      intro d
      have := hz ⟨3, [w, 0, 0]⟩ (by simp [tbInput]) d
      simpa [tbMove] using this
    have hder := hd 2 2 ((tbFreeAt w H 2 2).2 rfl)
    have hfun : (fun t : ℝ => pull (tbInput w H) (tbElems E A) (fun n e => tbMove s n e + t * v n e) 2 2 -
        (vmLoad w H E A s + t * μ) * firstLoad (tbInput w H) 2 2) =
        fun t => -vmLoad w H E A (s + t * -v 2 2) + (vmLoad w H E A s + t * μ) := by
      funext t
      rw [tbPull (s := s + t * -v 2 2) hw (by simp [tbMove, z1]) (by simp [tbMove, z3]) (by
        intro d
        rw [z2]
        unfold tbMove
        split <;> ring)]
      simp [firstLoad, tbInput, loadOf]
      ring
    rw [hfun] at hder
    have hl : HasDerivAt (fun t : ℝ => s + t * -v 2 2) (1 * -v 2 2) 0 := ((hasDerivAt_id 0).mul_const _).const_add s
    have h1 : HasDerivAt (fun t : ℝ => vmLoad w H E A (s + t * -v 2 2)) (vmSlope w H E A s * (1 * -v 2 2)) 0 := by
      refine HasDerivAt.comp (h₂ := vmLoad w H E A) (0 : ℝ) ?_ hl
      rw [zero_mul, add_zero]
      exact vmLoad_deriv hw H E A s
    have h2 : HasDerivAt (fun t : ℝ => vmLoad w H E A s + t * μ) (1 * μ) 0 := ((hasDerivAt_id 0).mul_const μ).const_add _
    have := hder.unique (h1.neg.add h2)
    linarith

/-- **C103, snap-through.** The user enters a two-bar truss of any width, height, modulus and area and leaves the choice of the
control component to the program: with small steps `build` and `run` return and the results show apex displacement and load factor on
the closed-form curve at growing parameters, through the load maximum, the flat position and beyond, unless the limit stops
the run. -/
theorem C103_two_bar_default_run {w H E A : ℝ} (hw : 0 < w) (hH : 0 < H) (hE : 0 < E) (hA : 0 < A) {dl S : ℝ} (hdl : 0 < dl)
    (hS : 0 < S) {env : Env ℝ} (hsp : SolvesRegular env.spsolve 2) (hAm : ArgMax env) {η W : ℝ} (hη : 0 < η) (hW : 1 ≤ W) (nst : Nat) :
    ∃ t0 > 0, ∃ φ0 > 0, ∃ L C : ℝ, ∀ (argsort : List Int → List Nat), IsArgsort argsort → ∀ s : Settings ℝ,
      s.ndim = 3 → s.nstatev = nst → s.nsteps = 1 → s.log ≤ 1 → ∀ t, 0 < t → t < t0 → FreeControl s 1 dl η W t →
      (10 : ℝ) ^ (-s.ftol) ≤ φ0 * t → ∀ K xl, s.incs.ofStep 0 = some K → s.xlimit.ofStep 0 = some xl → 1 ≤ xl.1 → xl.1 ≤ 2 →
      K * ((1 + η) * (W * t)) ≤ S → IterationsFor s C t → ∀ fuel, 1 ≤ fuel →
      ∃ m1 m2 nt res, ∃ p : Nat → ℝ, (tbModel w H E A s).build argsort = .ok m1 ∧ m1.run env fuel = .ok m2 ∧ m1.nodes = some nt ∧
        m2.results = some res ∧ res.R.length ≤ K + 1 ∧ p 0 = 0 ∧
        (∀ (i : Nat) r, res.R[i + 1]? = some r →
          OnPath nt.labels r (tbMove (p (i + 1))) (vmLoad w H E A (p (i + 1))) (L * (10 : ℝ) ^ (-s.ftol)) ∧
          (∃ v, r.Vred[0]? = some v ∧ |v + p (i + 1)| ≤ L * (10 : ℝ) ^ (-s.ftol)) ∧
          p i < p (i + 1) ∧ p (i + 1) ≤ p i + (1 + η) * (W * t) ∧
          (1 - η) * t ≤ max 1 (4 * E * A / w / dl) * (p (i + 1) - p i)) ∧
        (res.R.length = K + 1 ∨ 1 < res.R.length ∧ ∃ r v, res.R.getLast? = some r ∧ r.Vred[(xl.1 - 1).toNat]? = some v ∧ xl.2 < |v|) := by
  obtain ⟨t0, ht0, φ0, hφ0, L, C, key⟩ := C103_single_step_run (tbValid w H E A) (le_refl _) (tbUsual E A) (tbFree w H)
    one_pos hdl hS (tbFreeTrail hw hH hE hA dl S) hsp hAm hη hW nst
  refine ⟨t0, ht0, φ0, hφ0, L, C, ?_⟩
  intro as has s hd hn hs hl t htp htlt hfc hf K xl hK hxl hx1 hx2 hKS hN fuel hfuel
  obtain ⟨m1, m2, nt, res, q, p, e1, e2, e3, e4, e5, e6⟩ := key as has (tbModel w H E A s) (tbEntered w H E A s)
    (tbEnteredElems w H E A s) hd hn hs hl t htp htlt hfc hf K xl hK hxl hx1 (by simpa using hx2) hKS hN fuel hfuel
  refine ⟨m1, m2, nt, res, p, e1, e2, e3, e4, by have := e5.count; omega, e5.first, ?_, ?_⟩
  · intro i r hr
    have hi := (List.getElem?_eq_some_iff.1 hr).1
    have hiq : i < q := by omega
    obtain ⟨r', p1, p2, p3⟩ := e5.points i hiq
    rw [hr] at p1; cases p1
    obtain ⟨f1, -, f3⟩ := e5.forward i hiq
    refine ⟨p2, ?_, f1, f3, e5.progress _ ?_ i hiq⟩
    · obtain ⟨v, v1, v2⟩ := p3 0 (by simp)
      refine ⟨v, v1, ?_⟩
      simp only [component, tbMove, List.getElem?_cons_zero, and_self, if_true, sub_neg_eq_add] at v2
      exact v2
    · intro s _
      constructor
      · refine (vmSlope_bound hw hE hA s).trans ?_
        rw [← div_le_iff₀ hdl]
        exact le_max_right _ _
      · intro n _ d
        have : |tbMove 1 n.label d| ≤ 1 := by
          unfold tbMove
          split <;> simp
        exact this.trans (by simp)
  · rcases e5.stop with hq | ⟨hq, r, v, p1, p2, p3⟩
    · exact Or.inl (by rw [e6, hq])
    · exact Or.inr ⟨by omega, r, v, by rw [List.getLast?_eq_getElem?, e6, Nat.add_sub_cancel]; exact p1, p2, p3⟩

/-! ## The hypotheses are met

For every width of the load step there are settings with the control component left to the program, with which `build` and `run`
return and some result has the apex below the supports and a negative load factor. -/

example {w H E A dl : ℝ} (hw : 0 < w) (hH : 0 < H) (hE : 0 < E) (hA : 0 < A) (hdl : 0 < dl) (argsort : List Int → List Nat)
    (has : IsArgsort argsort) :
    ∃ s m1 m2 res r v l, s.jFixed = false ∧ (tbModel w H E A s).build argsort = .ok m1 ∧ m1.run exactEnv 1 = .ok m2 ∧
      m2.results = some res ∧ r ∈ res.R ∧ r.Vred[0]? = some v ∧ v < -H ∧ r.lpf = some l ∧ l < 0 := by
  set G := max 1 (4 * E * A / w / dl) with hG
  have hG1 : 1 ≤ G := le_max_left _ _
  have hG0 : 0 < G := by linarith
  obtain ⟨t0, ht0, φ0, hφ0, L, C, key⟩ := C103_two_bar_default_run hw hH hE hA hdl (S := 4 * G * H) (by positivity)
    (exactEnv_solves 2) exactEnv_argmax (η := 1 / 4) (W := 1) (by norm_num) le_rfl rbSettings.nstatev
  -- the load is negative between `3/2 H` and `7/4 H`
  have hneg := (C100_load_reverses hw hH hE hA).2.2.2.2.1
  obtain ⟨q, hq, hqmax⟩ := (isCompact_Icc (a := 3 / 2 * H) (b := 7 / 4 * H)).exists_isMaxOn
    ⟨3 / 2 * H, le_rfl, by linarith⟩
    (continuousOn_of_forall_continuousAt fun s _ => (vmLoad_deriv hw H E A s).continuousAt)
  have hlam := hneg q (by linarith [hq.1]) (by linarith [hq.2])
  set lam := vmLoad w H E A q with hlamd
  -- the number of increments
  obtain ⟨M, hM⟩ := exists_nat_gt (max (16 / 5 * G * H / t0) (16 * G))
  have hM1 : 16 / 5 * G * H / t0 < M := (le_max_left _ _).trans_lt hM
  have hM2 : 16 * G < M := (le_max_right _ _).trans_lt hM
  have hM0 : (0 : ℝ) < M := by linarith
  rw [div_lt_iff₀ ht0] at hM1
  set t := 16 / 5 * G * H / M with ht
  have htpos : 0 < t := by positivity
  have hMt : M * t = 16 / 5 * G * H := by rw [ht]; field_simp
  have htlt : t < t0 := by rw [ht, div_lt_iff₀ hM0]; linarith
  have htH : t < H / 5 := by
    rw [ht, div_lt_iff₀ hM0]
    nlinarith
  -- the tolerance
  obtain ⟨k, hk⟩ := exists_pow_lt_of_lt_one (show 0 < min (min (φ0 * t) (min t (t * dl))) (min (-lam) H / (2 * (|L| + 1))) by
    have : 0 < min (-lam) H := lt_min (by linarith) hH
    positivity) (show (10 : ℝ)⁻¹ < 1 by norm_num)
  have hp10 : (10 : ℝ)⁻¹ ^ k = (10 : ℝ) ^ (-(k : Int)) := by rw [zpow_neg, zpow_natCast, inv_pow]
  rw [hp10] at hk
  have hfpos : (0 : ℝ) < (10 : ℝ) ^ (-(k : Int)) := by positivity
  generalize hfe : (10 : ℝ) ^ (-(k : Int)) = f at hk hfpos
  have hf1 : f ≤ φ0 * t := hk.le.trans ((min_le_left _ _).trans (min_le_left _ _))
  have hf2 : f ≤ t := hk.le.trans ((min_le_left _ _).trans ((min_le_right _ _).trans (min_le_left _ _)))
  have hf3 : f ≤ t * dl := hk.le.trans ((min_le_left _ _).trans ((min_le_right _ _).trans (min_le_right _ _)))
  have hfL : 2 * (L * f) ≤ min (-lam) H := by
    have h1 : f * (2 * (|L| + 1)) ≤ min (-lam) H := by
      rw [← le_div_iff₀ (by positivity)]
      exact hk.le.trans (min_le_right _ _)
    have h2 : L * f ≤ |L| * f := mul_le_mul_of_nonneg_right (le_abs_self L) hfpos.le
    linarith
  have hfl : 2 * (L * f) ≤ -lam := hfL.trans (min_le_left _ _)
  have hfH : 2 * (L * f) ≤ H := hfL.trans (min_le_right _ _)
  obtain ⟨N, hN⟩ := pow_unbounded_of_one_lt (C * t / f) (by norm_num : (1 : ℝ) < 2)
  rw [div_lt_iff₀ hfpos, mul_comm (2 ^ N)] at hN
  have hf10 : ∀ {b : ℝ}, f ≤ b → (10 : ℝ) ^ (-(k : Int)) ≤ b := fun h => hfe.le.trans h
  have hN10 : C * t < (10 : ℝ) ^ (-(k : Int)) * 2 ^ N := by rw [hfe]; exact hN
  obtain ⟨m1, m2, nt, res, p, g1, g2, g3, g4, g5, g6, g7, g8⟩ := key argsort has { rbSettings with
      jFixed := false, j0 := none, du := t, dlpf := t * dl, incs := .const M, xlimit := .const 1 (6 * G * H), xtol := k, ftol := k,
      nfev := N + 2, nsteps := 1, dxtol := 5 / 4 }
    rfl rfl rfl (by show (0 : Int) ≤ 1; decide) t htpos htlt
    ⟨rfl, rfl, (mul_one t).symm, rfl, by norm_num, (fun h => by cases h), hf10 (by rw [mul_one]; exact hf2), hf10 hf3⟩
    (hf10 hf1) M (1, 6 * G * H) rfl rfl le_rfl one_le_two (by nlinarith) ⟨N, .inl hN10, .inl hN10, le_rfl⟩ 1 le_rfl
  have g7 : ∀ (i : Nat) r, res.R[i + 1]? = some r → OnPath nt.labels r (tbMove (p (i + 1))) (vmLoad w H E A (p (i + 1))) (L * f) ∧
      (∃ v, r.Vred[0]? = some v ∧ |v + p (i + 1)| ≤ L * f) ∧ p i < p (i + 1) ∧ p (i + 1) ≤ p i + (1 + 1 / 4) * (1 * t) ∧
      (1 - 1 / 4) * t ≤ G * (p (i + 1) - p i) := by
    rw [← hfe]
    exact g7
  have hrec : ∀ m, m + 1 < res.R.length → ∃ r, res.R[m + 1]? = some r := fun m hm => ⟨_, List.getElem?_eq_getElem hm⟩
  have hGH : 0 < G * H := by positivity
  have hpos : ∀ m < res.R.length, 0 ≤ p m ∧ p m ≤ m * (5 / 4 * t) ∧ m * (3 / 4 * t) ≤ G * p m := by
    intro m
    induction m with
    | zero => intro _; rw [g6]; simp
    | succ m ih =>
      intro hm
      obtain ⟨r, hr⟩ := hrec m hm
      obtain ⟨-, -, k1, k2, k3⟩ := g7 m r hr
      obtain ⟨i1, i2, i3⟩ := ih (by omega)
      push_cast
      exact ⟨by linarith, by linarith, by linarith⟩
  have hlen : res.R.length = M + 1 := by
    rcases g8 with g8 | ⟨h2, r, v, p1, p2, p3⟩
    · exact g8
    exfalso
    obtain ⟨i, hi⟩ : ∃ i, res.R.length = i + 2 := ⟨res.R.length - 2, by omega⟩
    rw [List.getLast?_eq_getElem?, hi] at p1
    have p2 : r.Vred[0]? = some v := p2
    obtain ⟨-, ⟨v', v1, v2⟩, -⟩ := g7 i r p1
    rw [p2] at v1; cases v1
    obtain ⟨i1, i2, -⟩ := hpos (i + 1) (by omega)
    have hiM : ((i + 1 : Nat) : ℝ) ≤ M := by
      have : i + 1 ≤ M := by omega
      exact_mod_cast this
    have h3 : ((i + 1 : Nat) : ℝ) * (5 / 4 * t) ≤ M * (5 / 4 * t) := mul_le_mul_of_nonneg_right hiM (by positivity)
    have p3 : 6 * G * H < |v| := p3
    have h4 : |v| ≤ 5 * (G * H) := by
      have hHG : H ≤ G * H := by nlinarith
      rw [abs_le] at v2 ⊢
      constructor <;> linarith [v2.1, v2.2]
    linarith
  have hend : 3 / 2 * H < p M := by
    obtain ⟨-, -, h1⟩ := hpos M (by omega)
    have h2 : G * (3 / 2 * H) < G * p M := by linarith
    exact lt_of_mul_lt_mul_left h2 hG0.le
  obtain ⟨m, hm, h1, h2⟩ := exists_between (p := p) (K := M) (q := 3 / 2 * H) (δ := 5 / 4 * t) (by rw [g6]; positivity) hend
    (fun m hm => by
      obtain ⟨r, hr⟩ := hrec m (by omega)
      obtain ⟨-, -, -, k, -⟩ := g7 m r hr
      linarith)
  obtain ⟨r, hr⟩ := hrec m (by omega)
  obtain ⟨⟨⟨l, k1, k2⟩, -⟩, ⟨v, k3, k4⟩, -⟩ := g7 m r hr
  have hmax : vmLoad w H E A (p (m + 1)) ≤ lam := hqmax ⟨h1.le, by linarith⟩
  refine ⟨_, m1, m2, res, r, v, l, ?_, g1, g2, g4, List.mem_of_getElem? hr, k3, ?_, k1, ?_⟩
  · rfl
  · have := (abs_le.1 k4).2
    linarith
  · have := (abs_le.1 k2).2
    linarith

end TrussPy
