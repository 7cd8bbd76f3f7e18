import Verif.Props.Trail
import Verif.Props.Snap
import Verif.ExamplesValid
/-!
# Property C101 for a concrete structure: the two-bar truss entered by the user snaps through
-/

set_option linter.unusedSectionVars false

namespace TrussPy

/-- The two-bar truss as entered: apex 2 at height `H`, supports 1 and 3 at distance `w`; the apex moves vertically only and
carries the load -1. -/
def tbInput (w H : ℝ) : UserInput ℝ where
  nodes := [⟨2, [0, 0, H]⟩, ⟨1, [-w, 0, 0]⟩, ⟨3, [w, 0, 0]⟩]
  bounds := [⟨1, [0, 0, 0]⟩, ⟨3, [0, 0, 0]⟩, ⟨2, [0, 0, 1]⟩]
  forces := [⟨2, [0, 0, -1]⟩]

/-- Its elements, with modulus `E` and area `A`. -/
def tbElems (E A : ℝ) : List (Elem ℝ) := [⟨1, [1, 2], 1, 1, ⟨false, [E]⟩, ⟨false, [A]⟩⟩, ⟨2, [2, 3], 1, 1, ⟨false, [E]⟩, ⟨false, [A]⟩⟩]

/-- The model after entering the input, with the settings `s`. -/
def tbModel (w H E A : ℝ) (s : Settings ℝ) : Model ℝ where
  nodes := some ⟨[2, 1, 3], ⟨3, [[0, 0, H], [-w, 0, 0], [w, 0, 0]]⟩⟩
  elems := some ⟨[1, 2], ⟨2, [[1, 2], [2, 3]]⟩, [1, 1], [1, 1], ⟨false, 1, [[E], [E]]⟩, ⟨false, 1, [[A], [A]]⟩⟩
  bounds := some ⟨[1, 3, 2], .d2 ⟨3, [[0, 0, 0], [0, 0, 0], [0, 0, 1]]⟩⟩
  forces := some ⟨[2], ⟨3, [[0, 0, -1]]⟩⟩
  settings := s

theorem tbEntered (w H E A : ℝ) (s : Settings ℝ) : Entered (tbInput w H) (tbModel w H E A s) := by
  unfold Entered
  exact ⟨rfl, rfl, rfl⟩

theorem tbEnteredElems (w H E A : ℝ) (s : Settings ℝ) : EnteredElems (tbElems E A) (tbModel w H E A s) := rfl

theorem tbValid (w H E A : ℝ) : ValidInput (tbInput w H) (tbElems E A) 1 where
  posed :=
    { nodes := by simp [tbInput]
      elems := by simp [tbElems]
      coords := by simp [tbInput]
      joins := by
        intro e he
        simp only [tbElems, List.mem_cons, List.not_mem_nil, or_false] at he
        rcases he with rfl | rfl
        · exact ⟨⟨1, [-w, 0, 0]⟩, by simp [tbInput], ⟨2, [0, 0, H]⟩, by simp [tbInput], rfl, by simp⟩
        · exact ⟨⟨2, [0, 0, H]⟩, by simp [tbInput], ⟨3, [w, 0, 0]⟩, by simp [tbInput], rfl, by simp⟩
      law := by simp [tbElems] }
  props := by
    intro e he
    simp only [tbElems, List.mem_cons, List.not_mem_nil, or_false] at he
    rcases he with rfl | rfl <;> exact ⟨by simp, by simp, by simp⟩
  elems := by simp [tbElems]
  supports := by simp [tbInput]
  supportsOnce := by simp [tbInput]
  supportsAt := by simp [tbInput]
  loads := by simp [tbInput]
  loadsOnce := by simp [tbInput]
  loadsAt := by simp [tbInput]
  width := by simp [tbInput, loadWidth]
  free := by simp [tbInput, freeCount, supportOf]

theorem tbFreeAt (w H : ℝ) (l : Int) (d : Fin 3) : FreeAt (tbInput w H) l d ↔ (l, d) = (2, 2) := by
  unfold FreeAt
  constructor
  · rintro ⟨⟨n, hn, rfl⟩, h⟩
    simp only [tbInput, List.mem_cons, List.not_mem_nil, or_false] at hn
    rcases hn with rfl | rfl | rfl <;> fin_cases d <;> simp [tbInput, supportOf] at h ⊢
  · intro h
    cases h
    exact ⟨⟨⟨2, [0, 0, H]⟩, by simp [tbInput], rfl⟩, by simp [tbInput, supportOf]⟩

theorem tbFree (w H : ℝ) : FreeList (tbInput w H) [(2, 2)] where
  order := by simp
  mem := by
    rintro ⟨l, d⟩
    rw [tbFreeAt, List.mem_singleton]

/-- The apex moves down by `s`. -/
def tbMove (s : ℝ) (l : Int) : V3 ℝ := fun d => if l = 2 ∧ d = 2 then -s else 0

theorem tbSpan1 {w H : ℝ} {U : Int → V3 ℝ} {s : ℝ} (h1 : ∀ d, U 1 d = 0) (h2 : ∀ d, U 2 d = tbMove s 2 d) :
    span (tbInput w H) U 1 2 = ![w, 0, H - s] := by
  funext d
  unfold span
  rw [h1, h2]
  fin_cases d <;> simp [placeOf, tbInput, tbMove]
  ring

theorem tbSpan2 {w H : ℝ} {U : Int → V3 ℝ} {s : ℝ} (h3 : ∀ d, U 3 d = 0) (h2 : ∀ d, U 2 d = tbMove s 2 d) :
    span (tbInput w H) U 2 3 = ![w, 0, -(H - s)] := by
  funext d
  unfold span
  rw [h3, h2]
  fin_cases d <;> simp [placeOf, tbInput, tbMove]
  ring

theorem tbPull {w H E A : ℝ} (hw : 0 < w) {U : Int → V3 ℝ} {s : ℝ} (h1 : ∀ d, U 1 d = 0) (h3 : ∀ d, U 3 d = 0)
    (h2 : ∀ d, U 2 d = tbMove s 2 d) : pull (tbInput w H) (tbElems E A) U 2 2 = -vmLoad w H E A s := by
  have z : ∀ l d, (0 : Int → V3 ℝ) l d = tbMove 0 l d := by
    intro l d
    simp [tbMove]
  have hl : √(w ^ 2 + (H - s) ^ 2) ≠ 0 := (Real.sqrt_pos.2 (by positivity)).ne'
  have hL : √(w ^ 2 + H ^ 2) ≠ 0 := (Real.sqrt_pos.2 (by positivity)).ne'
  unfold pull tbElems
  simp only [List.map_cons, List.map_nil, List.sum_cons, List.sum_nil, add_zero, elementPull]
  rw [tbSpan1 h1 h2, tbSpan2 h3 h2, tbSpan1 (s := 0) (fun _ => rfl) (z 2), tbSpan2 (s := 0) (fun _ => rfl) (z 2), vmLen, vmLen, vmLen,
    vmLen, neg_sq, neg_sq, sub_zero]
  unfold vmLoad
  simp
  field_simp
  ring

/-- Its elements are elastic. -/
theorem tbElastic (E A : ℝ) {e : Elem ℝ} (he : e ∈ tbElems E A) : e.mtype ≠ 2 := by
  simp only [tbElems, List.mem_cons, List.not_mem_nil, or_false] at he
  rcases he with rfl | rfl <;> simp

theorem tbUsual (E A : ℝ) : UsualPlastic (tbElems E A) := fun _ he h => absurd h (tbElastic E A he)

theorem tbBelow (E A : ℝ) (u : UserInput ℝ) (U : Int → V3 ℝ) : ∀ e ∈ tbElems E A, BelowYield u U e :=
  fun _ he h => absurd h (tbElastic E A he)

theorem tbTrail {w H E A : ℝ} (hw : 0 < w) (S : ℝ) :
    Trail (tbInput w H) (tbElems E A) [(2, 2)] (-1) S tbMove (vmLoad w H E A) where
  start := by
    intro n _ d
    simp [tbMove]
  startLoad := by simp [vmLoad]
  cont := by
    intro n _ d
    unfold tbMove
    split
    · exact continuousOn_id.neg
    · exact continuousOn_const
  contLoad := by
    unfold vmLoad
    refine ContinuousOn.mul (by fun_prop) (ContinuousOn.sub (ContinuousOn.div (by fun_prop) (by fun_prop) ?_) (by fun_prop))
    intro s _
    exact (Real.sqrt_pos.2 (by positivity)).ne'
  supports := by
    intro s _ n hn d hd
    unfold tbMove
    rw [if_neg]
    rintro ⟨h1, rfl⟩
    rw [h1] at hd
    exact hd (by simp [tbInput, supportOf])
  control := by
    intro s _
    simp [component, tbMove]
  equilibrium := by
    intro s _ lab d h
    rw [tbFreeAt] at h
    cases h
    rw [tbPull (s := s) hw (by simp [tbMove]) (by simp [tbMove]) (fun _ => rfl)]
    simp [firstLoad, tbInput, loadOf]
  length := by
    intro s _ e he a b hc
    simp only [tbElems, List.mem_cons, List.not_mem_nil, or_false] at he
    rcases he with rfl | rfl
    · simp only [List.cons.injEq, and_true] at hc
      obtain ⟨rfl, rfl⟩ := hc
      rw [tbSpan1 (s := s) (by simp [tbMove]) (fun _ => rfl), vmLen]
      exact (Real.sqrt_pos.2 (by positivity)).ne'
    · simp only [List.cons.injEq, and_true] at hc
      obtain ⟨rfl, rfl⟩ := hc
      rw [tbSpan2 (s := s) (by simp [tbMove]) (fun _ => rfl), vmLen]
      exact (Real.sqrt_pos.2 (by positivity)).ne'
  below _ _ := tbBelow E A _ _
  regular := by
    intro s _ v μ hv hd h0
    have h0 : v 2 2 = 0 := by simpa [component] using h0
    have hz : ∀ n ∈ (tbInput w H).nodes, ∀ d, v n.label d = 0 := by
      intro n hn d
      by_cases h : (n.label, d) = (2, 2)
      · simp only [Prod.mk.injEq] at h
        rw [h.1, h.2]
        exact h0
      · refine hv n hn d fun h1 => h ?_
        exact (tbFreeAt w H _ d).1 ⟨⟨n, hn, rfl⟩, h1⟩
    refine ⟨hz, ?_⟩
    have z1 : ∀ d, v 1 d = 0 := hz ⟨1, [-w, 0, 0]⟩ (by simp [tbInput])
    have z2 : ∀ d, v 2 d = 0 := hz ⟨2, [0, 0, H]⟩ (by simp [tbInput])
    have z3 : ∀ d, v 3 d = 0 := hz ⟨3, [w, 0, 0]⟩ (by simp [tbInput])
    have hder := hd 2 2 ((tbFreeAt w H 2 2).2 rfl)
    have hfun : (fun t : ℝ => pull (tbInput w H) (tbElems E A) (fun n e => tbMove s n e + t * v n e) 2 2 -
        (vmLoad w H E A s + t * μ) * firstLoad (tbInput w H) 2 2) = fun t => t * μ := by
      funext t
      rw [tbPull (s := s) hw (by simp [tbMove, z1]) (by simp [tbMove, z3]) (by simp [z2])]
      simp [firstLoad, tbInput, loadOf]
    rw [hfun] at hder
    have h2 : HasDerivAt (fun t : ℝ => t * μ) (1 * μ) 0 := (hasDerivAt_id 0).mul_const μ
    have := hder.unique h2
    linarith

/-- **C101, snap-through.** The user enters a two-bar truss of any width, height, modulus and area and pushes the apex down over
any distance `S`: with small steps `build` and `run` return and the result number `i` shows the apex at `-i h` and a load factor
on the closed-form curve `vmLoad`, through the load maximum, the flat position and beyond, unless the limit stops the run. -/
theorem C101_two_bar_snap_through {w H E A : ℝ} (hw : 0 < w) {S : ℝ} (hS : 0 ≤ S) {env : Env ℝ} (hsp : SolvesRegular env.spsolve 2)
    (hA : ArgMax env) (nst : Nat) :
    ∃ h0 > 0, ∃ f0 > 0, ∃ L C : ℝ, ∀ (argsort : List Int → List Nat), IsArgsort argsort → ∀ s : Settings ℝ,
      s.ndim = 3 → s.nstatev = nst → s.nsteps = 1 → s.log ≤ 1 → ∀ h, 0 < h → h < h0 → FixedControl s 1 (-1) h →
      (10 : ℝ) ^ (-s.ftol) ≤ f0 → ∀ K xl, s.incs.ofStep 0 = some K → s.xlimit.ofStep 0 = some xl → 1 ≤ xl.1 → xl.1 ≤ 2 →
      K * h ≤ S → EnoughIterations s C h → ∀ fuel, 1 ≤ fuel →
      ∃ m1 m2 nt res, (tbModel w H E A s).build argsort = .ok m1 ∧ m1.run env fuel = .ok m2 ∧ m1.nodes = some nt ∧
        m2.results = some res ∧ res.R.length ≤ K + 1 ∧
        (∀ (i : Nat) r, res.R[i + 1]? = some r →
          OnPath nt.labels r (tbMove ((i + 1) * h)) (vmLoad w H E A ((i + 1) * h)) (L * (10 : ℝ) ^ (-s.ftol)) ∧
          r.Vred[0]? = some (-((i + 1) * h))) ∧
        (res.R.length = K + 1 ∨ 1 < res.R.length ∧ ∃ r v, res.R.getLast? = some r ∧ r.Vred[(xl.1 - 1).toNat]? = some v ∧ xl.2 < |v|) := by
  obtain ⟨h0, hh0, f0, hf0, L, C, key⟩ := C101_single_step_run (tbValid w H E A) (le_refl _) (tbUsual E A) (tbFree w H) (j := -1)
    (by decide) (by decide) hS (tbTrail (E := E) (A := A) hw S) hsp hA nst
  refine ⟨h0, hh0, f0, hf0, L, C, ?_⟩
  intro as has s hd hn hs hl h hh hlt hfix hf K xl hK hxl hx1 hx2 hKS hN fuel hfuel
  obtain ⟨m1, m2, nt, res, q, e1, e2, e3, e4, e5, e6⟩ := key as has (tbModel w H E A s) (tbEntered w H E A s) (tbEnteredElems w H E A s)
    hd hn hs hl h hh hlt hfix hf K xl hK hxl hx1 (by simpa using hx2) hKS hN fuel hfuel
  refine ⟨m1, m2, nt, res, e1, e2, e3, e4, by have := e5.count; omega, ?_, ?_⟩
  · intro i r hr
    have hi := (List.getElem?_eq_some_iff.1 hr).1
    obtain ⟨r', p1, p2, p3⟩ := e5.points i (by omega)
    rw [hr] at p1; cases p1
    refine ⟨p2, ?_⟩
    have p3 : r.Vred[0]? = some ((i + 1) * h * (((-1 : Int).sign : Int) : ℝ)) := p3
    rw [p3, show ((-1 : Int).sign : Int) = -1 from rfl]
    push_cast
    congr 1
    ring
  · rcases e5.stop with hq | ⟨hq, r, v, p1, p2, p3⟩
    · exact Or.inl (by rw [e6, hq])
    · exact Or.inr ⟨by omega, r, v, by rw [List.getLast?_eq_getElem?, e6, Nat.add_sub_cancel]; exact p1, p2, p3⟩

/-! ## The hypotheses are met

There are settings with which `build` and `run` return, the last result has the apex three quarters of the way to its turned-over
position, and its load factor is negative. -/

example {w H E A : ℝ} (hw : 0 < w) (hH : 0 < H) (hE : 0 < E) (hA : 0 < A) (argsort : List Int → List Nat) (has : IsArgsort argsort) :
    ∃ s m1 m2 res r l, (tbModel w H E A s).build argsort = .ok m1 ∧ m1.run exactEnv 1 = .ok m2 ∧ m2.results = some res ∧
      res.R.getLast? = some r ∧ r.Vred[0]? = some (-(3 / 2 * H)) ∧ r.lpf = some l ∧ l < 0 := by
  obtain ⟨h0, hh0, f0, hf0, L, C, G⟩ := C101_two_bar_snap_through (H := H) (E := E) (A := A) hw (S := 3 / 2 * H) (by positivity)
    (exactEnv_solves 2) exactEnv_argmax rbSettings.nstatev
  have hneg := (C100_load_reverses hw hH hE hA).2.2.2.2.1 (3 / 2 * H) (by linarith) (by linarith)
  obtain ⟨M, hM⟩ := exists_nat_gt (3 / 2 * H / h0)
  rw [div_lt_iff₀ hh0] at hM
  have hM1 : (0 : ℝ) < M + 1 := by positivity
  have hhM : ((M : ℝ) + 1) * (3 / 2 * H / (M + 1)) = 3 / 2 * H := by field_simp
  have hhpos : 0 < 3 / 2 * H / ((M : ℝ) + 1) := by positivity
  have hhlt : 3 / 2 * H / ((M : ℝ) + 1) < h0 := by
    rw [div_lt_iff₀ hM1]
    nlinarith
  generalize 3 / 2 * H / ((M : ℝ) + 1) = h at hhM hhpos hhlt
  obtain ⟨k, hk⟩ := exists_pow_lt_of_lt_one (lt_min hf0 (show 0 < -vmLoad w H E A (3 / 2 * H) / (2 * (|L| + 1)) from
    div_pos (by linarith) (by positivity))) (show (10 : ℝ)⁻¹ < 1 by norm_num)
  have hp : (10 : ℝ)⁻¹ ^ k = (10 : ℝ) ^ (-(k : Int)) := by rw [zpow_neg, zpow_natCast, inv_pow]
  rw [hp] at hk
  have hfpos : (0 : ℝ) < (10 : ℝ) ^ (-(k : Int)) := by positivity
  have hfL : L * (10 : ℝ) ^ (-(k : Int)) < -vmLoad w H E A (3 / 2 * H) := by
    have h1 : (10 : ℝ) ^ (-(k : Int)) * (2 * (|L| + 1)) < -vmLoad w H E A (3 / 2 * H) := by
      rw [← lt_div_iff₀ (by positivity)]
      exact lt_of_lt_of_le hk (min_le_right _ _)
    have h2 : L * (10 : ℝ) ^ (-(k : Int)) ≤ |L| * (10 : ℝ) ^ (-(k : Int)) := mul_le_mul_of_nonneg_right (le_abs_self L) hfpos.le
    have h3 : 0 ≤ |L| * (10 : ℝ) ^ (-(k : Int)) := by positivity
    nlinarith
  obtain ⟨N, hN⟩ := pow_unbounded_of_one_lt (C * (h + (10 : ℝ) ^ (-(k : Int))) / (10 : ℝ) ^ (-(k : Int))) (by norm_num : (1 : ℝ) < 2)
  rw [div_lt_iff₀ hfpos, mul_comm (2 ^ N)] at hN
  obtain ⟨m1, m2, nt, res, g1, g2, g3, g4, g5, g6, g7⟩ := G argsort has { rbSettings with
      j0 := some (-1), du := h, incs := .const (M + 1), xlimit := .const 1 (2 * H), xtol := k, ftol := k, nfev := N + 1, nsteps := 1 }
    rfl rfl rfl (by show (0 : Int) ≤ 1; decide) h hhpos hhlt ⟨rfl, rfl, rfl, by show (1 : ℝ) ≤ 101 / 100; norm_num, if_pos (by decide)⟩
    (hk.le.trans (min_le_left _ _)) (M + 1) (1, 2 * H) rfl rfl (le_refl _) one_le_two (by push_cast; rw [hhM])
    ⟨N, .inl hN, .inl hN, le_rfl⟩ 1 le_rfl
  have hlen : res.R.length = M + 2 := by
    rcases g7 with g7 | ⟨h2, r, v, p1, p2, p3⟩
    · exact g7
    exfalso
    obtain ⟨i, hi⟩ : ∃ i, res.R.length = i + 2 := ⟨res.R.length - 2, by omega⟩
    rw [List.getLast?_eq_getElem?, hi] at p1
    have p2 : r.Vred[0]? = some v := p2
    rw [(g6 i r p1).2] at p2
    cases p2
    have hiM : (i : ℝ) ≤ M := by
      have : i ≤ M := by omega
      exact_mod_cast this
    have h3 : ((i : ℝ) + 1) * h ≤ (M + 1) * h := mul_le_mul_of_nonneg_right (by linarith) hhpos.le
    have p3 : 2 * H < |-(((i : ℝ) + 1) * h)| := p3
    rw [abs_neg, abs_of_nonneg (by positivity)] at p3
    linarith
  have hr := List.getElem?_eq_getElem (l := res.R) (i := M + 1) (by omega)
  generalize res.R[M + 1] = r at hr
  obtain ⟨⟨⟨l, k1, k2⟩, -⟩, k3⟩ := g6 M r hr
  rw [hhM] at k2 k3
  refine ⟨_, m1, m2, res, r, l, g1, g2, g4, by rw [List.getLast?_eq_getElem?, hlen]; exact hr, k3, k1, ?_⟩
  have k4 : l - vmLoad w H E A (3 / 2 * H) ≤ L * (10 : ℝ) ^ (-(k : Int)) := (abs_le.1 k2).2
  linarith

end TrussPy
