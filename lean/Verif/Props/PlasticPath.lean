import Verif.Props.TwoBarFree
import Verif.Props.Stages
/-!
# Property C107: trusses with plastic elements that do not yield follow the path of the elastic truss
-/

set_option linter.unusedSectionVars false

namespace TrussPy

/-- The elements `es'` join the same nodes as `es` and have the same moduli and areas, but are all elastic. -/
def ElasticTwin (es es' : List (Elem ℝ)) : Prop :=
  List.Forall₂ (fun e e' => e'.conn = e.conn ∧ e'.mtype = 1 ∧ e'.mprop.vals.headD 0 = e.mprop.vals.headD 0 ∧
    e'.gprop.vals.headD 0 = e.gprop.vals.headD 0) es es'

section
variable {u : UserInput ℝ} {es es' : List (Elem ℝ)}

theorem ElasticTwin.pull (h : ElasticTwin es es') (U : Int → V3 ℝ) (lab : Int) (d : Fin 3) :
    pull u es' U lab d = pull u es U lab d := by
  unfold TrussPy.pull
  induction h with
  | nil => rfl
  | @cons e e' es es' h _ ih =>
    have h1 : elementPull u U e' lab d = elementPull u U e lab d := by
      unfold elementPull
      rw [h.1, h.2.2.1, h.2.2.2]
    rw [List.map_cons, List.map_cons, List.sum_cons, List.sum_cons, ih, h1]

theorem ElasticTwin.mem (h : ElasticTwin es es') {e : Elem ℝ} (he : e ∈ es) : ∃ e' ∈ es', e'.conn = e.conn := by
  induction h with
  | nil => cases he
  | @cons e1 e1' es es' h _ ih =>
    rcases List.mem_cons.1 he with rfl | he
    · exact ⟨e1', by simp, h.1⟩
    · obtain ⟨e', h1, h2⟩ := ih he
      exact ⟨e', by simp [h1], h2⟩

theorem Trail.plastic (h : ElasticTwin es es') {P : List (Int × Fin 3)} {j : Int} {S : ℝ} {U : ℝ → Int → V3 ℝ} {l : ℝ → ℝ}
    (ht : Trail u es' P j S U l) (hby : ∀ s ∈ Set.Icc 0 S, ∀ e ∈ es, BelowYield u (U s) e) : Trail u es P j S U l where
  start := ht.start
  startLoad := ht.startLoad
  cont := ht.cont
  contLoad := ht.contLoad
  supports := ht.supports
  control := ht.control
  equilibrium s hs lab d hf := by rw [← h.pull]; exact ht.equilibrium s hs lab d hf
  length s hs e he A E hc := by
    obtain ⟨e', h1, h2⟩ := h.mem he
    exact ht.length s hs e' h1 A E (h2.trans hc)
  below := hby
  regular s hs v μ hv hd h0 := ht.regular s hs v μ hv (by simpa only [h.pull] using hd) h0

theorem FreeTrail.plastic (h : ElasticTwin es es') {du dl S : ℝ} {U U' : ℝ → Int → V3 ℝ} {l l' : ℝ → ℝ}
    (ht : FreeTrail u es' du dl S U U' l l') (hby : ∀ s ∈ Set.Icc 0 S, ∀ e ∈ es, BelowYield u (U s) e) :
    FreeTrail u es du dl S U U' l l' where
  start := ht.start
  startLoad := ht.startLoad
  grows := ht.grows
  deriv := ht.deriv
  derivLoad := ht.derivLoad
  cont := ht.cont
  contLoad := ht.contLoad
  speed := ht.speed
  supports := ht.supports
  equilibrium s hs lab d hf := by rw [← h.pull]; exact ht.equilibrium s hs lab d hf
  length s hs e he A E hc := by
    obtain ⟨e', h1, h2⟩ := h.mem he
    exact ht.length s hs e' h1 A E (h2.trans hc)
  below := hby
  regular s hs v μ hv hd := ht.regular s hs v μ hv (by simpa only [h.pull] using hd)

theorem Stages.plastic (h : ElasticTwin es es') {P : List (Int × Fin 3)} {j : Int} {ns : Nat} {T : Nat → ℝ}
    {U : Nat → ℝ → Int → V3 ℝ} {l : Nat → ℝ → ℝ} (ht : Stages u es' P j ns T U l)
    (hby : ∀ k < ns, ∀ s ∈ Set.Icc 0 (T k), ∀ e ∈ es, BelowYield u (U k s) e) : Stages u es P j ns T U l where
  width := ht.width
  trail k hk :=
    { startLoad := (ht.trail k hk).startLoad
      cont := (ht.trail k hk).cont
      contLoad := (ht.trail k hk).contLoad
      supports := (ht.trail k hk).supports
      control := (ht.trail k hk).control
      equilibrium := fun s hs lab d hf => by rw [← h.pull]; exact (ht.trail k hk).equilibrium s hs lab d hf
      length := fun s hs e he A E hc => by
        obtain ⟨e', h1, h2⟩ := h.mem he
        exact (ht.trail k hk).length s hs e' h1 A E (h2.trans hc)
      below := hby k hk
      regular := fun s hs v μ hv hd h0 => (ht.trail k hk).regular s hs v μ hv (by simpa only [h.pull] using hd) h0 }
  start := ht.start
  join := ht.join

end

/-- **C107.** If the stresses on an equilibrium path of the elastic truss stay below the yield stresses, a run of the truss with
the plastic elements returns and records the points of the path of the elastic truss. -/
theorem C107_elastic_path {u : UserInput ℝ} {es es' : List (Elem ℝ)} {nsteps : Nat} (hv : ValidInput u es nsteps) (hns : 1 ≤ nsteps)
    (hus : UsualPlastic es) (htw : ElasticTwin es es') {P : List (Int × Fin 3)} (hP : FreeList u P) {j : Int} (hj1 : 1 ≤ j.natAbs)
    (hj2 : j.natAbs ≤ P.length + 1) {S : ℝ} (hS : 0 ≤ S) {U : ℝ → Int → V3 ℝ} {l : ℝ → ℝ} (ht : Trail u es' P j S U l)
    (hby : ∀ s ∈ Set.Icc 0 S, ∀ e ∈ es, BelowYield u (U s) e)
    {env : Env ℝ} (hsp : SolvesRegular env.spsolve (P.length + 1)) (hA : ArgMax env) (nst : Nat) :
    ∃ h0 > 0, ∃ f0 > 0, ∃ L C : ℝ, ∀ (argsort : List Int → List Nat), IsArgsort argsort → ∀ m : Model ℝ,
      Entered u m → EnteredElems es m → m.settings.ndim = 3 → m.settings.nstatev = nst → m.settings.nsteps = 1 →
      m.settings.log ≤ 1 →
      ∀ h, 0 < h → h < h0 → FixedControl m.settings P.length j h → (10 : ℝ) ^ (-m.settings.ftol) ≤ f0 →
      ∀ K xl, m.settings.incs.ofStep 0 = some K → m.settings.xlimit.ofStep 0 = some xl → 1 ≤ xl.1 → xl.1 ≤ P.length + 1 →
      K * h ≤ S → EnoughIterations m.settings C h → ∀ fuel, 1 ≤ fuel →
      ∃ m1 m2 nt res q, m.build argsort = .ok m1 ∧ m1.run env fuel = .ok m2 ∧ m1.nodes = some nt ∧ m2.results = some res ∧
        FollowsTrail nt.labels res.R j h (L * (10 : ℝ) ^ (-m.settings.ftol)) U l K xl q ∧ res.R.length = q + 1 :=
  C101_single_step_run hv hns hus hP hj1 hj2 hS (ht.plastic htw hby) hsp hA nst

/-- **C107, default mode.** -/
theorem C107_elastic_free_path {u : UserInput ℝ} {es es' : List (Elem ℝ)} {nsteps : Nat} (hv : ValidInput u es nsteps)
    (hns : 1 ≤ nsteps) (hus : UsualPlastic es) (htw : ElasticTwin es es') {P : List (Int × Fin 3)} (hP : FreeList u P) {du dl S : ℝ}
    (hdu : 0 < du) (hdl : 0 < dl) (hS : 0 < S) {U U' : ℝ → Int → V3 ℝ} {l l' : ℝ → ℝ} (ht : FreeTrail u es' du dl S U U' l l')
    (hby : ∀ s ∈ Set.Icc 0 S, ∀ e ∈ es, BelowYield u (U s) e)
    {env : Env ℝ} (hsp : SolvesRegular env.spsolve (P.length + 1)) (hA : ArgMax env) {η W : ℝ} (hη : 0 < η) (hW : 1 ≤ W) (nst : Nat) :
    ∃ t0 > 0, ∃ φ0 > 0, ∃ L C : ℝ, ∀ (argsort : List Int → List Nat), IsArgsort argsort → ∀ m : Model ℝ,
      Entered u m → EnteredElems es m → m.settings.ndim = 3 → m.settings.nstatev = nst → m.settings.nsteps = 1 →
      m.settings.log ≤ 1 →
      ∀ t, 0 < t → t < t0 → FreeControl m.settings du dl η W t → (10 : ℝ) ^ (-m.settings.ftol) ≤ φ0 * t →
      ∀ K xl, m.settings.incs.ofStep 0 = some K → m.settings.xlimit.ofStep 0 = some xl → 1 ≤ xl.1 → xl.1 ≤ P.length + 1 →
      K * ((1 + η) * (W * t)) ≤ S → IterationsFor m.settings C t → ∀ fuel, 1 ≤ fuel →
      ∃ m1 m2 nt res q p, m.build argsort = .ok m1 ∧ m1.run env fuel = .ok m2 ∧ m1.nodes = some nt ∧ m2.results = some res ∧
        FollowsFree u P nt.labels res.R du dl S U U' l l' ((1 - η) * t) ((1 + η) * (W * t)) (L * (10 : ℝ) ^ (-m.settings.ftol)) K xl q p ∧
        res.R.length = q + 1 :=
  C103_single_step_run hv hns hus hP hdu hdl hS (ht.plastic htw hby) hsp hA hη hW nst

/-- **C107, several steps.** -/
theorem C107_elastic_stages {u : UserInput ℝ} {es es' : List (Elem ℝ)} {ns : Nat} (hv : ValidInput u es ns) (hns : 1 ≤ ns)
    (hus : UsualPlastic es) (htw : ElasticTwin es es') {P : List (Int × Fin 3)} (hP : FreeList u P) {j : Int} (hj1 : 1 ≤ j.natAbs)
    (hj2 : j.natAbs ≤ P.length + 1) {T : Nat → ℝ} {U : Nat → ℝ → Int → V3 ℝ} {l : Nat → ℝ → ℝ} (ht : Stages u es' P j ns T U l)
    (hby : ∀ k < ns, ∀ s ∈ Set.Icc 0 (T k), ∀ e ∈ es, BelowYield u (U k s) e)
    {env : Env ℝ} (hsp : SolvesRegular env.spsolve (P.length + 1)) (hA : ArgMax env) (nst : Nat) :
    ∃ h0 > 0, ∃ f0 > 0, ∃ L C : ℝ, ∀ (argsort : List Int → List Nat), IsArgsort argsort → ∀ m : Model ℝ,
      Entered u m → EnteredElems es m → m.settings.ndim = 3 → m.settings.nstatev = nst → m.settings.nsteps = ns →
      m.settings.log ≤ 1 →
      ∀ h, 0 < h → h < h0 → FixedControl m.settings P.length j h → (10 : ℝ) ^ (-m.settings.ftol) ≤ f0 →
      ∀ (K : Nat → Nat) (xl : Nat → Int × ℝ),
      (∀ k < ns, m.settings.incs.ofStep k = some (K k) ∧ m.settings.xlimit.ofStep k = some (xl k) ∧ K k * h = T k ∧
        1 ≤ (xl k).1 ∧ (xl k).1 ≤ P.length + 1 ∧ ∀ t ∈ Set.Icc 0 (T k),
          |component P (U k t) (l k t) ((xl k).1 - 1).toNat| + L * (10 : ℝ) ^ (-m.settings.ftol) ≤ (xl k).2) →
      EnoughIterations m.settings C h → ∀ fuel, 1 ≤ fuel →
      ∃ m1 m2 nt res, m.build argsort = .ok m1 ∧ m1.run env fuel = .ok m2 ∧ m1.nodes = some nt ∧ m2.results = some res ∧
        FollowsStages P nt.labels res.R j h (L * (10 : ℝ) ^ (-m.settings.ftol)) U l ns K :=
  C106_run_follows_stages hv hns hus hP hj1 hj2 (ht.plastic htw hby) hsp hA nst

/-! ## The two-bar truss of a plastic material -/

/-- Elements with modulus `E`, plastic modulus `K`, yield stress `Sy` and area `A`. -/
def pbElems (E K Sy A : ℝ) : List (Elem ℝ) :=
  [⟨1, [1, 2], 1, 2, ⟨false, [E, K, Sy]⟩, ⟨false, [A]⟩⟩, ⟨2, [2, 3], 1, 2, ⟨false, [E, K, Sy]⟩, ⟨false, [A]⟩⟩]

def pbModel (w H E K Sy A : ℝ) (s : Settings ℝ) : Model ℝ :=
  { tbModel w H E A s with
    elems := some ⟨[1, 2], ⟨2, [[1, 2], [2, 3]]⟩, [1, 1], [2, 2], ⟨false, 3, [[E, K, Sy], [E, K, Sy]]⟩, ⟨false, 1, [[A], [A]]⟩⟩ }

theorem pbEnteredElems (w H E K Sy A : ℝ) (s : Settings ℝ) : EnteredElems (pbElems E K Sy A) (pbModel w H E K Sy A s) := rfl

theorem pbTwin (E K Sy A : ℝ) : ElasticTwin (pbElems E K Sy A) (tbElems E A) :=
  .cons ⟨rfl, rfl, rfl, rfl⟩ (.cons ⟨rfl, rfl, rfl, rfl⟩ .nil)

theorem pbUsual {E K Sy : ℝ} (A : ℝ) (hE : 0 < E) (hK : 0 ≤ K) (hSy : 0 < Sy) : UsualPlastic (pbElems E K Sy A) := by
  intro e he _
  simp only [pbElems, List.mem_cons, List.not_mem_nil, or_false] at he
  rcases he with rfl | rfl <;> exact ⟨⟨E, K, Sy⟩, [], ⟨hE, hK, hSy⟩, rfl⟩

theorem pbValid (w H E K Sy A : ℝ) : ValidInput (tbInput w H) (pbElems E K Sy A) 1 :=
  { tbValid w H E A with
    posed :=
      { (tbValid w H E A).posed with
        elems := by simp [pbElems]
        joins := by
          intro e he
          obtain ⟨e', h1, h2⟩ := (pbTwin E K Sy A).mem he
          rw [← h2]
          exact (tbValid w H E A).posed.joins e' h1
        law := by simp [pbElems] }
    props := by
      intro e he
      simp only [pbElems, List.mem_cons, List.not_mem_nil, or_false] at he
      rcases he with rfl | rfl <;> exact ⟨by simp, by simp, by simp⟩
    elems := by simp [pbElems] }

/-- Between the two positions the bars are shorter than at rest, shortest in the flat position. -/
theorem pbBelow {w H E K Sy A : ℝ} (hw : 0 < w) (hE : 0 < E) (hy : E * (1 - w / √(w ^ 2 + H ^ 2)) < Sy) {s : ℝ}
    (hs0 : 0 ≤ s) (hs : s ≤ 2 * H) : ∀ e ∈ pbElems E K Sy A, BelowYield (tbInput w H) (tbMove s) e := by
  have hL : 0 < √(w ^ 2 + H ^ 2) := Real.sqrt_pos.2 (by positivity)
  have h1 : w ≤ √(w ^ 2 + (H - s) ^ 2) := Real.le_sqrt_of_sq_le (by nlinarith [sq_nonneg (H - s)])
  have h2 : √(w ^ 2 + (H - s) ^ 2) ≤ √(w ^ 2 + H ^ 2) := Real.sqrt_le_sqrt (by nlinarith)
  have key : |E * (√(w ^ 2 + (H - s) ^ 2) / √(w ^ 2 + H ^ 2) - 1)| < Sy := by
    have h3 : w / √(w ^ 2 + H ^ 2) ≤ √(w ^ 2 + (H - s) ^ 2) / √(w ^ 2 + H ^ 2) := div_le_div_of_nonneg_right h1 hL.le
    have h4 : √(w ^ 2 + (H - s) ^ 2) / √(w ^ 2 + H ^ 2) ≤ 1 := (div_le_one hL).2 h2
    rw [abs_mul, abs_of_pos hE, abs_of_nonpos (by linarith)]
    refine lt_of_le_of_lt (mul_le_mul_of_nonneg_left ?_ hE.le) hy
    linarith
  have z : ∀ l d, (0 : Int → V3 ℝ) l d = tbMove 0 l d := by
    intro l d
    simp [tbMove]
  intro e he _ P Q hc
  simp only [pbElems, List.mem_cons, List.not_mem_nil, or_false] at he
  rcases he with rfl | rfl
  · simp only [List.cons.injEq, and_true] at hc
    obtain ⟨rfl, rfl⟩ := hc
    rw [tbSpan1 (s := s) (by simp [tbMove]) (fun _ => rfl), tbSpan1 (s := 0) (fun _ => rfl) (z 2), vmLen, vmLen, sub_zero]
    exact key
  · simp only [List.cons.injEq, and_true] at hc
    obtain ⟨rfl, rfl⟩ := hc
    rw [tbSpan2 (s := s) (by simp [tbMove]) (fun _ => rfl), tbSpan2 (s := 0) (fun _ => rfl) (z 2), vmLen, vmLen, neg_sq, neg_sq, sub_zero]
    exact key

/-- **C107, snap-through.** The two-bar truss of a plastic material whose yield stress is above the stress in the flat position is
pushed through into its turned-over position; the results are those of the elastic truss. -/
theorem C107_plastic_two_bar {w H E K Sy A : ℝ} (hw : 0 < w) (hH : 0 < H) (hE : 0 < E) (hK : 0 ≤ K) (hSy : 0 < Sy)
    (hy : E * (1 - w / √(w ^ 2 + H ^ 2)) < Sy) {env : Env ℝ} (hsp : SolvesRegular env.spsolve 2) (hA : ArgMax env) (nst : Nat) :
    ∃ h0 > 0, ∃ f0 > 0, ∃ L C : ℝ, ∀ (argsort : List Int → List Nat), IsArgsort argsort → ∀ s : Settings ℝ,
      s.ndim = 3 → s.nstatev = nst → s.nsteps = 1 → s.log ≤ 1 → ∀ h, 0 < h → h < h0 → FixedControl s 1 (-1) h →
      (10 : ℝ) ^ (-s.ftol) ≤ f0 → ∀ n xl, s.incs.ofStep 0 = some n → s.xlimit.ofStep 0 = some xl → 1 ≤ xl.1 → xl.1 ≤ 2 →
      n * h ≤ 2 * H → EnoughIterations s C h → ∀ fuel, 1 ≤ fuel →
      ∃ m1 m2 nt res q, (pbModel w H E K Sy A s).build argsort = .ok m1 ∧ m1.run env fuel = .ok m2 ∧ m1.nodes = some nt ∧
        m2.results = some res ∧ res.R.length = q + 1 ∧
        FollowsTrail nt.labels res.R (-1) h (L * (10 : ℝ) ^ (-s.ftol)) tbMove (vmLoad w H E A) n xl q := by
  obtain ⟨h0, hh0, f0, hf0, L, C, key⟩ := C107_elastic_path (pbValid w H E K Sy A) (le_refl _) (pbUsual A hE hK hSy) (pbTwin E K Sy A)
    (tbFree w H) (j := -1) (by decide) (by decide) (S := 2 * H) (by positivity) (tbTrail (E := E) (A := A) hw (2 * H))
    (fun s hs => pbBelow hw hE hy hs.1 hs.2) hsp hA nst
  refine ⟨h0, hh0, f0, hf0, L, C, ?_⟩
  intro as has s hd hn hs hl h hh hlt hfix hf n xl hK hxl hx1 hx2 hKS hN fuel hfuel
  obtain ⟨m1, m2, nt, res, q, e1, e2, e3, e4, e5, e6⟩ := key as has (pbModel w H E K Sy A s) (tbEntered w H E A s)
    (pbEnteredElems w H E K Sy A s) hd hn hs hl h hh hlt hfix hf n xl hK hxl hx1 (by simpa using hx2) hKS hN fuel hfuel
  exact ⟨m1, m2, nt, res, q, e1, e2, e3, e4, e6, e5⟩

/-- Widths and stresses as required: `w = 3`, `H = 4`, modulus 1 and yield stress 1/2. -/
example : (1 : ℝ) * (1 - 3 / √(3 ^ 2 + 4 ^ 2)) < 1 / 2 := by
  rw [show (3 : ℝ) ^ 2 + 4 ^ 2 = 5 ^ 2 by norm_num, Real.sqrt_sq (by norm_num)]
  norm_num

/-- The hypotheses of `C107_elastic_free_path` are met by the same truss, through the flat position and both limit points. -/
example {w H E K Sy A : ℝ} (hw : 0 < w) (hH : 0 < H) (hE : 0 < E) (hK : 0 ≤ K) (hSy : 0 < Sy) (hA : 0 < A)
    (hy : E * (1 - w / √(w ^ 2 + H ^ 2)) < Sy) (dl : ℝ) :
    ValidInput (tbInput w H) (pbElems E K Sy A) 1 ∧ UsualPlastic (pbElems E K Sy A) ∧
      ElasticTwin (pbElems E K Sy A) (tbElems E A) ∧
      FreeTrail (tbInput w H) (tbElems E A) 1 dl (2 * H) tbMove (fun _ => tbMove 1) (vmLoad w H E A) (vmSlope w H E A) ∧
      ∀ s ∈ Set.Icc 0 (2 * H), ∀ e ∈ pbElems E K Sy A, BelowYield (tbInput w H) (tbMove s) e :=
  ⟨pbValid w H E K Sy A, pbUsual A hE hK hSy, pbTwin E K Sy A, tbFreeTrail hw hH hE hA dl _, fun _ hs => pbBelow hw hE hy hs.1 hs.2⟩

/-- The hypotheses of `C107_elastic_stages` are met by the truss with two load steps, each moving the apex by `T`. -/
example {w H E K Sy A T : ℝ} (hw : 0 < w) (hE : 0 < E) (hK : 0 ≤ K) (hSy : 0 < Sy) (hT : 0 < T) (hTH : T ≤ H)
    (hy : E * (1 - w / √(w ^ 2 + H ^ 2)) < Sy) :
    ValidInput (tb2Input w H) (pbElems E K Sy A) 2 ∧ UsualPlastic (pbElems E K Sy A) ∧
      ElasticTwin (pbElems E K Sy A) (tbElems E A) ∧
      Stages (tb2Input w H) (tbElems E A) [(2, 2)] (-1) 2 (fun _ => T) (tb2Move T) (tb2Load w H E A T) ∧
      ∀ k < 2, ∀ s ∈ Set.Icc 0 T, ∀ e ∈ pbElems E K Sy A, BelowYield (tb2Input w H) (tb2Move T k s) e := by
  refine ⟨?_, pbUsual A hE hK hSy, pbTwin E K Sy A, tb2Stages hw hT, ?_⟩
  · have h := pbValid w H E K Sy A
    have h2 := tb2Valid w H E A
    exact { h2 with posed := { h.posed with }, props := h.props, elems := h.elems }
  · intro k hk s hs
    refine pbBelow (H := H) hw hE hy ?_ ?_
    · have := hs.1; positivity
    · have h1 : (k : ℝ) ≤ 1 := by exact_mod_cast Nat.lt_succ_iff.1 hk
      nlinarith [hs.2]

end TrussPy
