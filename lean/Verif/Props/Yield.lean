import Verif.Props.Equilibrium
import Verif.Props.Material
/-!
# C92: plastic bars of a run

Combines the material theorems (C14-C19) with the bookkeeping of a run (C40).  Exact real arithmetic.
-/

set_option linter.unusedSectionVars false

namespace TrussPy

open Spec

/-- A plastic bar makes `build` provide two state variables per element. -/
theorem built_nstatev {F : Type} [Zero F] [One F] [Add F] [Sub F] [Mul F] [Div F] [Neg F] [Flt F]
    {argsort : List Int → List Nat} {m m1 : Model F} (hb : m.build argsort = .ok m1) {c : Ctx F} (hc : m1.ctx = some c)
    {bars : List (Bar F)} (hB : c.Bars bars) {i : Nat} {b : Bar F} (hi : bars[i]? = some b) (hl : b.law = .elplast) :
    c.nstatev = 2 := by
  obtain ⟨s⟩ := build_steps hb
  have hctx : m1.ctx = some ⟨s.nt, s.et, s.nt0.labels.length, s.dof1.length,
      if s.et.mtype.contains 2 then 2 else m.settings.nstatev⟩ := by
    refine (congrArg Model.ctx s.hm').trans ?_
    simp only [Model.ctx, s.he]
    rfl
  rw [hc] at hctx; cases hctx
  rcases (hB.bar i b hi).law with ⟨-, h⟩ | ⟨h, -⟩
  · rw [hl] at h; cases h
  · have hmem : (2 : Int) ∈ s.et.mtype := List.mem_of_getElem? h
    exact if_pos (by simpa using hmem)

theorem stretchAt_real (b : Bar ℝ) (U : List ℝ) : b.stretchAt U = b.stretch U := by
  unfold Bar.stretchAt Bar.stretch len Bar.axis Bar.ref dot3
  show √_ / √_ = √_ / √_
  congr 2 <;> ring

/-- State variables of the bar at position `i` in a result: yield stress (0 for the virgin material), plastic strain. -/
def IsState (c : Ctx ℝ) (i : Nat) (a : Analysis ℝ) (y p : ℝ) : Prop := stateRow c a.statev i = some [y, p]

/-- What an accepted increment means for a plastic bar with constants `pl`: `y`, `p` are yield stress and plastic strain in
the result before, `y'`, `p'` in the result itself, `s` is the stress of the bar in it. -/
structure PlasticIncrement (pl : Plastic) (strain y p y' p' s : ℝ) : Prop where
  /-- the elastic part of the strain gives the stress -/
  elastic : s = pl.E * (strain - p')
  /-- the stress does not exceed the yield stress -/
  yield : |s| ≤ y'
  /-- plastic flow only on the yield surface -/
  onSurface : p' ≠ p → |s| = y'
  /-- plastic flow has the direction of the stress -/
  dissipation : s * (p' - p) = y' * |p' - p|
  /-- linear isotropic hardening -/
  hardening : y' = (if y = 0 then pl.Sy else y) + pl.K * |p' - p|

theorem plastic_update {pl : Plastic} (hv : pl.Valid) (rest : List ℝ) {y p : ℝ} (ha : Admissible pl y p) (e de : ℝ) :
    ∃ o y' p', umatElplastIso e de (pl.props rest) (some [y, p]) = .ok o ∧ o.statev = some [y', p'] ∧
      Admissible pl y' p' ∧ pl.Sy ≤ y' ∧ PlasticIncrement pl e y p y' p' o.s := by
  have hYp := meantY_pos hv ha
  have hab := abs_stress_le (e := e) (p := p) hv hYp.le
  refine ⟨_, _, _, step_ok hv rest ha e de, rfl, (step_adm hv ha e).1, ?_, rfl, hab.1, ?_, ?_, ?_⟩
  · exact (meantY_ge hv ha).trans (newY_ge hv _ _ _)
  · intro hne
    exact hab.2 ((newP_ne_iff hv hYp.le).1 hne)
  · by_cases hne : newP pl (meantY pl y) p e = p
    · simp [hne]
    · have h1 := flow_dissipates hv ha e hne
      rw [← abs_of_pos h1, abs_mul, hab.2 ((newP_ne_iff hv hYp.le).1 hne)]
  · show newY pl (meantY pl y) p e = meantY pl y + pl.K * |newP pl (meantY pl y) p e - p|
    rw [abs_newP_sub hv hYp.le]
    rfl

/-- Plastic strains of the bar at position `i` in the results. -/
def plasticStrains (c : Ctx ℝ) (i : Nat) (R : List (Analysis ℝ)) : List ℝ :=
  R.map fun a => ((stateRow c a.statev i).getD []).getD 1 0

/-- **C92** Plastic bars of a run.  A run starts from the virgin state; every result has a yield stress (0: still virgin, else
at least `Sy`) and a plastic strain for the bar; an increment that was not accepted leaves both as they are; in an accepted one
the bar force is area times a stress that obeys the laws of plasticity (`PlasticIncrement`) between this result and the one
before. -/
theorem C92_plastic_bars {argsort : List Int → List Nat} {env : Env ℝ} {fuel : Nat} {m m1 m2 : Model ℝ}
    (hb : m.build argsort = .ok m1) (hr : m1.run env fuel = .ok m2) (hn : 0 < m1.settings.nsteps) {c : Ctx ℝ}
    {bars : List (Bar ℝ)} (hc : m1.ctx = some c) (hB : c.Bars bars) :
    ∃ res r0 outs, m2.results = some res ∧ RunCalls env fuel m1 c outs ∧ res.R = r0 :: (recorded outs).map (·.a) ∧
      ∀ (i : Nat) (b : Bar ℝ) (pl : Plastic) (rest : List ℝ), bars[i]? = some b → b.law = .elplast → pl.Valid →
        b.mat = pl.props rest →
        IsState c i r0 0 0 ∧
        (∀ a ∈ res.R, ∃ y p, IsState c i a y p ∧ Admissible pl y p) ∧
        ∀ (k : Nat) (a : Analysis ℝ) (r : Rec ℝ), res.R[k]? = some a → (recorded outs)[k]? = some r →
          ∀ y p, IsState c i a y p →
          (r.out ≠ .accepted → IsState c i r.a y p) ∧
          (r.out = .accepted → ∃ y' p' s A, IsState c i r.a y' p' ∧ b.geo[0]? = some A ∧
            r.a.elementForce[i]? = some (s * A) ∧ pl.Sy ≤ y' ∧ PlasticIncrement pl (b.stretch r.a.U - 1) y p y' p' s) := by
  obtain ⟨c', d, r0, outs, h1, h2, h3, h4, h5, h6, h7, h8, h9, h10, res, h11, h12⟩ := run_summary hb hr
  rw [hc] at h1; cases h1
  rcases h12 with ⟨e, -⟩ | ⟨-, e⟩
  · omega
  refine ⟨res, r0, outs, h11, h9, e, ?_⟩
  intro i b pl rest hi hl hv hm
  have hns := built_nstatev hb hc hB hi hl
  have hil : i < c.elems.labels.length := by
    rw [← hB.length]; exact (List.getElem?_eq_some_iff.1 hi).1
  have hpos : 0 < c.nstatev := by omega
  have hs0 : IsState c i r0 0 0 := by
    obtain ⟨sv, hs1, hs2⟩ := h7.fits.statev hpos
    rw [if_pos hpos] at h10
    rw [h10] at hs1
    cases hs1
    unfold IsState stateRow
    rw [if_pos hpos, h10, hns]
    rw [List.length_replicate] at hs2
    show (List.replicate d.nelems (List.replicate 2 (0 : ℝ)))[i]? = _
    rw [List.getElem?_replicate, if_pos (by omega)]
    rfl
  -- one increment
  have hstep : ∀ (k : Nat) (a : Analysis ℝ) (r : Rec ℝ), res.R[k]? = some a → (recorded outs)[k]? = some r →
      ∀ y p, IsState c i a y p → Admissible pl y p →
      (r.out ≠ .accepted → IsState c i r.a y p) ∧
      (r.out = .accepted → ∃ y' p' s A, IsState c i r.a y' p' ∧ Admissible pl y' p' ∧ b.geo[0]? = some A ∧
        r.a.elementForce[i]? = some (s * A) ∧ pl.Sy ≤ y' ∧ PlasticIncrement pl (b.stretch r.a.U - 1) y p y' p' s) := by
    intro k a r ha hrk y p hst hadm
    rw [e] at ha
    have hinc := h8 k a r ha hrk
    refine ⟨fun ho => ?_, fun ho => ?_⟩
    · unfold IsState
      rw [hinc.state.1 ho]
      exact hst
    · obtain ⟨new, g1, ⟨out, g2, g3⟩⟩ := hinc.state.2 ho bars hB i b hi _ hst
      obtain ⟨xs, x1, x2, -⟩ := hinc.results hB (by rw [ho]; simp)
      have hix : i < xs.length := by rw [x1.length]; exact (List.getElem?_eq_some_iff.1 hi).1
      obtain ⟨r1, ⟨de, out', r2, r3, -⟩, r4, r5⟩ := x1.result i b xs[i] hi (List.getElem?_eq_getElem hix)
      rw [hst, r1, hl, hm] at r2
      rw [hl, hm, Bar.strainAt, stretchAt_real] at g2
      obtain ⟨o, y', p', q1, q2, q3, q4, q5⟩ := plastic_update hv rest hadm (b.stretch r.a.U - 1) de
      have e1 : out' = o := Except.ok.inj (r2.symm.trans q1)
      have e2 : out = o := Except.ok.inj (g2.symm.trans q1)
      subst e1
      subst e2
      rw [q2] at g3
      refine ⟨y', p', out.s, xs[i].area, ?_, q3, r4, ?_, q4, q5⟩
      · unfold IsState
        rw [g1, ← Option.some.inj g3]
      · rw [x2, List.getElem?_map, List.getElem?_eq_getElem hix, Option.map_some, r5, r3]
  have hall : ∀ (n : Nat) (a : Analysis ℝ), res.R[n]? = some a → ∃ y p, IsState c i a y p ∧ Admissible pl y p := by
    intro n
    induction n with
    | zero =>
      intro a ha
      rw [e] at ha
      cases ha
      exact ⟨0, 0, hs0, virgin_adm pl⟩
    | succ n ih =>
      intro a ha
      have ha' := ha
      rw [e, List.getElem?_cons_succ, List.getElem?_map, Option.map_eq_some_iff] at ha'
      obtain ⟨r, hrk, rfl⟩ := ha'
      have hn : n < (recorded outs).length := (List.getElem?_eq_some_iff.1 hrk).1
      obtain ⟨q, hq⟩ : ∃ q, res.R[n]? = some q := ⟨_, List.getElem?_eq_getElem (by rw [e]; simp; omega)⟩
      obtain ⟨y, p, k1, k2⟩ := ih _ hq
      have := hstep n q r hq hrk y p k1 k2
      by_cases ho : r.out = .accepted
      · obtain ⟨y', p', s, A, j1, j2, -⟩ := this.2 ho
        exact ⟨y', p', j1, j2⟩
      · exact ⟨y, p, this.1 ho, k2⟩
  refine ⟨hs0, ?_, ?_⟩
  · intro a ha
    obtain ⟨n, hna⟩ := List.getElem?_of_mem ha
    exact hall n a hna
  · intro k a r ha hrk y p hst
    obtain ⟨y1, p1, j1, j2⟩ := hall k a ha
    have : [y, p] = [y1, p1] := Option.some.inj (hst.symm.trans j1)
    cases this
    have := hstep k a r ha hrk y p hst j2
    refine ⟨this.1, fun ho => ?_⟩
    obtain ⟨y', p', s, A, j1, -, j3⟩ := this.2 ho
    exact ⟨y', p', s, A, j1, j3⟩

theorem variation_snoc (x y : ℝ) : ∀ l : List ℝ, variation (l ++ [x] ++ [y]) = variation (l ++ [x]) + |y - x|
  | [] => by simp [variation]
  | [a] => by simp [variation]
  | a :: b :: l => by
    have := variation_snoc x y (b :: l)
    simp only [List.cons_append, variation] at this ⊢
    rw [this]
    ring

theorem variation_nonneg : ∀ l : List ℝ, 0 ≤ variation l
  | [] => le_rfl
  | [_] => le_rfl
  | _ :: b :: l => add_nonneg (abs_nonneg _) (variation_nonneg (b :: l))

theorem plasticStrains_take {c : Ctx ℝ} {i n : Nat} {R : List (Analysis ℝ)} {a : Analysis ℝ} {y p : ℝ} (ha : R[n]? = some a)
    (hs : IsState c i a y p) : plasticStrains c i (R.take (n + 1)) = plasticStrains c i (R.take n) ++ [p] := by
  rw [List.take_add_one, ha]
  unfold IsState at hs
  simp [plasticStrains, hs]

/-- **C92** Isotropic hardening over a whole run: the recorded yield stress is that of the virgin material as long as no
increment has been accepted, afterwards the initial one plus the hardening modulus times the sum of all changes of the recorded
plastic strain up to this result; so it never decreases. -/
theorem C92_hardening_of_run {argsort : List Int → List Nat} {env : Env ℝ} {fuel : Nat} {m m1 m2 : Model ℝ}
    (hb : m.build argsort = .ok m1) (hr : m1.run env fuel = .ok m2) (hn : 0 < m1.settings.nsteps) {c : Ctx ℝ}
    {bars : List (Bar ℝ)} (hc : m1.ctx = some c) (hB : c.Bars bars) :
    ∃ res r0 outs, m2.results = some res ∧ RunCalls env fuel m1 c outs ∧ res.R = r0 :: (recorded outs).map (·.a) ∧
      ∀ (i : Nat) (b : Bar ℝ) (pl : Plastic) (rest : List ℝ), bars[i]? = some b → b.law = .elplast → pl.Valid →
        b.mat = pl.props rest → ∀ (n : Nat) (a : Analysis ℝ), res.R[n]? = some a →
        ∃ y p, IsState c i a y p ∧
          ((∀ r ∈ (recorded outs).take n, r.out ≠ .accepted) → y = 0 ∧ p = 0) ∧
          ((∃ r ∈ (recorded outs).take n, r.out = .accepted) →
            y = pl.Sy + pl.K * variation (plasticStrains c i (res.R.take (n + 1)))) := by
  obtain ⟨res, r0, outs, h1, h2, h3, h4⟩ := C92_plastic_bars hb hr hn hc hB
  refine ⟨res, r0, outs, h1, h2, h3, ?_⟩
  intro i b pl rest hi hl hv hm
  obtain ⟨hs0, -, hstep⟩ := h4 i b pl rest hi hl hv hm
  -- the yield stress meant by the state
  have key : ∀ (n : Nat) (a : Analysis ℝ), res.R[n]? = some a → ∃ y p, IsState c i a y p ∧
      ((∀ r ∈ (recorded outs).take n, r.out ≠ .accepted) → y = 0 ∧ p = 0) ∧
      ((∃ r ∈ (recorded outs).take n, r.out = .accepted) → y ≠ 0) ∧
      (if y = 0 then pl.Sy else y) = pl.Sy + pl.K * variation (plasticStrains c i (res.R.take (n + 1))) := by
    intro n
    induction n with
    | zero =>
      intro a ha
      rw [h3] at ha
      cases ha
      refine ⟨0, 0, hs0, fun _ => ⟨rfl, rfl⟩, by simp, ?_⟩
      rw [h3]
      simp [plasticStrains, variation]
    | succ n ih =>
      intro a ha
      have ha' := ha
      rw [h3, List.getElem?_cons_succ, List.getElem?_map, Option.map_eq_some_iff] at ha'
      obtain ⟨r, hrk, rfl⟩ := ha'
      have hn : n < (recorded outs).length := (List.getElem?_eq_some_iff.1 hrk).1
      obtain ⟨q, hq⟩ : ∃ q, res.R[n]? = some q := ⟨_, List.getElem?_eq_getElem (by rw [h3]; simp; omega)⟩
      obtain ⟨y, p, k1, k2, k3, k4⟩ := ih _ hq
      have htake : (recorded outs).take (n + 1) = (recorded outs).take n ++ [r] := by
        rw [List.take_add_one, hrk]; rfl
      obtain ⟨g1, g2⟩ := hstep n q r hq hrk y p k1
      by_cases ho : r.out = .accepted
      · obtain ⟨y', p', s, A, j1, -, -, j4, j5⟩ := g2 ho
        have hy' : y' ≠ 0 := (lt_of_lt_of_le hv.Sy j4).ne'
        refine ⟨y', p', j1, fun hno => ?_, fun _ => hy', ?_⟩
        · exact absurd ho (hno r (by rw [htake]; simp))
        · rw [if_neg hy', plasticStrains_take ha j1, plasticStrains_take hq k1, variation_snoc, ← plasticStrains_take hq k1,
            j5.hardening, k4]
          ring
      · have j1 := g1 ho
        refine ⟨y, p, j1, fun hno => ?_, ?_, ?_⟩
        · exact k2 fun r' hr' => hno r' (by rw [htake]; exact List.mem_append_left _ hr')
        · rintro ⟨r', hr', ho'⟩
          rw [htake, List.mem_append, List.mem_singleton] at hr'
          rcases hr' with hr' | rfl
          · exact k3 ⟨r', hr', ho'⟩
          · exact absurd ho' ho
        · rw [plasticStrains_take ha j1, plasticStrains_take hq k1, variation_snoc, ← plasticStrains_take hq k1, k4]
          simp
  intro n a ha
  obtain ⟨y, p, k1, k2, k3, k4⟩ := key n a ha
  refine ⟨y, p, k1, k2, fun hx => ?_⟩
  rw [if_neg (k3 hx)] at k4
  exact k4

/-- **C92** Perfect plasticity: in every accepted increment the force of a bar without hardening is at most its initial yield
stress times its area. -/
theorem C92_perfect_plasticity {argsort : List Int → List Nat} {env : Env ℝ} {fuel : Nat} {m m1 m2 : Model ℝ}
    (hb : m.build argsort = .ok m1) (hr : m1.run env fuel = .ok m2) (hn : 0 < m1.settings.nsteps) {c : Ctx ℝ}
    {bars : List (Bar ℝ)} (hc : m1.ctx = some c) (hB : c.Bars bars) :
    ∃ res r0 outs, m2.results = some res ∧ RunCalls env fuel m1 c outs ∧ res.R = r0 :: (recorded outs).map (·.a) ∧
      ∀ (i : Nat) (b : Bar ℝ) (pl : Plastic) (rest : List ℝ), bars[i]? = some b → b.law = .elplast → pl.Valid →
        b.mat = pl.props rest → pl.K = 0 → ∀ r ∈ recorded outs, r.out = .accepted →
          ∃ N A, r.a.elementForce[i]? = some N ∧ b.geo[0]? = some A ∧ |N| ≤ pl.Sy * |A| := by
  obtain ⟨res, r0, outs, h1, h2, h3, h4⟩ := C92_plastic_bars hb hr hn hc hB
  refine ⟨res, r0, outs, h1, h2, h3, ?_⟩
  intro i b pl rest hi hl hv hm hK
  obtain ⟨hs0, hst, hstep⟩ := h4 i b pl rest hi hl hv hm
  have key : ∀ (n : Nat) (a : Analysis ℝ), res.R[n]? = some a → ∃ y p, IsState c i a y p ∧ (y = 0 ∨ y = pl.Sy) := by
    intro n
    induction n with
    | zero =>
      intro a ha
      rw [h3] at ha
      cases ha
      exact ⟨0, 0, hs0, .inl rfl⟩
    | succ n ih =>
      intro a ha
      rw [h3, List.getElem?_cons_succ, List.getElem?_map, Option.map_eq_some_iff] at ha
      obtain ⟨r, hrk, rfl⟩ := ha
      have hn : n < (recorded outs).length := (List.getElem?_eq_some_iff.1 hrk).1
      obtain ⟨q, hq⟩ : ∃ q, res.R[n]? = some q := ⟨_, List.getElem?_eq_getElem (by rw [h3]; simp; omega)⟩
      obtain ⟨y, p, k1, k2⟩ := ih _ hq
      obtain ⟨g1, g2⟩ := hstep n q r hq hrk y p k1
      by_cases ho : r.out = .accepted
      · obtain ⟨y', p', s, A, j1, -, -, j4, j5⟩ := g2 ho
        refine ⟨y', p', j1, .inr ?_⟩
        rw [j5.hardening, hK, zero_mul, add_zero]
        rcases k2 with rfl | rfl
        · simp
        · simp
      · exact ⟨y, p, g1 ho, k2⟩
  intro r hmem ho
  obtain ⟨n, hrk⟩ := List.getElem?_of_mem hmem
  have hn : n < (recorded outs).length := (List.getElem?_eq_some_iff.1 hrk).1
  obtain ⟨q, hq⟩ : ∃ q, res.R[n]? = some q := ⟨_, List.getElem?_eq_getElem (by rw [h3]; simp; omega)⟩
  obtain ⟨y, p, k1, k2⟩ := key _ _ hq
  obtain ⟨y', p', s, A, j1, j2, j3, j4, j5⟩ := (hstep n q r hq hrk y p k1).2 ho
  have hy' : y' = pl.Sy := by
    rw [j5.hardening, hK, zero_mul, add_zero]
    rcases k2 with rfl | rfl
    · simp
    · simp
  refine ⟨s * A, A, j3, j2, ?_⟩
  rw [abs_mul, ← hy']
  exact mul_le_mul_of_nonneg_right j5.yield (abs_nonneg _)

end TrussPy
