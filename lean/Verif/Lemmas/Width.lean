import Verif.Lemmas.Path
import Verif.Instances
import Mathlib.Tactic.Ring
import Mathlib.Tactic.Linarith
import Mathlib.Tactic.Positivity
import Mathlib.Tactic.FieldSimp
/-!
# Step width control in exact arithmetic
-/

namespace TrussPy

/-- Settings for which the step width control is meaningful. -/
structure PFCfg.WidthOK (cfg : PFCfg ℝ) : Prop where
  minfac_pos : 0 < cfg.minfac
  minfac_le : cfg.minfac ≤ 1
  maxfac_ge : 1 ≤ cfg.maxfac
  reduce_gt : 1 < cfg.reduce
  increase_ge : 0 ≤ cfg.increase

/-- Upper bound of the factor. -/
def PFCfg.hi (cfg : PFCfg ℝ) : ℝ := cfg.maxfac * (1 + cfg.increase)

/-- Lower bound of the factor. -/
noncomputable def PFCfg.lo (cfg : PFCfg ℝ) : ℝ := cfg.minfac / cfg.reduce

/-- The factor is within the upper bound; strictly, if `increase` is positive. -/
def PFCfg.Below (cfg : PFCfg ℝ) (c : ℝ) : Prop := c ≤ cfg.hi ∧ (0 < cfg.increase → c < cfg.hi)

/-- `l` is `c` times the initial step width. -/
def Scaled (dxmax0 l : List ℝ) (c : ℝ) : Prop := l = dxmax0.map fun v => c * v

theorem PFCfg.WidthOK.lo_lt_one {cfg : PFCfg ℝ} (h : cfg.WidthOK) : cfg.lo < 1 := by
  unfold PFCfg.lo
  rw [div_lt_one (by linarith [h.reduce_gt])]
  linarith [h.reduce_gt, h.minfac_le]

theorem PFCfg.WidthOK.one_le_hi {cfg : PFCfg ℝ} (h : cfg.WidthOK) : 1 ≤ cfg.hi := by
  unfold PFCfg.hi
  nlinarith [h.maxfac_ge, h.increase_ge]

theorem PFCfg.WidthOK.maxfac_le_hi {cfg : PFCfg ℝ} (h : cfg.WidthOK) : cfg.maxfac ≤ cfg.hi := by
  unfold PFCfg.hi
  nlinarith [h.maxfac_ge, h.increase_ge]

theorem PFCfg.WidthOK.maxfac_below {cfg : PFCfg ℝ} (h : cfg.WidthOK) : cfg.Below cfg.maxfac := by
  refine ⟨h.maxfac_le_hi, fun hi => ?_⟩
  unfold PFCfg.hi
  nlinarith [h.maxfac_ge]

theorem PFCfg.Below.of_le {cfg : PFCfg ℝ} {c c' : ℝ} (h : cfg.Below c) (hc : c' ≤ c) : cfg.Below c' :=
  ⟨hc.trans h.1, fun hi => lt_of_le_of_lt hc (h.2 hi)⟩

theorem PFCfg.WidthOK.one_below {cfg : PFCfg ℝ} (h : cfg.WidthOK) : cfg.Below 1 :=
  h.maxfac_below.of_le h.maxfac_ge

/-- The effect of `dxmax_control` on the factor and on the recycle counter. -/
theorem dxmaxControl_real {cfg : PFCfg ℝ} (hc : cfg.WidthOK) {dxmax dxmax0 : List ℝ} {c d0 : ℝ}
    (hs : Scaled dxmax0 dxmax c) (h0 : dxmax0[0]? = some d0) (hd0 : 0 < d0) (hlo : cfg.lo < c)
    (hhi : cfg.Below c) {j j0 z b n nfev : Int} (hn1 : 1 ≤ n) (hn2 : n ≤ nfev) {s : Bool} {o : DxOut ℝ}
    (h : dxmaxControl cfg dxmax dxmax0 j j0 z s b n nfev = .ok o) :
    ∃ c', Scaled dxmax0 o.dxmax c' ∧ cfg.lo < c' ∧ cfg.Below c' ∧ (0 < z ∨ s = false → c' ≤ c) ∧
      (o.z = z ∨ (o.z = 0 ∧ z + 1 = cfg.cycl ∧ cfg.minfac < c ∧ c' = c / cfg.reduce)) := by
  have hr : 0 < cfg.reduce := by linarith [hc.reduce_gt]
  have hc0 : 0 < c := lt_trans (div_pos hc.minfac_pos hr) hlo
  have hd : dxmax[0]? = some (c * d0) := by rw [hs, List.getElem?_map, h0]; rfl
  have hg : pyGet dxmax 0 = .ok (c * d0) := by unfold pyGet; simp [hd]
  have hg0 : pyGet dxmax0 0 = .ok d0 := by unfold pyGet; simp [h0]
  unfold dxmaxControl at h
  rw [hg, hg0] at h
  simp only [bind, Except.bind] at h
  have same : ∃ c', Scaled dxmax0 dxmax c' ∧ cfg.lo < c' ∧ cfg.Below c' ∧ (0 < z ∨ s = false → c' ≤ c) ∧
      (z = z ∨ (z = 0 ∧ z + 1 = cfg.cycl ∧ cfg.minfac < c ∧ c' = c / cfg.reduce)) :=
    ⟨c, hs, hlo, hhi, fun _ => le_refl _, .inl rfl⟩
  cases hsucc : s with
  | false =>
    rw [hsucc] at h same
    simp only [Bool.not_false, if_true] at h
    by_cases hlt : Flt.lt (d0 * cfg.minfac) (c * d0) = true
    · rw [if_pos hlt] at h
      have hlt : d0 * cfg.minfac < c * d0 := of_decide_eq_true hlt
      have hmin : cfg.minfac < c := by
        by_contra hcon
        nlinarith
      have red : Scaled dxmax0 (dxmax.map fun v => v / cfg.reduce) (c / cfg.reduce) := by
        unfold Scaled
        rw [hs, List.map_map]
        apply List.map_congr_left
        intro v _
        show c * v / cfg.reduce = c / cfg.reduce * v
        ring
      have l1 : cfg.lo < c / cfg.reduce := by unfold PFCfg.lo; exact div_lt_div_of_pos_right hmin hr
      have l2 : c / cfg.reduce ≤ c := div_le_self hc0.le hc.reduce_gt.le
      by_cases hfin : z + 1 = cfg.cycl
      · simp only [hfin, decide_true, Bool.or_true, if_true] at h
        cases h
        exact ⟨c / cfg.reduce, red, l1, hhi.of_le l2, fun _ => l2, .inr ⟨rfl, hfin, hmin, rfl⟩⟩
      · simp only [hfin, decide_false, Bool.or_false] at h
        by_cases hj : j0 = j
        · simp only [hj, decide_true, if_true] at h
          cases h
          exact ⟨c / cfg.reduce, red, l1, hhi.of_le l2, fun _ => l2, .inl rfl⟩
        · simp only [hj, decide_false] at h
          cases h
          exact same
    · rw [if_neg hlt] at h
      cases h
      exact same
  | true =>
    rw [hsucc] at h same
    simp only [Bool.not_true] at h
    rw [if_neg (by simp)] at h
    by_cases hlt : Flt.lt (c * d0) (d0 * cfg.maxfac) = true
    · rw [if_pos hlt] at h
      have hlt : c * d0 < d0 * cfg.maxfac := of_decide_eq_true hlt
      have hmax : c < cfg.maxfac := by
        by_contra hcon
        nlinarith
      by_cases hj : j0 = j
      · rw [if_pos hj] at h
        by_cases hz : 0 < z
        · rw [if_pos hz] at h; cases h; exact same
        · rw [if_neg hz] at h
          by_cases hb : b ≤ 3
          · rw [if_pos hb] at h; cases h; exact same
          · rw [if_neg hb] at h
            cases h
            set q : ℝ := ((nfev - n : Int) : ℝ) / ((nfev : Int) : ℝ) with hq
            have hnf : (0 : ℝ) < ((nfev : Int) : ℝ) := by exact_mod_cast (by omega : 0 < nfev)
            have hq0 : 0 ≤ q := div_nonneg (by exact_mod_cast (by omega : 0 ≤ nfev - n)) hnf.le
            have hq1 : q ≤ 1 := by
              rw [hq, div_le_one hnf]
              exact_mod_cast (by omega : nfev - n ≤ nfev)
            have hf1 : 1 ≤ 1 + q * cfg.increase := by nlinarith [hc.increase_ge]
            have hf2 : 1 + q * cfg.increase ≤ 1 + cfg.increase := by nlinarith [hc.increase_ge]
            refine ⟨c * (1 + q * cfg.increase), ?_, ?_, ?_, fun hx => ?_, .inl rfl⟩
            · unfold Scaled
              rw [hs, List.map_map]
              apply List.map_congr_left
              intro v _
              show c * v * (1 + q * cfg.increase) = c * (1 + q * cfg.increase) * v
              ring
            · nlinarith
            · refine ⟨?_, fun hi => ?_⟩
              · unfold PFCfg.hi
                exact mul_le_mul hmax.le hf2 (by linarith) (by linarith [hc.maxfac_ge])
              · unfold PFCfg.hi
                exact mul_lt_mul hmax hf2 (by linarith) (by linarith [hc.maxfac_ge])
            · rcases hx with hx | hx
              · exact absurd hx hz
              · cases hx
      · rw [if_neg hj] at h; cases h; exact same
    · rw [if_neg hlt] at h
      have hge : d0 * cfg.maxfac ≤ c * d0 := by
        by_contra hcon
        exact hlt (decide_eq_true (not_le.1 hcon))
      have hmax : cfg.maxfac ≤ c := by
        by_contra hcon
        nlinarith
      by_cases hj : j = j0
      · rw [if_pos hj] at h
        cases h
        refine ⟨cfg.maxfac, ?_, ?_, hc.maxfac_below, fun _ => hmax, .inl rfl⟩
        · unfold Scaled
          apply List.map_congr_left
          intro v _
          exact mul_comm _ _
        · exact lt_of_lt_of_le hc.lo_lt_one hc.maxfac_ge
      · rw [if_neg hj] at h; cases h; exact same

/-- Factor bounds as an invariant. -/
def WidthInv (cfg : PFCfg ℝ) (dxmax0 l : List ℝ) : Prop :=
  if cfg.stepcontrol then ∃ c, Scaled dxmax0 l c ∧ cfg.lo < c ∧ cfg.Below c else l = dxmax0

theorem nextWidth_real {cfg : PFCfg ℝ} (hc : cfg.stepcontrol = true → cfg.WidthOK) {rc : RCtx ℝ} {st : RState ℝ} {d0 : ℝ}
    (h0 : rc.dxmax0[0]? = some d0) (hd0 : 0 < d0) (hi : WidthInv cfg rc.dxmax0 st.dxmax) {j : Int}
    {nr : NewtonOut ℝ} (hn1 : 1 ≤ nr.n) (hn2 : nr.n ≤ cfg.nfev - st.nPre) {o : DxOut ℝ}
    (h : nextWidth cfg rc st j nr = .ok o) : WidthInv cfg rc.dxmax0 o.dxmax := by
  unfold nextWidth at h
  unfold WidthInv at hi ⊢
  by_cases hsc : cfg.stepcontrol = true
  · rw [if_pos hsc] at h hi ⊢
    obtain ⟨c, k1, k2, k3⟩ := hi
    obtain ⟨c', l1, l2, l3, -⟩ := dxmaxControl_real (hc hsc) k1 h0 hd0 k2 k3 hn1 hn2 h
    exact ⟨c', l1, l2, l3⟩
  · rw [if_neg hsc] at h hi ⊢
    cases h
    exact hi

theorem IsPass.width {cfg : PFCfg ℝ} (hc : cfg.stepcontrol = true → cfg.WidthOK) {env : Env ℝ} {P : Problem ℝ} {rc : RCtx ℝ}
    {st : RState ℝ} {d0 : ℝ} (h0 : rc.dxmax0[0]? = some d0) (hd0 : 0 < d0)
    (hi : WidthInv cfg rc.dxmax0 st.dxmax) {d : PassData ℝ} (hd : IsPass env P cfg rc st d) :
    WidthInv cfg rc.dxmax0 d.dc.dxmax := by
  obtain ⟨h1, h2, -⟩ := newton_last hd.hnewton
  exact nextWidth_real hc h0 hd0 hi h1 h2 hd.hdc

theorem Passes.width {cfg : PFCfg ℝ} (hc : cfg.stepcontrol = true → cfg.WidthOK) {env : Env ℝ} {P : Problem ℝ} {rc : RCtx ℝ}
    {st st' : RState ℝ} {n : Nat} {d0 : ℝ} (h0 : rc.dxmax0[0]? = some d0) (hd0 : 0 < d0)
    (hp : Passes env P cfg rc n st st') (hi : WidthInv cfg rc.dxmax0 st.dxmax) :
    WidthInv cfg rc.dxmax0 st'.dxmax := by
  induction hp with
  | zero => exact hi
  | succ ha _ ih =>
    obtain ⟨d, hd, he⟩ := attempt_ok ha
    exact ih (by rw [he.dxmax.1]; exact hd.width hc h0 hd0 hi)

theorem IsInc.width {cfg : PFCfg ℝ} (hc : cfg.stepcontrol = true → cfg.WidthOK) {env : Env ℝ} {P : Problem ℝ}
    {dxmax0 : List ℝ} {s s' : PState ℝ} {o : Outcome} {d0 : ℝ} (h0 : dxmax0[0]? = some d0) (hd0 : 0 < d0)
    (h : IsInc env P cfg dxmax0 s s' o) (hi : WidthInv cfg dxmax0 s.dxmax) :
    WidthInv cfg dxmax0 s'.dxmax := by
  cases h with
  | pre => exact hi
  | @solve p _ _ _ _ _ _ _ _ hn hd he =>
    show WidthInv cfg dxmax0 _
    rw [he.dxmax.1]
    exact hd.width (rc := s.rctx p dxmax0) hc h0 hd0 (hn.width hc h0 hd0 hi)

/-! ## Length of the recycle loop -/

/-- Without step control, for every arithmetic: the counter `z` grows by one per pass. -/
theorem Passes.bound_plain {F : Type} [Zero F] [One F] [Add F] [Sub F] [Mul F] [Div F] [Neg F] [Flt F]
    {cfg : PFCfg F} (hsc : cfg.stepcontrol = false) {env : Env F} {P : Problem F} {rc : RCtx F}
    {st st' : RState F} {n : Nat} (hp : Passes env P cfg rc n st st') :
    0 ≤ st.z → st.z < cfg.cycl → (n : Int) ≤ cfg.cycl - 1 - st.z := by
  induction hp with
  | zero => intros; omega
  | @succ n st st1 st2 ha _ ih =>
    intro hz hlt
    obtain ⟨d, hd, he⟩ := attempt_ok ha
    have hdc := hd.hdc
    unfold nextWidth at hdc
    rw [if_neg (by rw [hsc]; simp)] at hdc
    have hdz : d.dc.z = st.z := by rw [← Except.ok.inj hdc]
    cases he with
    | again _ h2 _ =>
      simp only [hdz] at ih h2
      have := ih (by omega) (by omega)
      omega

/-- With step control: between two resets of `z` the step width does not grow, and each reset divides
it by `reduce`. -/
theorem Passes.bound_later {cfg : PFCfg ℝ} (hc : cfg.WidthOK) (hsc : cfg.stepcontrol = true)
    {env : Env ℝ} {P : Problem ℝ} {rc : RCtx ℝ} {st st' : RState ℝ} {n : Nat} {d0 : ℝ}
    (h0 : rc.dxmax0[0]? = some d0) (hd0 : 0 < d0) (hp : Passes env P cfg rc n st st') :
    ∀ (R : Nat) (c : ℝ), 1 ≤ st.z → st.z < cfg.cycl → Scaled rc.dxmax0 st.dxmax c → cfg.lo < c →
      cfg.Below c → c ≤ cfg.minfac * cfg.reduce ^ R →
      (n : Int) ≤ (cfg.cycl - 1 - st.z) + R * (cfg.cycl - 1) := by
  induction hp with
  | zero =>
    intro R c h1 h2 _ _ _ _
    have : 0 ≤ (R : Int) * (cfg.cycl - 1) := mul_nonneg (by omega) (by omega)
    push_cast
    omega
  | @succ n st st1 st2 ha _ ih =>
    intro R c hz hlt hs hlo hhi hR
    obtain ⟨d, hd, he⟩ := attempt_ok ha
    have hdc := hd.hdc
    unfold nextWidth at hdc
    rw [if_pos hsc] at hdc
    obtain ⟨h1, h2, -⟩ := newton_last hd.hnewton
    obtain ⟨c', k1, k2, k3, k4, k5⟩ := dxmaxControl_real hc hs h0 hd0 hlo hhi h1 h2 hdc
    have hcc : c' ≤ c := k4 (.inl (by omega))
    cases he with
    | again _ hne _ =>
      simp only at ih
      rcases k5 with k5 | ⟨k5, k6, k7, k8⟩
      · rw [k5] at ih hne
        have := ih R c' (by omega) (by omega) k1 k2 k3 (hcc.trans hR)
        push_cast at this ⊢
        omega
      · rw [k5] at ih hne
        cases R with
        | zero => simp at hR; linarith
        | succ R =>
          have hr : 0 < cfg.reduce := by linarith [hc.reduce_gt]
          have hb : c' ≤ cfg.minfac * cfg.reduce ^ R := by
            rw [k8, div_le_iff₀ hr]
            calc c ≤ cfg.minfac * cfg.reduce ^ (R + 1) := hR
              _ = cfg.minfac * cfg.reduce ^ R * cfg.reduce := by ring
          have := ih R c' (by omega) (by omega) k1 k2 k3 hb
          push_cast at this ⊢
          have e : ((R : Int) + 1) * (cfg.cycl - 1) = R * (cfg.cycl - 1) + (cfg.cycl - 1) := by ring
          rw [e]
          omega

theorem Passes.bound_control {cfg : PFCfg ℝ} (hc : cfg.WidthOK) (hsc : cfg.stepcontrol = true)
    {env : Env ℝ} {P : Problem ℝ} {rc : RCtx ℝ} {st st' : RState ℝ} {n : Nat} {d0 : ℝ}
    (h0 : rc.dxmax0[0]? = some d0) (hd0 : 0 < d0) (hp : Passes env P cfg rc n st st') (R : Nat)
    (hR : cfg.hi ≤ cfg.minfac * cfg.reduce ^ R) (hcy : 1 ≤ cfg.cycl) (hz : st.z = 0)
    (hi : WidthInv cfg rc.dxmax0 st.dxmax) : (n : Int) ≤ (R + 1) * (cfg.cycl - 1) := by
  cases hp with
  | zero =>
    have : 0 ≤ ((R : Int) + 1) * (cfg.cycl - 1) := mul_nonneg (by omega) (by omega)
    simpa using this
  | @succ n st st1 st2 ha hrest =>
    obtain ⟨d, hd, he⟩ := attempt_ok ha
    have hdc := hd.hdc
    unfold nextWidth at hdc
    rw [if_pos hsc] at hdc
    unfold WidthInv at hi
    rw [if_pos hsc] at hi
    obtain ⟨c, hs, hlo, hhi⟩ := hi
    obtain ⟨h1, h2, -⟩ := newton_last hd.hnewton
    obtain ⟨c', k1, k2, k3, -, k5⟩ := dxmaxControl_real hc hs h0 hd0 hlo hhi h1 h2 hdc
    have hdz : d.dc.z = 0 := by
      rcases k5 with k5 | k5
      · rw [k5, hz]
      · exact k5.1
    cases he with
    | again _ hne _ =>
      rw [hdz] at hne
      have := hrest.bound_later hc hsc h0 hd0 R c' (by simp [hdz]) (by simp only [hdz]; omega) k1 k2 k3 (k3.1.trans hR)
      simp only [hdz] at this
      push_cast at this ⊢
      have e : ((R : Int) + 1) * (cfg.cycl - 1) = R * (cfg.cycl - 1) + (cfg.cycl - 1) := by ring
      rw [e]
      omega

end TrussPy
