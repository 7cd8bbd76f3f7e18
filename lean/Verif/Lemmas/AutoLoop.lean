import Verif.Lemmas.Auto
import Verif.Lemmas.Width
/-!
# The increment loop with free choice of the control component
-/

namespace TrussPy

/-- A successful pass keeps the step width between the initial one and its `W`-fold. -/
theorem WidthNext.bounds {cfg : PFCfg ℝ} {W : ℝ} (hW : cfg.stepcontrol = true → 1 ≤ cfg.maxfac ∧ 0 ≤ cfg.increase ∧
    cfg.maxfac * (1 + cfg.increase) ≤ W) {n : Nat} {d : Fin (n + 1) → ℝ} (hd : ∀ i, 0 < d i) {t0 t : ℝ} (ht0 : 0 < t0) (ht : t0 ≤ t)
    (htW : t ≤ W * t0) {l : List ℝ}
    (h : WidthNext cfg (List.ofFn fun i => t0 * d i) (List.ofFn fun i => t * d i) l) :
    ∃ t', l = (List.ofFn fun i => t' * d i) ∧ t0 ≤ t' ∧ t' ≤ W * t0 := by
  obtain ⟨rc, st, j, nr, dc, h1, h2, h3, h4, h5, h6, rfl⟩ := h
  have same : ∃ t', (List.ofFn fun i => t * d i) = (List.ofFn fun i => t' * d i) ∧ t0 ≤ t' ∧ t' ≤ W * t0 := ⟨t, rfl, ht, htW⟩
  unfold nextWidth at h6
  rw [h1, h2, h3] at h6
  by_cases hsc : cfg.stepcontrol = true
  · rw [if_pos hsc] at h6
    obtain ⟨w1, w2, w3⟩ := hW hsc
    unfold dxmaxControl at h6
    have hg : ∀ u : ℝ, pyGet (List.ofFn fun i => u * d i) 0 = .ok (u * d 0) := fun u => by
      simp [pyGet, List.ofFn_succ]
    rw [hg, hg] at h6
    simp only [py_bind_ok, Bool.not_true] at h6
    rw [if_neg (by simp)] at h6
    by_cases hlt : Flt.lt (t * d 0) (t0 * d 0 * cfg.maxfac) = true
    · rw [if_pos hlt] at h6
      have hlt' : t * d 0 < t0 * d 0 * cfg.maxfac := of_decide_eq_true hlt
      have hmax : t ≤ t0 * cfg.maxfac := by
        by_contra hcon
        have := mul_lt_mul_of_pos_right (not_le.1 hcon) (hd 0)
        linarith
      split at h6
      · split at h6
        · cases h6; exact same
        · split at h6
          · cases h6; exact same
          · cases h6
            set q : ℝ := Flt.ofInt (cfg.nfev - st.nPre - nr.n) / Flt.ofInt (cfg.nfev - st.nPre) with hq
            have hnf : (0 : ℝ) < ((cfg.nfev - st.nPre : Int) : ℝ) := by exact_mod_cast (by omega : 0 < cfg.nfev - st.nPre)
            have hq0 : 0 ≤ q := div_nonneg (by
              show (0 : ℝ) ≤ ((cfg.nfev - st.nPre - nr.n : Int) : ℝ)
              exact_mod_cast (by omega : 0 ≤ cfg.nfev - st.nPre - nr.n)) hnf.le
            have hq1 : q ≤ 1 := by
              rw [hq]
              show ((cfg.nfev - st.nPre - nr.n : Int) : ℝ) / ((cfg.nfev - st.nPre : Int) : ℝ) ≤ 1
              rw [div_le_one hnf]
              exact_mod_cast (by omega : cfg.nfev - st.nPre - nr.n ≤ cfg.nfev - st.nPre)
            have hf1 : 1 ≤ 1 + q * cfg.increase := by nlinarith
            have hf2 : 1 + q * cfg.increase ≤ 1 + cfg.increase := by nlinarith
            refine ⟨t * (1 + q * cfg.increase), ?_, ?_, ?_⟩
            · rw [List.map_ofFn]
              refine congrArg List.ofFn (funext fun i => ?_)
              show t * d i * (1 + q * cfg.increase) = _
              ring
            · nlinarith
            · calc t * (1 + q * cfg.increase) ≤ t0 * cfg.maxfac * (1 + cfg.increase) :=
                    mul_le_mul hmax hf2 (by linarith) (by positivity)
                _ = cfg.maxfac * (1 + cfg.increase) * t0 := by ring
                _ ≤ W * t0 := mul_le_mul_of_nonneg_right w3 ht0.le
      · cases h6; exact same
    · rw [if_neg hlt] at h6
      split at h6
      · cases h6
        refine ⟨t0 * cfg.maxfac, ?_, ?_, ?_⟩
        · rw [List.map_ofFn]
          refine congrArg List.ofFn (funext fun i => ?_)
          show t0 * d i * cfg.maxfac = _
          ring
        · exact le_mul_of_one_le_right ht0.le w1
        · calc t0 * cfg.maxfac = cfg.maxfac * 1 * t0 := by ring
            _ ≤ cfg.maxfac * (1 + cfg.increase) * t0 := by
              refine mul_le_mul_of_nonneg_right (mul_le_mul_of_nonneg_left ?_ (by linarith)) ht0.le
              linarith
            _ ≤ W * t0 := mul_le_mul_of_nonneg_right w3 ht0.le
      · cases h6; exact same
  · rw [if_neg hsc] at h6
    cases h6
    exact same

section
variable {c : Ctx ℝ} {bars : List (Bar ℝ)} {a : Analysis ℝ} {ef : StepForces ℝ} {n : Nat} {d : Fin (n + 1) → ℝ} {S : ℝ}
  {γ γ' : ℝ → Fin (n + 1) → ℝ}

/-- The increment loop along the path. -/
theorem auto_loop {κ L e t0 W : ℝ} (hd : ∀ i, 0 < d i) (hepos : 0 < e) (ht0 : 0 < t0) {env : Env ℝ} {cfg : PFCfg ℝ}
    (hW : cfg.stepcontrol = true → 1 ≤ cfg.maxfac ∧ 0 ≤ cfg.increase ∧ cfg.maxfac * (1 + cfg.increase) ≤ W) {fuel : Nat}
    (hlim : ∀ p, cfg.xlimit = some p → IndexOK (n + 1) p.1)
    (hinc : ∀ (s θ : ℝ) (x : Fin (n + 1) → ℝ) (j jPre q : Int) (b : Analysis ℝ), s ∈ Set.Icc 0 S → s + (1 + e) * θ ≤ S →
      t0 ≤ θ → θ ≤ W * t0 → AutoTrack c a d γ γ' κ L cfg.ftol s x j → Carried c bars ef a b → jPre ≠ 0 →
      ∃ s', increment env (modelProblem c) cfg (List.ofFn fun i => t0 * d i) fuel
          ⟨List.ofFn x, List.ofFn fun i => θ * d i, j, jPre, q, b⟩ = .ok (s', .accepted) ∧ s'.jPre ≠ 0 ∧ Carried c bars ef a s'.a ∧
        WidthNext cfg (List.ofFn fun i => t0 * d i) (List.ofFn fun i => θ * d i) s'.dxmax ∧
        ∃ (y : Fin (n + 1) → ℝ) (p : ℝ), s'.x = List.ofFn y ∧ p ∈ Set.Icc 0 S ∧ s < p ∧ p ≤ s + (1 + e) * θ ∧
          AutoTrack c a d γ γ' κ L cfg.ftol p y s'.j ∧ (∃ i, |y i - x i| = θ * d i) ∧
          (∀ i, |γ p i - γ s i| ≤ (1 + 2 * e) * (θ * d i)) ∧ ∃ i, (1 - 2 * e) * (θ * d i) ≤ |γ p i - γ s i|)
    (he2 : e ≤ 1 / 4) :
    ∀ (i : Nat) (s θ : ℝ) (x : Fin (n + 1) → ℝ) (j jPre q : Int) (b : Analysis ℝ), 0 ≤ s → s + i * ((1 + e) * (W * t0)) ≤ S →
      t0 ≤ θ → θ ≤ W * t0 → AutoTrack c a d γ γ' κ L cfg.ftol s x j → Carried c bars ef a b → jPre ≠ 0 →
      ∃ s' recs, incrLoop env (modelProblem c) cfg (List.ofFn fun i => t0 * d i) fuel i
          ⟨List.ofFn x, List.ofFn fun i => θ * d i, j, jPre, q, b⟩ = .ok (s', recs) ∧
        (∃ p : Nat → ℝ, p 0 = s ∧ ∀ (m : Nat) (r : Rec ℝ), recs[m]? = some r → r.out = .accepted ∧ p m < p (m + 1) ∧
          p (m + 1) ≤ S ∧ p (m + 1) ≤ p m + (1 + e) * (W * t0) ∧
          (∃ y : Fin (n + 1) → ℝ, r.x = List.ofFn y ∧ ‖y - γ (p (m + 1))‖ ≤ L * cfg.ftol) ∧
          (∀ i, |γ (p (m + 1)) i - γ (p m) i| ≤ (1 + 2 * e) * (W * t0 * d i)) ∧
          ∃ i, (1 - 2 * e) * (t0 * d i) ≤ |γ (p (m + 1)) i - γ (p m) i|) ∧
        (recs.length = i ∨ ∃ r, recs.getLast? = some r ∧ limitReached r.x cfg.xlimit = .ok true) := by
  intro i
  induction i with
  | zero =>
    intro s θ x j jPre q b _ _ _ _ _ _ _
    exact ⟨_, [], rfl, ⟨fun _ => s, rfl, fun m r hm => by simp at hm⟩, Or.inl rfl⟩
  | succ i ih =>
    intro s θ x j jPre q b hs0 hsS hθ hθW hx hb hjp
    push_cast at hsS
    have hθ0 : 0 < θ := ht0.trans_le hθ
    have h1e : (1 + e) * θ ≤ (1 + e) * (W * t0) := mul_le_mul_of_nonneg_left hθW (by linarith)
    have h1e0 : 0 ≤ (1 + e) * (W * t0) := le_trans (by positivity) h1e
    have hih : 0 ≤ i * ((1 + e) * (W * t0)) := by positivity
    have hs : s ∈ Set.Icc 0 S := ⟨hs0, by linarith⟩
    obtain ⟨s1, e1, e2, e3, e4, y, p1, e5, e6, e7, e8, e9, -, e10, i2, e11⟩ := hinc s θ x j jPre q b hs (by linarith) hθ hθW hx hb hjp
    obtain ⟨θ', w1, w2, w3⟩ := e4.bounds hW hd ht0 hθ hθW
    obtain ⟨lim, hlm⟩ := limitReached_total (x := s1.x) (l := cfg.xlimit) (by rw [e5]; simpa using hlim)
    have hb0 : p1 ≤ s + (1 + e) * (W * t0) := by linarith
    have hb1 : ∀ i, |γ p1 i - γ s i| ≤ (1 + 2 * e) * (W * t0 * d i) := fun i => (e10 i).trans (by
      refine mul_le_mul_of_nonneg_left (mul_le_mul_of_nonneg_right hθW (hd i).le) (by linarith))
    have hb2 : ∃ i, (1 - 2 * e) * (t0 * d i) ≤ |γ p1 i - γ s i| := ⟨i2, le_trans (by
      refine mul_le_mul_of_nonneg_left (mul_le_mul_of_nonneg_right hθ (hd i2).le) (by linarith)) e11⟩
    cases lim with
    | true =>
      refine ⟨s1, [⟨s1.x, s1.a, .accepted⟩], ?_, ⟨fun m => if m = 0 then s else p1, rfl, ?_⟩, Or.inr ⟨_, rfl, hlm⟩⟩
      · unfold incrLoop
        simp only [e1, py_bind_ok, Outcome.isStop, hlm, if_true]
        rfl
      · intro m r hm
        cases m with
        | zero =>
          cases hm
          simp only [Nat.zero_add, if_true, one_ne_zero, if_false]
          exact ⟨trivial, e7, e6.2, hb0, ⟨y, e5, e9.close⟩, hb1, hb2⟩
        | succ m => simp at hm
    | false =>
      obtain ⟨sx, sd, sj, sp, sb, sa⟩ := s1
      simp only at e2 e3 e5 e9 w1 hlm
      subst w1 e5
      obtain ⟨s2, recs, g1, ⟨p, g0, g2⟩, g3⟩ := ih p1 θ' y sj sp sb sa e6.1 (by linarith) w2 w3 e9 e3 e2
      refine ⟨s2, ⟨List.ofFn y, sa, .accepted⟩ :: recs, ?_, ⟨fun m => Nat.rec s (fun m _ => p m) m, rfl, ?_⟩, ?_⟩
      · rw [incrLoop]
        simp only [e1, py_bind_ok, Outcome.isStop, hlm, g1]
        rfl
      · intro m r hm
        cases m with
        | zero =>
          cases hm
          simp only [g0]
          exact ⟨trivial, e7, e6.2, hb0, ⟨y, rfl, e9.close⟩, hb1, hb2⟩
        | succ m => exact g2 m r (by simpa using hm)
      · rcases g3 with g3 | ⟨r, g3, g4⟩
        · left; simp [g3]
        · right
          refine ⟨r, ?_, g4⟩
          rw [List.getLast?_cons, g3]
          rfl

end

end TrussPy
