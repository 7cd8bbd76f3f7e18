import Verif.Spec.Newton
import Verif.Lemmas.NumPy
/-!
# The Newton loop
-/

namespace TrussPy

variable {F : Type} [Add F] [Neg F] [Flt F]

/-- Everything about a returning Newton loop. -/
theorem newtonLoop_spec {S : Type} {f : S → List F → Py (S × List F)}
    {df : S → List F → Py (S × List (List F))} {sp : List (List F) → List F → Py (List F)} {ftol xtol : F} :
    ∀ (k : Nat) (n : Int) (s : S) (x : List F) (s' : S) (o : NewtonOut F),
      newtonLoop f df sp ftol xtol k n s x = .ok (s', o) →
      ∃ its last, NewtonRun f df sp s x (its ++ [last]) s' o.x ∧ o.n = n + (its.length + 1) ∧
        its.length + 1 ≤ k ∧ o.fnorm = Flt.vnorm last.1 ∧ o.xnorm = Flt.vnorm last.2 ∧
        (∀ it ∈ its, ¬ Converged ftol xtol it) ∧ (o.success = true ↔ Converged ftol xtol last) ∧
        (o.success = false → its.length + 1 = k)
  | 0, n, s, x, s', o, h => by cases h
  | k + 1, n, s, x, s', o, h => by
    simp only [newtonLoop] at h
    obtain ⟨⟨s1, J⟩, h1, h⟩ := py_bind_eq_ok.1 h
    obtain ⟨⟨s2, fx⟩, h2, h⟩ := py_bind_eq_ok.1 h
    obtain ⟨dx, h3, h⟩ := py_bind_eq_ok.1 h
    split at h
    · cases h
    next hlen =>
    rw [ne_eq, Decidable.not_not] at hlen
    obtain ⟨⟨s3, fx'⟩, h4, h⟩ := py_bind_eq_ok.1 h
    have hit : NewtonIter f df sp s x s3 (vadd x dx) fx' dx := ⟨s1, J, s2, fx, h1, h2, h3, hlen, rfl, h4⟩
    simp only at h
    split at h
    · next hc =>
      cases h
      rw [Bool.and_eq_true] at hc
      refine ⟨[], (fx', dx), .cons hit (.nil _ _), by simp, by simp, rfl, rfl, by simp, ?_, by simp⟩
      simp [Converged, hc]
    · next hc =>
      rw [Bool.and_eq_true] at hc
      have hnc : ¬ Converged ftol xtol (fx', dx) := hc
      cases k with
      | zero =>
        cases h
        refine ⟨[], (fx', dx), .cons hit (.nil _ _), by simp, by simp, rfl, rfl, by simp, ?_, by simp⟩
        simp [hnc]
      | succ k =>
        obtain ⟨its, last, r1, r2, r3, r4, r5, r6, r7, r8⟩ := newtonLoop_spec (k + 1) (n + 1) _ _ _ _ h
        refine ⟨(fx', dx) :: its, last, .cons hit r1, ?_, ?_, r4, r5, ?_, r7, ?_⟩
        · rw [r2]; simp; omega
        · simp; omega
        · intro it hmem
          rcases List.mem_cons.1 hmem with rfl | hmem
          · exact hnc
          · exact r6 it hmem
        · intro hs
          have := r8 hs
          simp; omega

theorem newton_nfev_nonpos {S : Type} (f : S → List F → Py (S × List F))
    (df : S → List F → Py (S × List (List F))) (sp : List (List F) → List F → Py (List F)) (s : S)
    (x : List F) (nfev : Int) (ftol xtol : F) (h : nfev ≤ 0) :
    newton f df sp s x nfev ftol xtol = .error .unboundLocal := by
  unfold newton
  rw [Int.toNat_of_nonpos h]
  rfl

end TrussPy
