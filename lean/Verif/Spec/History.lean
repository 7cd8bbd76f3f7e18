import Verif.Spec.Stages
import Verif.Spec.Causal
/-!
# Specification: the load history of a run

All in terms of the calls made by the user: loads and displacements are functions of node label and direction.
-/

namespace TrussPy

/-- The loads are small: no component at a node of the structure exceeds `ρ`. -/
def SmallLoads (u : UserInput ℝ) (ρ : ℝ) (f : Int → V3 ℝ) : Prop := ∀ n ∈ u.nodes, ∀ d, |f n.label d| ≤ ρ

/-- `D f` are the equilibrium displacements under the loads `f`, for all loads up to `ρ`: without load there are none, they
depend continuously on the loads, and no other displacements up to `σ` are in equilibrium with the loads.  No element loses its length
or yields, and the only way to stay in equilibrium to first order with the loads held fixed is not to move. -/
structure Response (u : UserInput ℝ) (es : List (Elem ℝ)) (ρ σ : ℝ) (D : (Int → V3 ℝ) → Int → V3 ℝ) : Prop where
  unloaded : ∀ n ∈ u.nodes, ∀ d, D 0 n.label d = 0
  supports : ∀ f, SmallLoads u ρ f → AllowedVelocity u (D f)
  equilibrium : ∀ f, SmallLoads u ρ f → ∀ lab d, FreeAt u lab d → pull u es (D f) lab d = f lab d
  small : ∀ f, SmallLoads u ρ f → ∀ n ∈ u.nodes, ∀ d, |D f n.label d| ≤ σ
  unique : ∀ f, SmallLoads u ρ f → ∀ V, AllowedVelocity u V → (∀ n ∈ u.nodes, ∀ d, |V n.label d| ≤ σ) →
    (∀ lab d, FreeAt u lab d → pull u es V lab d = f lab d) → ∀ n ∈ u.nodes, ∀ d, V n.label d = D f n.label d
  cont : ∀ n ∈ u.nodes, ∀ d, ContinuousOn (fun f => D f n.label d) {f | SmallLoads u ρ f}
  length : ∀ f, SmallLoads u ρ f → ∀ e ∈ es, ∀ A E, e.conn = [A, E] → len (span u (D f) A E) ≠ 0
  below : ∀ f, SmallLoads u ρ f → ∀ e ∈ es, BelowYield u (D f) e
  regular : ∀ f, SmallLoads u ρ f → ∀ v, AllowedVelocity u v →
    (∀ lab d, FreeAt u lab d → HasDerivAt (fun t : ℝ => pull u es (fun n e => D f n e + t * v n e) lab d) 0 0) →
    ∀ n ∈ u.nodes, ∀ d, v n.label d = 0

/-- All loads that act in step number `k` at the load factor `s`, if every earlier step ended with its factor `T i`. -/
noncomputable def actingLoad (u : UserInput ℝ) (T : Nat → ℝ) (k : Nat) (s : ℝ) : Int → V3 ℝ := fun lab d =>
  (∑ i ∈ Finset.range k, T i * stepLoad u i lab d) + s * stepLoad u k lab d

/-- Load factors `T k` by which the loads of `ns` steps are applied one after the other; the loads that act together stay small. -/
structure LoadHistory (u : UserInput ℝ) (ns : Nat) (ρ : ℝ) (T : Nat → ℝ) : Prop where
  width : ∀ k < ns, 0 < T k
  small : ∀ k < ns, ∀ s ∈ Set.Icc 0 (T k), SmallLoads u ρ (actingLoad u T k s)

/-- The user has entered the truss and the loads and has chosen settings for these factors: the load factor is the control
component, with steps of width `h` below `h0`, `K k` of them in step number `k`; the tolerance is at most `f0`, there are enough
iterations, and the limits are out of reach of displacements up to `σ` and load factors up to `T k`.  `n` is the number of free directions. -/
structure LoadSettings (u : UserInput ℝ) (es : List (Elem ℝ)) (n ns nst : Nat) (T : Nat → ℝ) (σ h0 f0 L C : ℝ)
    (argsort : List Int → List Nat) (m : Model ℝ) (h : ℝ) (K : Nat → Nat) : Prop where
  sort : IsArgsort argsort
  entered : Entered u m
  elems : EnteredElems es m
  ndim : m.settings.ndim = 3
  nstatev : m.settings.nstatev = nst
  nsteps : m.settings.nsteps = ns
  log : m.settings.log ≤ 1
  pos : 0 < h
  fine : h < h0
  control : FixedControl m.settings n (n + 1) h
  tolerance : (10 : ℝ) ^ (-m.settings.ftol) ≤ f0
  incs : ∀ k < ns, m.settings.incs.ofStep k = some (K k) ∧ K k * h = T k
  limit : ∀ k < ns, ∃ xl, m.settings.xlimit.ofStep k = some xl ∧ 1 ≤ xl.1 ∧ xl.1 ≤ n + 1 ∧
    σ + L * (10 : ℝ) ^ (-m.settings.ftol) ≤ xl.2 ∧ T k + L * (10 : ℝ) ^ (-m.settings.ftol) ≤ xl.2
  iterations : EnoughIterations m.settings C h

/-- `build` and `run` return, with the node table `nt` and the results `R`. -/
def Ran (env : Env ℝ) (argsort : List Int → List Nat) (fuel : Nat) (m : Model ℝ) (nt : NodeTab ℝ) (R : List (Analysis ℝ)) : Prop :=
  ∃ m1 m2 res, m.build argsort = .ok m1 ∧ m1.run env fuel = .ok m2 ∧ m1.nodes = some nt ∧ m2.results = some res ∧ res.R = R

end TrussPy
