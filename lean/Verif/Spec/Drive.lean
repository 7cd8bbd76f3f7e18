import Verif.Spec.Stages
import Verif.Spec.Plasticity
/-!
# Specification: a structure with one free direction, driven by its displacement

The displacements are known in advance, so the strains, the plastic strains and the load are, too.
-/

namespace TrussPy

/-- Only the direction `p.2` of the node `p.1` is displaced, by `s`. -/
def driven (p : Int × Fin 3) (s : ℝ) : Int → V3 ℝ := fun n d => if n = p.1 ∧ d = p.2 then s else 0

/-- Strain of the element `e` at the displacements `U`: change of length over undeformed length. -/
noncomputable def elementStrain (u : UserInput ℝ) (U : Int → V3 ℝ) (e : Elem ℝ) : ℝ :=
  match e.conn with
  | [A, E] => len (span u U A E) / len (span u 0 A E) - 1
  | _ => 0

/-- Yield stress and plastic strain after the strains `ε 1`, …, `ε t`, starting from the virgin material. -/
noncomputable def hardened (m : Spec.Plastic) (ε : Nat → ℝ) : Nat → ℝ × ℝ
  | 0 => (m.Sy, 0)
  | t + 1 => (Spec.newY m (hardened m ε t).1 (hardened m ε t).2 (ε (t + 1)),
      Spec.newP m (hardened m ε t).1 (hardened m ε t).2 (ε (t + 1)))

/-- Stress of the element `e` after the strains `ε 1`, …, `ε t`: modulus times strain, for the plastic law modulus times
difference of strain and plastic strain. -/
noncomputable def elementStress (e : Elem ℝ) (ε : Nat → ℝ) (t : Nat) : ℝ :=
  e.mprop.vals.headD 0 * (ε t - if e.mtype = 2 then
    (hardened ⟨e.mprop.vals.headD 0, e.mprop.vals.getD 1 0, e.mprop.vals.getD 2 0⟩ ε t).2 else 0)

/-- Internal force at node `l` if the element `e` has the stress `σ e`. -/
noncomputable def stressPull (u : UserInput ℝ) (es : List (Elem ℝ)) (U : Int → V3 ℝ) (σ : Elem ℝ → ℝ) (l : Int) (d : Fin 3) : ℝ :=
  (es.map fun e => match e.conn with
    | [A, E] => ((if l = E then 1 else 0) - (if l = A then 1 else 0)) *
        (σ e * e.gprop.vals.headD 0 * (span u U A E d / len (span u U A E)))
    | _ => 0).sum

/-- Internal force in the free direction `p` after `t` increments, each of which displaces it by `v`. -/
noncomputable def drivenPull (u : UserInput ℝ) (es : List (Elem ℝ)) (p : Int × Fin 3) (v : ℝ) (t : Nat) : ℝ :=
  stressPull u es (driven p (t * v)) (fun e => elementStress e (fun q => elementStrain u (driven p (q * v)) e) t) p.1 p.2

/-- The rows of the plastic elements in the table `sv` of state variables are the yield stress (0 for the initial one) and the
plastic strain after the strains `ε e 1`, …, `ε e t`. -/
def Remembers (es : List (Elem ℝ)) (ε : Elem ℝ → Nat → ℝ) (t : Nat) (sv : Option (List (List ℝ))) : Prop :=
  ∀ (k : Nat) (e : Elem ℝ), es[k]? = some e → e.mtype = 2 → ∃ y p rest, sv.bind (·[k]?) = some (y :: p :: rest) ∧
    (if y = 0 then e.mprop.vals.getD 2 0 else y, p) =
      hardened ⟨e.mprop.vals.headD 0, e.mprop.vals.getD 1 0, e.mprop.vals.getD 2 0⟩ (ε e) t

/-- The results are the undeformed state and then, step after step, `K k` results in which the free direction `p` is displaced
by one, two, … times `v` and the plastic elements remember their history.  The load factors `l` (`l t`: that of the result number `t`) belong to the internal force up to
`tol`: the loads of the steps before, with the load factors at their ends, and the load factor times the load of the step balance
it. -/
structure FollowsDrive (u : UserInput ℝ) (es : List (Elem ℝ)) (p : Int × Fin 3) (labels : List Int) (R : List (Analysis ℝ))
    (v tol : ℝ) (ns : Nat) (K : Nat → Nat) (l : Nat → ℝ) : Prop where
  count : R.length = 1 + ∑ k ∈ Finset.range ns, K k
  points : ∀ k < ns, ∀ i < K k, ∃ r, R[1 + (∑ m ∈ Finset.range k, K m) + i]? = some r ∧ r.step = k + 1 ∧
    r.lpf = some (l (1 + (∑ m ∈ Finset.range k, K m) + i)) ∧
    (∀ (n : Nat) (lab : Int), labels[n]? = some lab → ∀ d,
      row3 r.U n d = driven p ((1 + (∑ m ∈ Finset.range k, K m) + i : Nat) * v) lab d) ∧
    Remembers es (fun e q => elementStrain u (driven p (q * v)) e) (1 + (∑ m ∈ Finset.range k, K m) + i) r.statev ∧
    |drivenPull u es p v (1 + (∑ m ∈ Finset.range k, K m) + i) -
      ((∑ m ∈ Finset.range k, l (∑ q ∈ Finset.range (m + 1), K q) * stepLoad u m p.1 p.2) +
        l (1 + (∑ m ∈ Finset.range k, K m) + i) * stepLoad u k p.1 p.2)| < tol

end TrussPy
