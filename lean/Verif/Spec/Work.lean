import Verif.Spec.Energy
import Verif.Spec.Input
import Verif.Spec.Run
/-!
# Specification: work of loads and of bar forces
-/

namespace TrussPy

/-- Rate of elongation of a bar, in the deformed configuration, for virtual displacements `v` of the nodes. -/
noncomputable def Bar.elongation (b : Bar ℝ) (U : List ℝ) (v : Nat → V3 ℝ) : ℝ :=
  ∑ d : Fin 3, b.dir U d * (v b.iE d - v b.iA d)

/-- Work of nodal loads on virtual displacements. -/
def work (n : Nat) (load v : Nat → V3 ℝ) : ℝ := ∑ i ∈ Finset.range n, ∑ d : Fin 3, load i d * v i d

/-- Sum of the absolute values of all components. -/
noncomputable def size (n : Nat) (v : Nat → V3 ℝ) : ℝ := ∑ i ∈ Finset.range n, ∑ d : Fin 3, |v i d|

/-- Loads on the nodes: constant part and load factor times the loads entered for the step (`s` counts from 0). -/
noncomputable def totalLoad (u : UserInput ℝ) (labels : List Int) (const : List ℝ) (l : ℝ) (s : Nat) : Nat → V3 ℝ :=
  fun i d => const.getD (3 * i + d.val) 0 + l * (loadOf u.forces (labels.getD i 0)).getD (3 * s + d.val) 0

/-- Displacements from one state to another. -/
def moved (a a' : Analysis ℝ) : Nat → V3 ℝ := fun i d => row3 a'.U i d - row3 a.U i d

/-- Change of length of a bar from one state to another. -/
noncomputable def Bar.longer (b : Bar ℝ) (a a' : Analysis ℝ) : ℝ := len (b.axis a'.U) - len (b.axis a.U)

/-- How much a bar turns from one state to another: square of the distance of its axes minus square of its change of length.
Zero if the direction stays the same, otherwise positive. -/
noncomputable def Bar.turned (b : Bar ℝ) (a a' : Analysis ℝ) : ℝ :=
  len (fun d => b.axis a'.U d - b.axis a.U d) ^ 2 - b.longer a a' ^ 2

/-- Recorded force of the bar at position `i`. -/
def barForce (a : Analysis ℝ) (i : Nat) : ℝ := a.elementForce.getD i 0

/-- Plastic strain of the bar at position `i` in a result, zero for elastic bars. -/
def Bar.plasticStrain (b : Bar ℝ) (c : Ctx ℝ) (i : Nat) (a : Analysis ℝ) : ℝ :=
  match b.law with
  | .el => 0
  | .elplast => ((stateRow c a.statev i).getD []).getD 1 0

/-- Elastic energy stored in the bars. -/
noncomputable def storedEnergy (c : Ctx ℝ) (bars : List (Bar ℝ)) (a : Analysis ℝ) : ℝ :=
  ∑ i : Fin bars.length, bars[i].E * bars[i].area * len bars[i].ref / 2 *
    (bars[i].stretch a.U - 1 - bars[i].plasticStrain c i a) ^ 2

/-- Work of the bar forces on the plastic strains from one state to another (mean force times plastic elongation). -/
noncomputable def plasticWork (c : Ctx ℝ) (bars : List (Bar ℝ)) (a a' : Analysis ℝ) : ℝ :=
  ∑ i : Fin bars.length, (barForce a i + barForce a' i) / 2 *
    (len bars[i].ref * (bars[i].plasticStrain c i a' - bars[i].plasticStrain c i a))

/-- Error of the trapezoidal rule from one state to another: bars that turn and change their force per length. -/
noncomputable def turnError (bars : List (Bar ℝ)) (a a' : Analysis ℝ) : ℝ :=
  ∑ i : Fin bars.length, bars[i].turned a a' / 4 *
    |barForce a' i / len (bars[i].axis a'.U) - barForce a i / len (bars[i].axis a.U)|

/-- `P` are the loads that act on the nodes in the result number `k`, and this result is an equilibrium accepted by the
solver: none in the undeformed state, afterwards the constant loads and the load factor times the loads of the step. -/
def ActingLoads (u : UserInput ℝ) (labels : List Int) (recs : List (Rec ℝ)) : Nat → (Nat → V3 ℝ) → Prop
  | 0, P => P = fun _ _ => 0
  | k + 1, P => ∃ r ef l s, recs[k]? = some r ∧ r.out = .accepted ∧ r.a.extForces = some ef ∧ r.a.lpf = some l ∧
      r.a.step = s + 1 ∧ P = totalLoad u labels ef.forcesConst l s

/-- No bar has collapsed to a point. -/
def Spread (bars : List (Bar ℝ)) (a : Analysis ℝ) : Prop := ∀ b ∈ bars, len (b.axis a.U) ≠ 0

end TrussPy
