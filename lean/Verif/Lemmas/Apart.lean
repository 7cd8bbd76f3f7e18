import Verif.Spec.Held
import Verif.Lemmas.Influence
import Verif.Lemmas.CongruentBuild
/-!
# Lemmas: runs with further elements between fully supported nodes
-/

set_option linter.unusedSectionVars false

namespace TrussPy

/-! ## Marked entries -/

section
variable {α β : Type}

theorem pick_map (f : α → β) : ∀ (m : List Bool) (l : List α), pick m (l.map f) = (pick m l).map f
  | [], l => by cases l <;> rfl
  | true :: m, [] => rfl
  | false :: m, [] => rfl
  | true :: m, x :: l => by simp only [pick, List.map_cons, pick_map f m l]
  | false :: m, x :: l => by simp only [pick, List.map_cons, pick_map f m l]

theorem pick_zip : ∀ (m : List Bool) (l : List α) (l' : List β), l.length = l'.length →
    pick m (l.zip l') = (pick m l).zip (pick m l')
  | [], l, l', _ => by simp [pick]
  | true :: m, [], [], _ => rfl
  | false :: m, [], [], _ => rfl
  | true :: m, x :: l, y :: l', h => by
    simp only [List.length_cons, Nat.add_right_cancel_iff] at h
    simp only [pick, List.zip_cons_cons, pick_zip m l l' h]
  | false :: m, x :: l, y :: l', h => by
    simp only [List.length_cons, Nat.add_right_cancel_iff] at h
    simp only [pick, List.zip_cons_cons, pick_zip m l l' h]

theorem pick_replicate (m : List Bool) (l : List β) (x : α) : pick m (List.replicate l.length x) = List.replicate (pick m l).length x := by
  rw [← List.map_const', pick_map, List.map_const']

theorem pick_ne_nil {m : List Bool} {l : List α} (h : pick m l ≠ []) : l ≠ [] := by
  rintro rfl
  apply h
  match m with
  | [] => rfl
  | true :: m => rfl
  | false :: m => rfl

theorem pick_mem : ∀ {m : List Bool} {l : List α} {x : α}, x ∈ pick m l → x ∈ l
  | [], l, x, h => by simp [pick] at h
  | true :: m, [], x, h => by simp [pick] at h
  | false :: m, [], x, h => by simp [pick] at h
  | true :: m, y :: l, x, h => by
    simp only [pick, List.mem_cons] at h
    rcases h with rfl | h
    · simp
    · exact List.mem_cons_of_mem _ (pick_mem h)
  | false :: m, y :: l, x, h => by
    simp only [pick] at h
    exact List.mem_cons_of_mem _ (pick_mem h)

theorem pick_forall₂ {S : α → β → Prop} : ∀ (m : List Bool) {l : List α} {l' : List β}, List.Forall₂ S l l' →
    List.Forall₂ S (pick m l) (pick m l')
  | [], _, _, _ => by simp [pick]
  | true :: m, _, _, .nil => .nil
  | false :: m, _, _, .nil => .nil
  | true :: m, _, _, .cons h t => .cons h (pick_forall₂ m t)
  | false :: m, _, _, .cons _ t => pick_forall₂ m t

end

variable {F : Type} [Zero F] [One F] [Add F] [Sub F] [Mul F] [Div F] [Neg F] [Flt F]

/-! ## Evaluation of the bars -/

theorem evalAll_pick {c c' : Ctx F} {U U0 : List F} {sv sv' : Option (List (List F))} :
    ∀ (m : List Bool) (bs : List (Bar F)) (rows : List (Option (List F))) (k k' : Nat) (outs : List (TrussOut F)),
      m.length = bs.length → rows.length = bs.length →
      (∀ (i : Nat) o, rows[i]? = some o → stateRow c' sv' (k' + i) = o) →
      (∀ (i : Nat) o, (pick m rows)[i]? = some o → stateRow c sv (k + i) = o) →
      evalAll c' U U0 sv' bs k' = .ok outs → evalAll c U U0 sv (pick m bs) k = .ok (pick m outs)
  | [], [], _, _, _, outs, _, _, _, _, h => by cases h; rfl
  | b :: m, [], _, _, _, _, h, _, _, _, _ => by simp at h
  | [], b :: bs, _, _, _, _, h, _, _, _, _ => by simp at h
  | _ :: _, _ :: _, [], _, _, _, _, h, _, _, _ => by simp at h
  | t :: m, b :: bs, x :: rows, k, k', outs, h1, h2, h3, h4, h => by
    simp only [List.length_cons, Nat.add_right_cancel_iff] at h1 h2
    unfold evalAll at h
    obtain ⟨o, p1, h⟩ := py_bind_eq_ok.1 h
    obtain ⟨os, p2, h⟩ := py_bind_eq_ok.1 h
    cases h
    have h3' : ∀ (i : Nat) o, rows[i]? = some o → stateRow c' sv' (k' + 1 + i) = o := by
      intro i o hi
      rw [show k' + 1 + i = k' + (i + 1) by omega]
      exact h3 (i + 1) o (by simpa using hi)
    cases t with
    | false =>
      exact evalAll_pick m bs rows k (k' + 1) os h1 h2 h3' h4 p2
    | true =>
      have ih := evalAll_pick m bs rows (k + 1) (k' + 1) os h1 h2 h3' (by
        intro i o hi
        rw [show k + 1 + i = k + (i + 1) by omega]
        exact h4 (i + 1) o (by simpa [pick] using hi)) p2
      have hx : stateRow c sv k = stateRow c' sv' k' := by
        have e1 := h4 0 x rfl
        have e2 := h3 0 x rfl
        rw [Nat.add_zero] at e1 e2
        rw [e1, e2]
      show evalAll c U U0 sv (b :: pick m bs) k = _
      unfold evalAll
      rw [hx, p1, py_bind_ok, ih]
      rfl

/-! ## Sums of forces and blocks -/

/-- Arrays that agree outside of the nodes `T`. -/
def RowsOff (T : Nat → Prop) (r r' : List (V3 F)) : Prop := r'.length = r.length ∧ ∀ i, ¬ T i → r'[i]? = r[i]?

theorem addBar_row_off (r : List (V3 F)) (p : Bar F × TrussOut F) (i : Nat) : (addBar r p)[i]? =
    if p.1.iE = i then (r[i]?).map (fun v d => v d + p.2.N * p.2.n d)
    else if p.1.iA = i then (r[i]?).map (fun v d => v d + p.2.N * -(p.2.n d)) else r[i]? := by
  unfold addBar
  rw [List.getElem?_set, List.getElem?_set, List.length_set]
  by_cases h1 : p.1.iE = i
  · rw [if_pos h1, if_pos h1, h1]
    by_cases hi : i < r.length
    · rw [if_pos hi, List.getD_eq_getElem?_getD, List.getElem?_eq_getElem hi]; rfl
    · rw [if_neg hi, List.getElem?_eq_none (by omega)]; rfl
  · rw [if_neg h1, if_neg h1]
    by_cases h2 : p.1.iA = i
    · rw [if_pos h2, if_pos h2, h2]
      by_cases hi : i < r.length
      · rw [if_pos hi, List.getD_eq_getElem?_getD, List.getElem?_eq_getElem hi]; rfl
      · rw [if_neg hi, List.getElem?_eq_none (by omega)]; rfl
    · rw [if_neg h2, if_neg h2]

theorem RowsOff.both {T : Nat → Prop} {r r' : List (V3 F)} (h : RowsOff T r r') (p : Bar F × TrussOut F) :
    RowsOff T (addBar r p) (addBar r' p) := by
  refine ⟨by rw [addBar_length, addBar_length]; exact h.1, ?_⟩
  intro i hi
  rw [addBar_row_off, addBar_row_off, h.2 i hi]

theorem RowsOff.second {T : Nat → Prop} {r r' : List (V3 F)} (h : RowsOff T r r') {p : Bar F × TrussOut F} (hA : T p.1.iA)
    (hE : T p.1.iE) : RowsOff T r (addBar r' p) := by
  refine ⟨by rw [addBar_length]; exact h.1, ?_⟩
  intro i hi
  have n1 : p.1.iA ≠ i := fun e => hi (e ▸ hA)
  have n2 : p.1.iE ≠ i := fun e => hi (e ▸ hE)
  rw [addBar_row_off, if_neg n2, if_neg n1]
  exact h.2 i hi

theorem RowsOff.fold {T : Nat → Prop} : ∀ (m : List Bool) (ps : List (Bar F × TrussOut F)) {r r' : List (V3 F)},
    m.length = ps.length → (∀ (k : Nat) p, m[k]? = some false → ps[k]? = some p → T p.1.iA ∧ T p.1.iE) → RowsOff T r r' →
    RowsOff T ((pick m ps).foldl addBar r) (ps.foldl addBar r')
  | [], [], _, _, _, _, h => h
  | [], _ :: _, _, _, hl, _, _ => by simp at hl
  | _ :: _, [], _, _, hl, _, _ => by simp at hl
  | t :: m, p :: ps, r, r', hl, hT, h => by
    simp only [List.length_cons, Nat.add_right_cancel_iff] at hl
    have hT' : ∀ (k : Nat) p, m[k]? = some false → ps[k]? = some p → T p.1.iA ∧ T p.1.iE :=
      fun k q h1 h2 => hT (k + 1) q (by simpa using h1) (by simpa using h2)
    cases t with
    | true => exact RowsOff.fold m ps hl hT' (h.both p)
    | false =>
      obtain ⟨hA, hE⟩ := hT 0 p rfl rfl
      exact RowsOff.fold m ps hl hT' (h.second hA hE)

/-- Block `i`, `j`. -/
def blk (K : List (List (M3 F))) (i j : Nat) : Option (M3 F) := (K[i]?).bind (·[j]?)

theorem blk_add (K : List (List (M3 F))) (p q : Nat) (m : M3 F) (i j : Nat) : blk (addBlock K p q m) i j =
    if p = i ∧ q = j then (blk K i j).map (fun x a b => x a b + m a b) else blk K i j := by
  unfold blk addBlock
  rw [List.getElem?_modify]
  cases K[i]? with
  | none => simp
  | some row =>
    by_cases h1 : p = i
    · simp only [h1, if_true, Option.map_eq_map, Option.map_some, Option.bind_some, List.getElem?_modify, true_and]
      by_cases h2 : q = j
      · simp only [h2, if_true]
      · simp only [h2, if_false, Option.map_id']
    · simp [h1]

/-- Arrays of blocks that agree, except between nodes of `T`. -/
def BlocksOff (T : Nat → Prop) (K K' : List (List (M3 F))) : Prop := ∀ i j, ¬ T i → blk K' i j = blk K i j

theorem BlocksOff.both {T : Nat → Prop} {K K' : List (List (M3 F))} (h : BlocksOff T K K') (p : Bar F × TrussOut F) :
    BlocksOff T (addBarK K p) (addBarK K' p) := by
  intro i j hi
  unfold addBarK
  simp only [blk_add, h i j hi]

theorem BlocksOff.second {T : Nat → Prop} {K K' : List (List (M3 F))} (h : BlocksOff T K K') {p : Bar F × TrussOut F}
    (hA : T p.1.iA) (hE : T p.1.iE) : BlocksOff T K (addBarK K' p) := by
  intro i j hi
  have n1 : p.1.iA ≠ i := fun e => hi (e ▸ hA)
  have n2 : p.1.iE ≠ i := fun e => hi (e ▸ hE)
  unfold addBarK
  simp only [blk_add, n1, n2, false_and, if_false]
  exact h i j hi

theorem BlocksOff.fold {T : Nat → Prop} : ∀ (m : List Bool) (ps : List (Bar F × TrussOut F)) {K K' : List (List (M3 F))},
    m.length = ps.length → (∀ (k : Nat) p, m[k]? = some false → ps[k]? = some p → T p.1.iA ∧ T p.1.iE) → BlocksOff T K K' →
    BlocksOff T ((pick m ps).foldl addBarK K) (ps.foldl addBarK K')
  | [], [], _, _, _, _, h => h
  | [], _ :: _, _, _, hl, _, _ => by simp at hl
  | _ :: _, [], _, _, hl, _, _ => by simp at hl
  | t :: m, p :: ps, r, r', hl, hT, h => by
    simp only [List.length_cons, Nat.add_right_cancel_iff] at hl
    have hT' : ∀ (k : Nat) p, m[k]? = some false → ps[k]? = some p → T p.1.iA ∧ T p.1.iE :=
      fun k q h1 h2 => hT (k + 1) q (by simpa using h1) (by simpa using h2)
    cases t with
    | true => exact BlocksOff.fold m ps hl hT' (h.both p)
    | false =>
      obtain ⟨hA, hE⟩ := hT 0 p rfl rfl
      exact BlocksOff.fold m ps hl hT' (h.second hA hE)

theorem kOut_off {T : Nat → Prop} {K K' : List (List (M3 F))} (h : BlocksOff T K K') {p : Nat} (hp : ¬ T (p / 3)) (q : Nat) :
    kOut K' p q = kOut K p q := by
  have e : ∀ K : List (List (M3 F)), kOut K p q = match blk K (p / 3) (q / 3) with
      | none => 0
      | some m => m ⟨p % 3, Nat.mod_lt _ (by decide)⟩ ⟨q % 3, Nat.mod_lt _ (by decide)⟩ := by
    intro K
    unfold kOut blk
    cases K[p / 3]? with
    | none => rfl
    | some row => rfl
  rw [e, e, h _ _ hp]

theorem flat3_off {T : Nat → Prop} {r r' : List (V3 F)} (h : RowsOff T r r') {p : Nat} (hp : ¬ T (p / 3)) :
    (flat3 r')[p]? = (flat3 r)[p]? := by
  have e : ∀ r : List (V3 F), (flat3 r)[p]? = ((r.map fun v => [v 0, v 1, v 2])[p / 3]?).bind (·[p % 3]?) := by
    intro r
    unfold flat3
    conv_lhs => rw [← Nat.div_add_mod p 3]
    refine flatten_get (w := 3) ?_ _ _ (Nat.mod_lt _ (by decide))
    intro x hx
    obtain ⟨v, -, rfl⟩ := List.mem_map.1 hx
    rfl
  rw [e, e, List.getElem?_map, List.getElem?_map, h.2 _ hp]

/-! ## Analysis objects -/

/-- The two structures: bars of the second one at the positions marked by `false` lie between nodes of `T`. -/
structure ApartBars (T : Nat → Prop) (mask : List Bool) (c c' : Ctx F) (bars bars' : List (Bar F)) : Prop where
  isBars : c.Bars bars
  isBars' : c'.Bars bars'
  complete : ∀ b ∈ bars', b.Complete c'.nstatev
  nnodes : c'.nnodes = c.nnodes
  ndof1 : c'.ndof1 = c.ndof1
  nstatev : c'.nstatev = c.nstatev
  length : mask.length = bars'.length
  kept : pick mask bars' = bars
  some : bars ≠ []
  held : ∀ (k : Nat) b, mask[k]? = Option.some false → bars'[k]? = Option.some b → T b.iA ∧ T b.iE

/-- Analysis objects of the two structures. -/
structure ApartPair (T : Nat → Prop) (mask : List Bool) (c c' : Ctx F) (a b : Analysis F) : Prop where
  same : b = { a with
    r := b.r, g := b.g, K := b.K, stretch := b.stretch, elementForce := b.elementForce, elementStress := b.elementStress,
    elementStress0 := b.elementStress0, statev := b.statev }
  stretch : pick mask b.stretch = a.stretch
  force : pick mask b.elementForce = a.elementForce
  stress : pick mask b.elementStress = a.elementStress
  stress0 : pick mask b.elementStress0 = a.elementStress0
  state : b.statev.map (pick mask) = a.statev
  r : ∀ i, ¬ T i → b.r[i]? = a.r[i]?
  g : ∀ p, ¬ T (p / 3) → b.g[p]? = a.g[p]?
  fits : a.Fits c
  fits' : b.Fits c'
  rows : ∀ sv, b.statev = some sv → ∀ row ∈ sv, row.length = c'.nstatev
  free : ∀ p ∈ a.DOF1, ¬ T (p / 3)

/-- Within a step also the loads are there. -/
structure ApartReady (T : Nat → Prop) (mask : List Bool) (c c' : Ctx F) (a b : Analysis F) : Prop where
  pair : ApartPair T mask c c' a b
  ext : ∃ ef, a.extForces = some ef ∧ ef.forces.length = 3 * c.nnodes ∧ ef.forcesConst.length = 3 * c.nnodes

section
variable {T : Nat → Prop} {mask : List Bool} {c c' : Ctx F} {bars bars' : List (Bar F)}

theorem ApartPair.U {a b : Analysis F} (h : ApartPair T mask c c' a b) : b.U = a.U := by rw [h.same]
theorem ApartPair.U0 {a b : Analysis F} (h : ApartPair T mask c c' a b) : b.U0 = a.U0 := by rw [h.same]
theorem ApartPair.dof1 {a b : Analysis F} (h : ApartPair T mask c c' a b) : b.DOF1 = a.DOF1 := by rw [h.same]
theorem ApartPair.lpf {a b : Analysis F} (h : ApartPair T mask c c' a b) : b.lpf = a.lpf := by rw [h.same]
theorem ApartPair.loads {a b : Analysis F} (h : ApartPair T mask c c' a b) : b.extForces = a.extForces := by rw [h.same]

/-- Evaluation of all bars of both structures. -/
theorem apart_outs (hS : ApartBars T mask c c' bars bars') {a b : Analysis F} (h : ApartPair T mask c c' a b) (U U0 : List F) :
    ∃ outs', evalAll c' U U0 b.statev bars' 0 = .ok outs' ∧ outs'.length = bars'.length ∧
      evalAll c U U0 a.statev bars 0 = .ok (pick mask outs') := by
  have hsv := h.fits'.statev
  obtain ⟨outs', h1⟩ := evalAll_total (c := c') (U := U) (U0 := U0) (sv := b.statev) (bs := bars') 0 hS.complete (by
    intro h2 i _ hi
    obtain ⟨sv, e1, e2⟩ := hsv (by omega)
    have hi' : i < sv.length := by rw [e2, ← hS.isBars'.length]; omega
    refine ⟨sv[i], ?_, ?_⟩
    · unfold stateRow
      rw [if_pos (by omega), e1]
      exact List.getElem?_eq_getElem hi'
    · rw [h.rows sv e1 _ (List.getElem_mem hi')]
      exact h2)
  refine ⟨outs', h1, evalAll_length h1, ?_⟩
  rw [← hS.kept]
  by_cases hn : 0 < c'.nstatev
  · obtain ⟨sv, e1, e2⟩ := hsv hn
    refine evalAll_pick mask bars' (sv.map some) 0 0 outs' hS.length (by rw [List.length_map, e2, hS.isBars'.length]) ?_ ?_ h1
    · intro i o hi
      rw [List.getElem?_map] at hi
      unfold stateRow
      rw [if_pos hn, e1, Nat.zero_add]
      simp only [Option.bind_some]
      cases hx : sv[i]? with
      | none => rw [hx] at hi; cases hi
      | some x => rw [hx] at hi; exact Option.some.inj hi
    · intro i o hi
      rw [pick_map, List.getElem?_map] at hi
      unfold stateRow
      rw [← hS.nstatev, if_pos hn, ← h.state, e1, Nat.zero_add]
      simp only [Option.map_some, Option.bind_some]
      cases hx : (pick mask sv)[i]? with
      | none => rw [hx] at hi; cases hi
      | some x => rw [hx] at hi; exact Option.some.inj hi
  · refine evalAll_pick mask bars' (List.replicate bars'.length none) 0 0 outs' hS.length (by simp) ?_ ?_ h1
    · intro i o hi
      unfold stateRow
      rw [if_neg hn]
      have := List.mem_of_getElem? hi
      exact (List.eq_of_mem_replicate this).symm
    · intro i o hi
      unfold stateRow
      rw [← hS.nstatev, if_neg hn]
      have := pick_mem (List.mem_of_getElem? hi)
      exact (List.eq_of_mem_replicate this).symm

theorem splitV_apart (hS : ApartBars T mask c c' bars bars') {a b : Analysis F} (h : ApartPair T mask c c' a b) (V V0 : List F) :
    splitV c' b V V0 = splitV c a V V0 := by
  unfold splitV
  rw [hS.ndof1, h.lpf]

theorem zip_held (hS : ApartBars T mask c c' bars bars') {outs' : List (TrussOut F)} (k : Nat) (p : Bar F × TrussOut F)
    (h1 : mask[k]? = some false) (h2 : (bars'.zip outs')[k]? = some p) : T p.1.iA ∧ T p.1.iE := by
  rw [List.getElem?_zip_eq_some] at h2
  exact hS.held k p.1 h1 h2.1

theorem apart_G (hS : ApartBars T mask c c' bars bars') {a b : Analysis F} (h : ApartReady T mask c c' a b) (V V0 : List F)
    (w : Bool) : Alike (fun p p' => ApartReady T mask c c' p.1 p'.1 ∧ p'.2 = p.2) (equilibrium c a V V0 .G w)
      (equilibrium c' b V V0 .G w) := by
  have hp := h.pair
  obtain ⟨ef, f1, f2, f3⟩ := h.ext
  cases hs : splitV c a V V0 with
  | error e =>
    unfold equilibrium
    rw [splitV_apart hS hp, hs]
    exact .error _
  | ok x =>
  obtain ⟨lpf, u, u0⟩ := x
  cases hU : scatter a.U a.DOF1 u with
  | error e =>
    unfold equilibrium prepare
    rw [splitV_apart hS hp, hs]
    simp only [py_bind_ok, hp.U, hp.dof1, hU]
    exact .error _
  | ok U =>
  cases hU0 : scatter a.U0 a.DOF1 u0 with
  | error e =>
    unfold equilibrium prepare
    rw [splitV_apart hS hp, hs]
    simp only [py_bind_ok, hp.U, hp.U0, hp.dof1, hU, hU0]
    exact .error _
  | ok U0 =>
  obtain ⟨outs', o1, o2, o3⟩ := apart_outs hS hp U U0
  have hz : pick mask (bars'.zip outs') = bars.zip (pick mask outs') := by
    rw [pick_zip _ _ _ o2.symm, hS.kept]
  have hR : RowsOff T ((bars.zip (pick mask outs')).foldl addBar (zeroR c.nnodes)) ((bars'.zip outs').foldl addBar (zeroR c'.nnodes)) := by
    rw [← hz, hS.nnodes]
    exact RowsOff.fold mask _ (by rw [List.length_zip, o2, Nat.min_self]; exact hS.length) (zip_held hS) ⟨rfl, fun _ _ => rfl⟩
  generalize hr : (bars.zip (pick mask outs')).foldl addBar (zeroR c.nnodes) = r at hR
  generalize hr' : (bars'.zip outs').foldl addBar (zeroR c'.nnodes) = r' at hR
  have hrl : r.length = c.nnodes := by rw [← hr, addBars_length]; simp [zeroR]
  have hgd : ∀ x : List (V3 F), x.length = c.nnodes → ∃ g, residual x ef.forcesConst ef.forces lpf = .ok g ∧
      g = List.zipWith (· + ·) (List.zipWith (· + ·) ((flat3 x).map fun v => -v) ef.forcesConst) (ef.forces.map fun v => lpf * v) := by
    intro x hx
    unfold residual
    simp only
    rw [if_pos (by rw [flat3_length, hx, f2, f3]; exact ⟨rfl, rfl⟩)]
    exact ⟨_, rfl, rfl⟩
  obtain ⟨g, g1, g2⟩ := hgd r hrl
  obtain ⟨g', g1', g2'⟩ := hgd r' (by rw [hR.1, hrl])
  have hg : ∀ p, ¬ T (p / 3) → g'[p]? = g[p]? := by
    intro p hp
    rw [g2, g2']
    simp only [List.getElem?_zipWith, List.getElem?_map, flat3_off hR hp]
  have hgl : g.length = 3 * c.nnodes := by
    rw [g2]
    simp only [List.length_zipWith, List.length_map, flat3_length, hrl, f2, f3, Nat.min_self]
  obtain ⟨gr, hgr, -⟩ := npTake_ok_of_lt g a.DOF1 (by rw [hgl]; exact hp.fits.dof)
  have hgr' : npTake g' a.DOF1 = .ok gr := by
    have : ∀ dofs : List Nat, (∀ p ∈ dofs, ¬ T (p / 3)) → npTake g' dofs = npTake g dofs := by
      intro dofs
      induction dofs with
      | nil => intro _; rfl
      | cons p ps ih =>
        intro hd
        simp only [npTake]
        rw [hg p (hd p (by simp)), ih fun q hq => hd q (by simp [hq])]
    rw [this _ hp.free]
    exact hgr
  have e1 := equilibrium_G_ok hS.isBars hp.fits (write := w) hs hU hU0 o3 f1 (by rw [hr]; exact g1) hgr
  have e2 := equilibrium_G_ok hS.isBars' hp.fits' (write := w) (by rw [splitV_apart hS hp]; exact hs)
    (by rw [hp.U, hp.dof1]; exact hU) (by rw [hp.U0, hp.dof1]; exact hU0) o1 (by rw [hp.loads]; exact f1)
    (by rw [hr']; exact g1') (by rw [hp.dof1]; exact hgr')
  have t1 := (equilibrium_frame e1).1.fits hp.fits
  have t2 := (equilibrium_frame e2).1.fits hp.fits'
  rw [e1, e2]
  have hemp : bars.isEmpty = false := by
    cases hb : bars with
    | nil => exact absurd hb hS.some
    | cons => rfl
  have hemp' : bars'.isEmpty = false := by
    cases hb : bars' with
    | nil =>
      have := hS.some
      rw [← hS.kept, hb] at this
      exact absurd rfl (pick_ne_nil this)
    | cons => rfl
  have hbs := hp.same
  refine .ok ⟨⟨?_, ?_⟩, rfl⟩
  · unfold afterG at t1 t2 ⊢
    rw [hr] at t1 ⊢
    rw [hr'] at t2 ⊢
    simp only [hemp, hemp', Bool.not_false, Bool.and_true, hS.nstatev] at t1 t2 ⊢
    by_cases hw : (w && decide (0 < c.nstatev)) = true
    · rw [if_pos hw] at t1 t2 ⊢
      rw [if_pos hw]
      refine ⟨?_, ?_, ?_, ?_, hp.stress0, ?_, hR.2, hg, t1, t2, ?_, hp.free⟩
      · rw [hbs]
      · exact pick_map _ _ _
      · exact pick_map _ _ _
      · exact pick_map _ _ _
      · simp only [Option.map_some]
        rw [pick_map]
      · intro sv hsv row hrow
        cases hsv
        obtain ⟨o, ho, rfl⟩ := List.mem_map.1 hrow
        obtain ⟨i, hi⟩ := List.getElem?_of_mem ho
        have hil := (List.getElem?_eq_some_iff.1 hi).1
        rw [o2] at hil
        obtain ⟨o', ho', hev⟩ := evalAll_get o1 (List.getElem?_eq_getElem hil)
        rw [hi] at ho'; cases ho'
        simp only [Bool.and_eq_true, decide_eq_true_eq] at hw
        have hn : 0 < c'.nstatev := by rw [hS.nstatev]; exact hw.2
        obtain ⟨sv0, s1, s2⟩ := hp.fits'.statev hn
        have hrw : stateRow c' b.statev (0 + i) = some (sv0[i]'(by rw [s2, ← hS.isBars'.length]; exact hil)) := by
          unfold stateRow
          rw [if_pos hn, s1, Nat.zero_add]
          exact List.getElem?_eq_getElem _
        rw [hrw] at hev
        have hso := eval_statev hev
        cases hst : o.statev with
        | none => rw [hst] at hso; cases hso
        | some row' =>
          rw [Option.getD_some, eval_row hev hst]
          exact hp.rows sv0 s1 _ (List.getElem_mem _)
    · rw [if_neg hw] at t1 t2 ⊢
      rw [if_neg hw]
      refine ⟨?_, pick_map _ _ _, pick_map _ _ _, pick_map _ _ _, hp.stress0, hp.state, hR.2, hg, t1, t2, hp.rows, hp.free⟩
      rw [hbs]
  · refine ⟨ef, ?_, f2, f3⟩
    rw [(equilibrium_frame e1).1.ext]
    exact f1

theorem apart_K (hS : ApartBars T mask c c' bars bars') {a b : Analysis F} (h : ApartReady T mask c c' a b) (V : List F) :
    Alike (fun p p' => ApartReady T mask c c' p.1 p'.1 ∧ p'.2 = p.2) (stiffness c a V) (stiffness c' b V) := by
  have hp := h.pair
  cases hs : splitV c a V V with
  | error e =>
    unfold stiffness equilibrium
    rw [splitV_apart hS hp, hs]
    exact .error _
  | ok x =>
  obtain ⟨lpf, u, u0⟩ := x
  cases hU : scatter a.U a.DOF1 u with
  | error e =>
    unfold stiffness equilibrium prepare
    rw [splitV_apart hS hp, hs]
    simp only [py_bind_ok, hp.U, hp.dof1, hU]
    exact .error _
  | ok U =>
  cases hU0 : scatter a.U0 a.DOF1 u0 with
  | error e =>
    unfold stiffness equilibrium prepare
    rw [splitV_apart hS hp, hs]
    simp only [py_bind_ok, hp.U, hp.U0, hp.dof1, hU, hU0]
    exact .error _
  | ok U0 =>
  obtain ⟨outs', o1, o2, o3⟩ := apart_outs hS hp U U0
  have hz : pick mask (bars'.zip outs') = bars.zip (pick mask outs') := by
    rw [pick_zip _ _ _ o2.symm, hS.kept]
  have hK : BlocksOff T ((bars.zip (pick mask outs')).foldl addBarK (zeroK c.nnodes))
      ((bars'.zip outs').foldl addBarK (zeroK c'.nnodes)) := by
    rw [← hz, hS.nnodes]
    exact BlocksOff.fold mask _ (by rw [List.length_zip, o2, Nat.min_self]; exact hS.length) (zip_held hS) fun _ _ _ => rfl
  have e1 := equilibrium_K_ok hS.isBars hp.fits hs hU hU0 o3
  have e2 := equilibrium_K_ok hS.isBars' hp.fits' (by rw [splitV_apart hS hp]; exact hs)
    (by rw [hp.U, hp.dof1]; exact hU) (by rw [hp.U0, hp.dof1]; exact hU0) o1
  have t1 := (equilibrium_frame e1).1.fits hp.fits
  have t2 := (equilibrium_frame e2).1.fits hp.fits'
  unfold stiffness
  rw [e1, e2]
  simp only [py_bind_ok]
  have hk : (b.DOF1.map fun p => b.DOF1.map fun q => kOut ((bars'.zip outs').foldl addBarK (zeroK c'.nnodes)) p q) =
      a.DOF1.map fun p => a.DOF1.map fun q => kOut ((bars.zip (pick mask outs')).foldl addBarK (zeroK c.nnodes)) p q := by
    rw [hp.dof1]
    refine List.map_congr_left ?_
    intro p hpd
    refine List.map_congr_left ?_
    intro q _
    exact kOut_off hK (hp.free p hpd) q
  refine .ok ⟨⟨⟨?_, hp.stretch, hp.force, hp.stress, hp.stress0, hp.state, hp.r, hp.g, ?_, ?_, hp.rows, hp.free⟩, h.ext⟩, hk⟩
  · simp only
    rw [hk]
    conv_lhs => rw [hp.same]
  · exact ⟨t1.U, t1.U0, t1.r, t1.K, t1.Krow, t1.stretch, t1.force, t1.stress, t1.statev, t1.dof, t1.dofNodup⟩
  · exact ⟨t2.U, t2.U0, t2.r, t2.K, t2.Krow, t2.stretch, t2.force, t2.stress, t2.statev, t2.dof, t2.dofNodup⟩

/-! ## Steps -/

theorem apart_sim (hS : ApartBars T mask c c' bars bars') :
    (modelProblem c).Sim (modelProblem c') (ApartReady T mask c c') where
  g a b V V0 w h := apart_G hS h V V0 w
  dgdx a b V h := apart_K hS h V
  f0 a b h := by rw [h.pair.same]
  book a b j K dV h := by
    obtain ⟨t, e⟩ := h
    refine ⟨⟨?_, t.stretch, t.force, t.stress, t.stress0, t.state, t.r, t.g, ?_, ?_, t.rows, t.free⟩, e⟩
    · conv_lhs => rw [t.same]
    · exact ⟨t.fits.U, t.fits.U0, t.fits.r, t.fits.K, t.fits.Krow, t.fits.stretch, t.fits.force, t.fits.stress, t.fits.statev,
        t.fits.dof, t.fits.dofNodup⟩
    · exact ⟨t.fits'.U, t.fits'.U0, t.fits'.r, t.fits'.K, t.fits'.Krow, t.fits'.stretch, t.fits'.force, t.fits'.stress,
        t.fits'.statev, t.fits'.dof, t.fits'.dofNodup⟩
  fields a b h := by rw [h.pair.same]; exact ⟨rfl, rfl, rfl⟩
  save a b V u l h := by
    obtain ⟨t, e⟩ := h
    refine ⟨⟨?_, t.stretch, t.force, t.stress, t.stress0, t.state, t.r, t.g, ?_, ?_, t.rows, t.free⟩, e⟩
    · conv_lhs => rw [t.same]
    · exact ⟨t.fits.U, t.fits.U0, t.fits.r, t.fits.K, t.fits.Krow, t.fits.stretch, t.fits.force, t.fits.stress, t.fits.statev,
        t.fits.dof, t.fits.dofNodup⟩
    · exact ⟨t.fits'.U, t.fits'.U0, t.fits'.r, t.fits'.K, t.fits'.Krow, t.fits'.stretch, t.fits'.force, t.fits'.stress,
        t.fits'.statev, t.fits'.dof, t.fits'.dofNodup⟩

/-- The states of the two runs between two steps. -/
structure StepApart (T : Nat → Prop) (mask : List Bool) (c c' : Ctx F) (st st' : Analysis F × Results F) : Prop where
  pair : ApartPair T mask c c' st.1 st'.1
  ends : st'.2.stepLpfEnd = st.2.stepLpfEnd
  recs : List.Forall₂ (ApartPair T mask c c') st.2.R st'.2.R

theorem setStep_apart {rows : List (List F)} {wd k : Nat} (hr : rows.length = c.nnodes)
    (hw : ∀ r ∈ rows, r.length = wd) (hk : 3 * (k + 1) ≤ wd) {st st' : Analysis F × Results F}
    (h : StepApart T mask c c' st st') :
    Alike (ApartReady T mask c c') (setStep rows st.2.stepLpfEnd k st.1) (setStep rows st'.2.stepLpfEnd k st'.1) := by
  have t := h.pair
  rw [h.ends]
  unfold setStep
  cases hc : constLoad rows st.2.stepLpfEnd k with
  | error e => exact .error _
  | ok fc =>
  have hd := t.dof1
  simp only [py_bind_ok, hd]
  refine (Alike.refl _).bind ?_
  rintro _ f0 rfl
  have hl : (stepSlice rows k).flatten.length = 3 * c.nnodes := by
    rw [flatten_length_of (w := 3), ← hr]
    · simp [stepSlice, Nat.mul_comm]
    · intro r hx
      unfold stepSlice at hx
      obtain ⟨x, h1, rfl⟩ := List.mem_map.1 hx
      have := hw x h1
      simp only [List.length_take, List.length_drop]
      omega
  refine .ok ⟨⟨?_, t.stretch, t.force, t.stress, t.stress0, t.state, t.r, t.g, ?_, ?_, t.rows, t.free⟩, _, rfl, hl, ?_⟩
  · conv_lhs => rw [t.same]
  · exact ⟨t.fits.U, t.fits.U0, t.fits.r, t.fits.K, t.fits.Krow, t.fits.stretch, t.fits.force, t.fits.stress, t.fits.statev,
      t.fits.dof, t.fits.dofNodup⟩
  · exact ⟨t.fits'.U, t.fits'.U0, t.fits'.r, t.fits'.K, t.fits'.Krow, t.fits'.stretch, t.fits'.force, t.fits'.stress,
      t.fits'.statev, hd ▸ t.fits'.dof, hd ▸ t.fits'.dofNodup⟩
  · rw [constLoad_length hc]
    exact hl

theorem syncU0_apart {R R' : List (Analysis F)} (h : List.Forall₂ (ApartPair T mask c c') R R') :
    Alike (List.Forall₂ (ApartPair T mask c c')) (syncU0 R) (syncU0 R') := by
  rcases List.eq_nil_or_concat R with rfl | ⟨l0, b, rfl⟩
  · cases h; exact .error _
  · rw [List.concat_eq_append] at h ⊢
    obtain ⟨l1, b', rfl, h1, t⟩ := forall₂_snoc h
    unfold syncU0
    rw [List.getLast?_concat, List.getLast?_concat]
    simp only [List.dropLast_concat]
    refine .ok (forall₂_append h1 (.cons ?_ .nil))
    refine ⟨?_, t.stretch, t.force, t.stress, t.stress0, t.state, t.r, t.g, ?_, ?_, t.rows, t.free⟩
    · rw [t.same]
    · exact ⟨t.fits.U, t.fits.U, t.fits.r, t.fits.K, t.fits.Krow, t.fits.stretch, t.fits.force, t.fits.stress, t.fits.statev,
        t.fits.dof, t.fits.dofNodup⟩
    · exact ⟨t.fits'.U, t.fits'.U, t.fits'.r, t.fits'.K, t.fits'.Krow, t.fits'.stretch, t.fits'.force, t.fits'.stress,
        t.fits'.statev, t.fits'.dof, t.fits'.dofNodup⟩

theorem lastLpf_apart {R R' : List (Analysis F)} (h : List.Forall₂ (ApartPair T mask c c') R R') :
    Alike (fun x y => y = x) (lastLpf R) (lastLpf R') := by
  rcases List.eq_nil_or_concat R with rfl | ⟨l0, b, rfl⟩
  · cases h; exact .error _
  · rw [List.concat_eq_append] at h ⊢
    obtain ⟨l1, b', rfl, h1, t⟩ := forall₂_snoc h
    unfold lastLpf
    rw [List.getLast?_concat, List.getLast?_concat]
    simp only [t.lpf]
    exact Alike.refl _

theorem recordOne_apart {R : Analysis F → Analysis F → Prop} {l l' : List (Analysis F)} (h : List.Forall₂ R l l') :
    ∀ {X X' : List (Analysis F)}, List.Forall₂ R X X' → List.Forall₂ R (l.foldl recordOne X) (l'.foldl recordOne X') := by
  induction h with
  | nil => exact fun hX => hX
  | cons h _ ih =>
    intro X X' hX
    refine ih ?_
    unfold recordOne
    exact forall₂_append (forall₂_append (forall₂_dropLast hX) (.cons h .nil)) (.cons h .nil)

theorem runStep_apart (hS : ApartBars T mask c c' bars bars') (env : Env F) (fuel : Nat) (s : Settings F)
    {rows : List (List F)} {wd k : Nat} (hr : rows.length = c.nnodes)
    (hw : ∀ r ∈ rows, r.length = wd) (hk : 3 * (k + 1) ≤ wd) {st st' : Analysis F × Results F}
    (h : StepApart T mask c c' st st') :
    Alike (StepApart T mask c c') (runStep env fuel c s rows st k) (runStep env fuel c' s rows st' k) := by
  have hset := setStep_apart hr hw hk h
  obtain ⟨a, res⟩ := st
  obtain ⟨a', res'⟩ := st'
  unfold runStep
  simp only
  refine (Alike.refl _).bind ?_
  rintro _ incs rfl
  refine (Alike.refl _).bind ?_
  rintro _ xl rfl
  refine hset.bind ?_
  intro a1 a1' h1
  have hU : a1'.Ured = a1.Ured := by rw [h1.pair.same]
  rw [hU]
  refine (pathfollow_sim (apart_sim hS) env (stepCfg s incs xl) fuel a1.Ured h1).bind ?_
  rintro o o' ⟨hrec, hfin⟩
  have hrec' : List.Forall₂ (ApartPair T mask c c') (o.recs.map (·.a)) (o'.recs.map (·.a)) := by
    generalize o.recs = l at hrec
    generalize o'.recs = l' at hrec
    induction hrec with
    | nil => exact .nil
    | cons h _ ih => exact .cons h.2.pair ih
  refine (syncU0_apart (recordOne_apart hrec' h.recs)).bind ?_
  intro R R' hR
  refine (lastLpf_apart hR).bind ?_
  rintro _ l rfl
  have hends : res'.stepLpfEnd = res.stepLpfEnd := h.ends
  have t := hfin.pair
  split
  · refine .ok ⟨⟨?_, t.stretch, t.force, t.stress, t.stress0, t.state, t.r, t.g, ?_, ?_, t.rows, t.free⟩, by simp only [hends], hR⟩
    · have e1 : o'.final.Vred = o.final.Vred := by rw [t.same]
      unfold resetLpf
      simp only [e1]
      conv_lhs => rw [t.same]
    · exact ⟨t.fits.U, t.fits.U0, t.fits.r, t.fits.K, t.fits.Krow, t.fits.stretch, t.fits.force, t.fits.stress, t.fits.statev,
        t.fits.dof, t.fits.dofNodup⟩
    · exact ⟨t.fits'.U, t.fits'.U0, t.fits'.r, t.fits'.K, t.fits'.Krow, t.fits'.stretch, t.fits'.force, t.fits'.stress,
        t.fits'.statev, t.fits'.dof, t.fits'.dofNodup⟩
  · exact .ok ⟨t, by simp only [hends], forall₂_dropLast hR⟩

theorem steps_apart (hS : ApartBars T mask c c' bars bars') (env : Env F) (fuel : Nat) (s : Settings F)
    {rows : List (List F)} {wd n : Nat} (hr : rows.length = c.nnodes)
    (hw : ∀ r ∈ rows, r.length = wd) (hn : 3 * n ≤ wd) {st st' : Analysis F × Results F}
    (h : StepApart T mask c c' st st') :
    Alike (StepApart T mask c c') ((List.range n).foldlM (runStep env fuel c s rows) st)
      ((List.range n).foldlM (runStep env fuel c' s rows) st') := by
  refine Alike.foldlM _ ?_ h
  intro k hk s1 s2 h12
  have := List.mem_range.1 hk
  exact runStep_apart hS env fuel s hr hw (by omega) h12

end

end TrussPy
