import Verif.Spec.Congruent
import Verif.Lemmas.Mirror
import Verif.Lemmas.Total
import Verif.Props.Mechanics
/-!
# Lemmas: evaluations of congruent structures
-/

set_option linter.unusedSectionVars false

namespace TrussPy

variable {m : Axes} {π : Nat → Nat}

theorem Axes.full_signs (m : Axes) : IsSigns m.full := fun p => m.pm (comp p)

theorem Axes.free_signs (m : Axes) (dofs : List Nat) : IsSigns (m.free dofs) := by
  intro i
  unfold Axes.free
  cases dofs[i]? with
  | none => exact Or.inl rfl
  | some p => exact m.full_signs p

theorem Axes.free_last (m : Axes) (dofs : List Nat) : m.free dofs dofs.length = 1 := by
  unfold Axes.free
  rw [List.getElem?_eq_none (le_refl _)]
  rfl

theorem Axes.free_get (m : Axes) {dofs : List Nat} {i p : Nat} (h : dofs[i]? = some p) : m.free dofs i = m.full p := by
  unfold Axes.free
  rw [h]
  rfl

theorem Axes.cast (m : Axes) (d : Fin 3) : (m.s d : ℝ) = 1 ∨ (m.s d : ℝ) = -1 := by
  rcases m.pm d with e | e <;> simp [e]

theorem Axes.sq (m : Axes) (d : Fin 3) : (m.s d : ℝ) * (m.s d : ℝ) = 1 := by
  rcases m.cast d with e | e <;> rw [e] <;> norm_num

theorem comp_row (i : Nat) (d : Fin 3) : comp (3 * i + d.val) = d := by
  unfold comp
  apply Fin.ext
  show (3 * i + d.val) % 3 = d.val
  have := d.isLt
  omega

theorem row3_flip (m : Axes) (U : List ℝ) (i : Nat) : row3 (flipV m.full U) i = m.mirror (row3 U i) := by
  funext d
  unfold row3 Axes.mirror
  simp only [List.getD_eq_getElem?_getD, flipV_get]
  unfold Axes.full
  rw [comp_row]
  cases U[3 * i + d.val]? <;> simp

/-! ## Reduced and full vectors -/

theorem npTake_flip (m : Axes) {g r : List ℝ} {dofs : List Nat} (h : npTake g dofs = .ok r) :
    npTake (flipV m.full g) dofs = .ok (flipV (m.free dofs) r) := by
  have hlt := npTake_ok_lt h
  rw [npTake_eq_map (0 : ℝ) hlt] at h
  rw [npTake_eq_map (0 : ℝ) (by simpa using hlt), ← Except.ok.inj h]
  congr 1
  apply List.ext_getElem?
  intro i
  rw [List.getElem?_map, flipV_get, List.getElem?_map]
  cases hp : dofs[i]? with
  | none => rfl
  | some p =>
    simp only [Option.map_some, Option.some.injEq]
    rw [m.free_get hp, List.getD_eq_getElem?_getD, List.getD_eq_getElem?_getD, flipV_get]
    cases g[p]? <;> simp

theorem scatter_flip (m : Axes) {U u W : List ℝ} {dofs : List Nat} (hl : u.length = dofs.length) (hnd : dofs.Nodup)
    (hlt : ∀ i ∈ dofs, i < U.length) (h : scatter U dofs u = .ok W) :
    scatter (flipV m.full U) dofs (flipV (m.free dofs) u) = .ok (flipV m.full W) := by
  obtain ⟨W', h'⟩ := scatter_ok (u := flipV m.full U) (v := flipV (m.free dofs) u) (idx := dofs) (by simpa using hl)
  rw [h']
  congr 1
  apply List.ext_getElem?
  intro i
  rw [flipV_get]
  by_cases hi : i ∈ dofs
  · obtain ⟨k, hk⟩ := List.getElem?_of_mem hi
    rw [scatter_mem h' (by simpa using hl) hnd (by simpa using hlt) hk, scatter_mem h hl hnd hlt hk, flipV_get, m.free_get hk]
  · rw [scatter_other h' hi, scatter_other h hi, flipV_get]

theorem flipV_take (σ : Nat → Int) (x : List ℝ) (n : Nat) : (flipV σ x).take n = flipV σ (x.take n) := by
  apply List.ext_getElem?
  intro i
  rw [List.getElem?_take, flipV_get, flipV_get, List.getElem?_take]
  split <;> rfl

/-! ## Sums over the elements -/

theorem sum_rearranged {α β : Type} {l : List α} {l' : List β} (hl : l'.length = l.length) (hπ : Rearranges π l.length)
    {f : α → ℝ} {f' : β → ℝ} (h : ∀ k, k < l.length → ∃ x x', l[π k]? = some x ∧ l'[k]? = some x' ∧ f' x' = f x) :
    (l'.map f').sum = (l.map f).sum := by
  rw [map_eq_range, map_eq_range l, hl]
  have hp := (hπ.map fun k => ((l[k]?).map f).getD 0).sum_eq
  rw [← hp, List.map_map]
  congr 1
  refine List.map_congr_left fun k hk => ?_
  obtain ⟨x, x', e1, e2, e3⟩ := h k (List.mem_range.1 hk)
  simp only [Function.comp_apply, e1, e2, Option.map_some, Option.getD_some, e3]

theorem sum_mul (c : ℝ) {α : Type} (l : List α) (f : α → ℝ) : (l.map fun x => c * f x).sum = c * (l.map f).sum := by
  induction l with
  | nil => simp
  | cons x l ih => simp only [List.map_cons, List.sum_cons, ih]; ring

/-! ## Elements -/

/-- The bar `b'` is the mirrored and shifted bar `b`, possibly with its ends exchanged. -/
structure Bar.Congruent (m : Axes) (t : V3 ℝ) (b b' : Bar ℝ) : Prop where
  ends : (b'.iA = b.iA ∧ b'.iE = b.iE ∧ (∀ d, b'.XA d = (m.s d : ℝ) * b.XA d + t d) ∧
      ∀ d, b'.XE d = (m.s d : ℝ) * b.XE d + t d) ∨
    (b'.iA = b.iE ∧ b'.iE = b.iA ∧ (∀ d, b'.XA d = (m.s d : ℝ) * b.XE d + t d) ∧
      ∀ d, b'.XE d = (m.s d : ℝ) * b.XA d + t d)
  mat : b'.mat = b.mat
  geo : b'.geo = b.geo
  law : b'.law = b.law

/-- The structure of `c'` is congruent to that of `c`. -/
structure Congruent (m : Axes) (t : V3 ℝ) (π : Nat → Nat) (c c' : Ctx ℝ) (bars bars' : List (Bar ℝ)) : Prop where
  nnodes : c'.nnodes = c.nnodes
  ndof1 : c'.ndof1 = c.ndof1
  nstatev : c'.nstatev = c.nstatev
  length : bars'.length = bars.length
  perm : Rearranges π bars.length
  bar : ∀ k, k < bars.length → ∃ b b', bars[π k]? = some b ∧ bars'[k]? = some b' ∧ b.Congruent m t b'

theorem dot3_mirror (m : Axes) {ε : ℝ} (hε : ε = 1 ∨ ε = -1) {v w : V3 ℝ} (h : ∀ d, v d = ε * ((m.s d : ℝ) * w d)) :
    dot3 v v = dot3 w w := by
  unfold dot3
  rw [h 0, h 1, h 2]
  have hε2 : ε * ε = 1 := by rcases hε with e | e <;> rw [e] <;> norm_num
  have key : ∀ d, ε * ((m.s d : ℝ) * w d) * (ε * ((m.s d : ℝ) * w d)) = w d * w d := by
    intro d
    calc _ = (ε * ε) * (((m.s d : ℝ) * (m.s d : ℝ)) * (w d * w d)) := by ring
      _ = _ := by rw [hε2, m.sq, one_mul, one_mul]
  rw [key, key, key]

/-- The outputs of the element function for a bar and its mirror image. -/
structure TrussOut.Image (m : Axes) (ε : ℝ) (o o' : TrussOut ℝ) : Prop where
  n : ∀ d, o'.n d = ε * ((m.s d : ℝ) * o.n d)
  L : o'.L = o.L
  l : o'.l = o.l
  lam : o'.lam = o.lam
  stress : o'.stress = o.stress
  dsde : o'.dsde = o.dsde
  A : o'.A = o.A
  N : o'.N = o.N
  statev : o'.statev = o.statev

theorem eval_mirror {t : V3 ℝ} {b b' : Bar ℝ} (h : b.Congruent m t b') (U U0 : List ℝ) (sv : Option (List ℝ)) :
    ∃ ε : ℝ, (ε = 1 ∨ ε = -1) ∧ (∀ i, b'.sgn i = ε * b.sgn i) ∧
      Alike (TrussOut.Image m ε) (b.eval U U0 sv) (b'.eval (flipV m.full U) (flipV m.full U0) sv) := by
  have main : ∀ ε : ℝ, (ε = 1 ∨ ε = -1) →
      (∀ d, b'.XE d - b'.XA d = ε * ((m.s d : ℝ) * (b.XE d - b.XA d))) →
      (∀ W : List ℝ, ∀ d, row3 (flipV m.full W) b'.iE d - row3 (flipV m.full W) b'.iA d =
        ε * ((m.s d : ℝ) * (row3 W b.iE d - row3 W b.iA d))) →
      Alike (TrussOut.Image m ε) (b.eval U U0 sv) (b'.eval (flipV m.full U) (flipV m.full U0) sv) := by
    intro ε hε hX hW
    have hdx : ∀ W : List ℝ, ∀ d, (b'.XE d - b'.XA d) + (row3 (flipV m.full W) b'.iE d - row3 (flipV m.full W) b'.iA d) =
        ε * ((m.s d : ℝ) * ((b.XE d - b.XA d) + (row3 W b.iE d - row3 W b.iA d))) := by
      intro W d
      rw [hX, hW]
      ring
    have e1 := dot3_mirror m hε (v := fun d => b'.XE d - b'.XA d) (w := fun d => b.XE d - b.XA d) hX
    have e2 := fun W => dot3_mirror m hε
      (v := fun d => (b'.XE d - b'.XA d) + (row3 (flipV m.full W) b'.iE d - row3 (flipV m.full W) b'.iA d))
      (w := fun d => (b.XE d - b.XA d) + (row3 W b.iE d - row3 W b.iA d)) (hdx W)
    unfold Bar.eval trussCore
    simp only
    rw [e1, e2 U, e2 U0, h.law, h.mat, h.geo]
    refine (Alike.refl _).bind ?_
    rintro _ out rfl
    refine (Alike.refl _).bind ?_
    rintro _ A rfl
    refine .ok ⟨?_, rfl, rfl, rfl, rfl, rfl, rfl, rfl, rfl⟩
    intro d
    simp only
    rw [hdx U d]
    ring
  rcases h.ends with ⟨a1, a2, a3, a4⟩ | ⟨a1, a2, a3, a4⟩
  · refine ⟨1, Or.inl rfl, ?_, main 1 (Or.inl rfl) ?_ ?_⟩
    · intro i; unfold Bar.sgn; rw [a1, a2, one_mul]
    · intro d; rw [a3, a4]; ring
    · intro W d; rw [a1, a2, row3_flip, row3_flip]; unfold Axes.mirror; ring
  · refine ⟨-1, Or.inr rfl, ?_, main (-1) (Or.inr rfl) ?_ ?_⟩
    · intro i; unfold Bar.sgn; rw [a1, a2]; ring
    · intro d; rw [a3, a4]; ring
    · intro W d; rw [a1, a2, row3_flip, row3_flip]; unfold Axes.mirror; ring

/-- The outputs of all elements of congruent structures. -/
def Outs.Image (m : Axes) (π : Nat → Nat) (bars bars' : List (Bar ℝ)) (outs outs' : List (TrussOut ℝ)) : Prop :=
  ∀ k, k < bars.length → ∃ b b' o o' ε, (ε = 1 ∨ ε = -1) ∧ bars[π k]? = some b ∧ bars'[k]? = some b' ∧ outs[π k]? = some o ∧
    outs'[k]? = some o' ∧ (∀ i, b'.sgn i = ε * b.sgn i) ∧ TrussOut.Image m ε o o'

theorem evalAll_mirror {t : V3 ℝ} {c c' : Ctx ℝ} {bars bars' : List (Bar ℝ)} (hC : Congruent m t π c c' bars bars')
    {U U0 : List ℝ} {sv sv' : Option (List (List ℝ))} {outs outs' : List (TrussOut ℝ)}
    (h : evalAll c U U0 sv bars 0 = .ok outs) (h' : evalAll c' (flipV m.full U) (flipV m.full U0) sv' bars' 0 = .ok outs')
    (hs : ∀ k, k < bars.length → stateRow c' sv' k = stateRow c sv (π k)) : Outs.Image m π bars bars' outs outs' := by
  intro k hk
  obtain ⟨b, b', h1, h2, h3⟩ := hC.bar k hk
  obtain ⟨o, o1, o2⟩ := evalAll_get h h1
  obtain ⟨o', p1, p2⟩ := evalAll_get h' h2
  rw [Nat.zero_add] at o2 p2
  obtain ⟨ε, hε, e1, e2⟩ := eval_mirror h3 U U0 (stateRow c sv (π k))
  rw [hs k hk] at p2
  rw [o2, p2] at e2
  cases e2 with
  | ok e2 => exact ⟨b, b', o, o', ε, hε, h1, h2, o1, p1, e1, e2⟩

/-- The forces of congruent structures. -/
theorem forces_mirror {t : V3 ℝ} {c c' : Ctx ℝ} {bars bars' : List (Bar ℝ)} (hB : c.Bars bars) (hB' : c'.Bars bars')
    (hC : Congruent m t π c c' bars bars') {U U0 W W0 : List ℝ} {sv sv' : Option (List (List ℝ))}
    {outs outs' : List (TrussOut ℝ)} (h : evalAll c U U0 sv bars 0 = .ok outs) (h' : evalAll c' W W0 sv' bars' 0 = .ok outs')
    (hI : Outs.Image m π bars bars' outs outs') :
    (bars'.zip outs').foldl addBar (zeroR c'.nnodes) = ((bars.zip outs).foldl addBar (zeroR c.nnodes)).map m.mirror := by
  obtain ⟨-, r2, -⟩ := evalAll_res h
  obtain ⟨-, s2, -⟩ := evalAll_res h'
  have hl : (bars.zip outs).length = bars.length := by rw [List.length_zip, evalAll_length h, Nat.min_self]
  have hl' : (bars'.zip outs').length = bars.length := by rw [List.length_zip, evalAll_length h', Nat.min_self, hC.length]
  apply List.ext_getElem?
  intro i
  rw [List.getElem?_map]
  by_cases hi : i < c.nnodes
  · rw [addBars_get bars outs _ hB.ne r2 (zeroR_get hi),
      addBars_get bars' outs' _ hB'.ne s2 (zeroR_get (by rw [hC.nnodes]; exact hi))]
    simp only [Option.map_some, Option.some.injEq]
    funext d
    unfold Axes.mirror
    simp only [zero_add]
    have e : ∀ (bs : List (Bar ℝ)) (os : List (TrussOut ℝ)) (X : List ℝ) (d : Fin 3), (∀ p ∈ bs.zip os, p.2.n = p.1.dir X) →
        nodeForce bs (os.map (·.res)) X i d = ((bs.zip os).map fun p => p.1.sgn i * (p.2.N * p.2.n d)).sum := by
      intro bs os X d hn
      unfold nodeForce
      rw [List.zip_map_right, List.map_map]
      congr 1
      refine List.map_congr_left fun p hp => ?_
      rw [hn p hp]
      rfl
    rw [e bars outs _ d r2, e bars' outs' _ d s2, ← sum_mul]
    refine sum_rearranged (π := π) (by rw [hl, hl']) (by rw [hl]; exact hC.perm) ?_
    intro k hk
    obtain ⟨b, b', o, o', ε, hε, b1, b2, o1, o2, q1, q2⟩ := hI k (by rw [← hl]; exact hk)
    refine ⟨(b, o), (b', o'), List.getElem?_zip_eq_some.2 ⟨b1, o1⟩, List.getElem?_zip_eq_some.2 ⟨b2, o2⟩, ?_⟩
    simp only
    rw [q1, q2.N, q2.n]
    have hε2 : ε * ε = 1 := by rcases hε with e | e <;> rw [e] <;> norm_num
    calc _ = (ε * ε) * ((m.s d : ℝ) * (b.sgn i * (o.N * o.n d))) := by ring
      _ = _ := by rw [hε2, one_mul]
  · rw [List.getElem?_eq_none (by rw [addBars_length]; simp [zeroR, hC.nnodes]; omega),
      List.getElem?_eq_none (by rw [addBars_length]; simp [zeroR]; omega)]
    rfl

theorem trussK_mirror {ε : ℝ} (hε : ε = 1 ∨ ε = -1) {o o' : TrussOut ℝ} (h : TrussOut.Image m ε o o') :
    trussK o' = m.mirrorM (trussK o) := by
  have hε2 : ε * ε = 1 := by rcases hε with e | e <;> rw [e] <;> norm_num
  have hout : ∀ d e, outer3 o'.n o'.n d e = (m.s d : ℝ) * (m.s e : ℝ) * outer3 o.n o.n d e := by
    intro d e
    unfold outer3
    rw [h.n, h.n]
    calc _ = (ε * ε) * ((m.s d : ℝ) * (m.s e : ℝ) * (o.n d * o.n e)) := by ring
      _ = _ := by rw [hε2, one_mul]
  have heye : ∀ d e, (eye3 d e : ℝ) = (m.s d : ℝ) * (m.s e : ℝ) * eye3 d e := by
    intro d e
    unfold eye3
    split
    · next hde => rw [hde, m.sq, one_mul]
    · simp
  funext d e
  unfold trussK Axes.mirrorM
  rw [hout, h.dsde, h.A, h.L, h.N, h.l]
  have := heye d e
  calc _ = o.dsde * o.A / o.L * ((m.s d : ℝ) * (m.s e : ℝ) * outer3 o.n o.n d e) +
        o.N / o.l * ((m.s d : ℝ) * (m.s e : ℝ) * eye3 d e - (m.s d : ℝ) * (m.s e : ℝ) * outer3 o.n o.n d e) := by rw [← this]
    _ = _ := by ring

theorem foldl_addBarK_square : ∀ (l : List (Bar ℝ × TrussOut ℝ)) {K : List (List (M3 ℝ))} {n : Nat}, SquareK K n →
    SquareK (l.foldl addBarK K) n
  | [], _, _, h => h
  | p :: l, _, _, h => foldl_addBarK_square l (addBarK_square h p)

theorem zeroK_square (n : Nat) : SquareK (zeroK n : List (List (M3 ℝ))) n := by
  unfold zeroK
  refine ⟨by simp, ?_⟩
  intro row hrow
  rw [List.eq_of_mem_replicate hrow]
  simp

theorem getK_ext {K K' : List (List (M3 ℝ))} {n : Nat} (h : SquareK K n) (h' : SquareK K' n)
    (he : ∀ i j, i < n → j < n → getK K' i j = getK K i j) : K' = K := by
  apply List.ext_getElem (by rw [h.1, h'.1])
  intro i hi hi'
  have l1 := h'.2 _ (List.getElem_mem hi)
  have l2 := h.2 _ (List.getElem_mem hi')
  apply List.ext_getElem (by rw [l1, l2])
  intro j hj hj'
  have := he i j (by rw [← h'.1]; exact hi) (by rw [← l1]; exact hj)
  unfold getK at this
  rw [List.getElem?_eq_getElem hi, List.getElem?_eq_getElem hi'] at this
  simp only [Option.bind_some] at this
  rw [List.getElem?_eq_getElem hj, List.getElem?_eq_getElem hj'] at this
  exact Option.some.inj this

/-- The stiffness blocks of congruent structures. -/
theorem stiffness_mirror {t : V3 ℝ} {c c' : Ctx ℝ} {bars bars' : List (Bar ℝ)} (hB : c.Bars bars) (hB' : c'.Bars bars')
    (hC : Congruent m t π c c' bars bars') {U U0 W W0 : List ℝ} {sv sv' : Option (List (List ℝ))}
    {outs outs' : List (TrussOut ℝ)} (h : evalAll c U U0 sv bars 0 = .ok outs) (h' : evalAll c' W W0 sv' bars' 0 = .ok outs')
    (hI : Outs.Image m π bars bars' outs outs') :
    (bars'.zip outs').foldl addBarK (zeroK c'.nnodes) =
      ((bars.zip outs).foldl addBarK (zeroK c.nnodes)).map fun row => row.map m.mirrorM := by
  obtain ⟨-, -, r2⟩ := evalAll_res h
  obtain ⟨-, -, s2⟩ := evalAll_res h'
  have hl : (bars.zip outs).length = bars.length := by rw [List.length_zip, evalAll_length h, Nat.min_self]
  have hl' : (bars'.zip outs').length = bars.length := by rw [List.length_zip, evalAll_length h', Nat.min_self, hC.length]
  have hsq := foldl_addBarK_square (bars.zip outs) (zeroK_square c.nnodes)
  have hsq' := foldl_addBarK_square (bars'.zip outs') (zeroK_square c'.nnodes)
  rw [hC.nnodes] at hsq' ⊢
  have hsq2 : SquareK (((bars.zip outs).foldl addBarK (zeroK c.nnodes)).map fun row => row.map m.mirrorM) c.nnodes := by
    refine ⟨by rw [List.length_map, hsq.1], ?_⟩
    intro row hrow
    obtain ⟨row0, h0, rfl⟩ := List.mem_map.1 hrow
    rw [List.length_map, hsq.2 _ h0]
  refine getK_ext hsq2 hsq' fun i j hi hj => ?_
  rw [addBarsK_get bars' outs' _ hB'.ne s2 (zeroK_get hi hj)]
  have hg : ∀ K : List (List (M3 ℝ)), getK (K.map fun row => row.map m.mirrorM) i j = (getK K i j).map m.mirrorM := by
    intro K
    unfold getK
    rw [List.getElem?_map]
    cases K[i]? with
    | none => rfl
    | some row => simp
  rw [hg, addBarsK_get bars outs _ hB.ne r2 (zeroK_get hi hj)]
  simp only [Option.map_some, Option.some.injEq]
  funext d e
  unfold Axes.mirrorM
  simp only [zero_add]
  have e1 : ∀ (bs : List (Bar ℝ)) (os : List (TrussOut ℝ)) (X : List ℝ), (∀ p ∈ bs.zip os, trussK p.2 = p.1.tangent X p.2.res) →
      nodeStiffness bs (os.map (·.res)) X i j d e = ((bs.zip os).map fun p => p.1.sgn i * p.1.sgn j * trussK p.2 d e).sum := by
    intro bs os X hn
    unfold nodeStiffness
    rw [List.zip_map_right, List.map_map]
    congr 1
    refine List.map_congr_left fun p hp => ?_
    rw [hn p hp]
    rfl
  rw [e1 bars outs _ r2, e1 bars' outs' _ s2, ← sum_mul]
  refine sum_rearranged (π := π) (by rw [hl, hl']) (by rw [hl]; exact hC.perm) ?_
  intro k hk
  obtain ⟨b, b', o, o', ε, hε, b1, b2, o1, o2, q1, q2⟩ := hI k (by rw [← hl]; exact hk)
  refine ⟨(b, o), (b', o'), List.getElem?_zip_eq_some.2 ⟨b1, o1⟩, List.getElem?_zip_eq_some.2 ⟨b2, o2⟩, ?_⟩
  simp only
  rw [q1, q1, trussK_mirror hε q2]
  unfold Axes.mirrorM
  have hε2 : ε * ε = 1 := by rcases hε with e | e <;> rw [e] <;> norm_num
  calc _ = (ε * ε) * ((m.s d : ℝ) * (m.s e : ℝ) * (b.sgn i * b.sgn j * trussK o d e)) := by ring
    _ = _ := by rw [hε2, one_mul]

theorem kOut_mirror (m : Axes) (K : List (List (M3 ℝ))) (p q : Nat) :
    kOut (K.map fun row => row.map m.mirrorM) p q = (m.full p : ℝ) * ((m.full q : ℝ) * kOut K p q) := by
  unfold kOut
  rw [List.getElem?_map]
  cases K[p / 3]? with
  | none => simp
  | some row =>
    simp only [Option.map_some, List.getElem?_map]
    cases row[q / 3]? with
    | none => simp
    | some b => simp only [Option.map_some, Axes.mirrorM, Axes.full, comp]; ring

theorem Kred_mirror (m : Axes) (K : List (List (M3 ℝ))) (dofs : List Nat) :
    (dofs.map fun p => dofs.map fun q => kOut (K.map fun row => row.map m.mirrorM) p q) =
      flipM (m.free dofs) (m.free dofs) (dofs.map fun p => dofs.map fun q => kOut K p q) := by
  apply List.ext_getElem?
  intro i
  rw [flipM_get, List.getElem?_map, List.getElem?_map]
  cases hp : dofs[i]? with
  | none => rfl
  | some p =>
    simp only [Option.map_some, Option.some.injEq]
    apply List.ext_getElem?
    intro k
    rw [List.getElem?_map, List.getElem?_map, flipV_get, List.getElem?_map]
    cases hq : dofs[k]? with
    | none => rfl
    | some q => simp only [Option.map_some, kOut_mirror, m.free_get hp, m.free_get hq]

theorem flat3_mirror (m : Axes) (r : List (V3 ℝ)) : flat3 (r.map m.mirror) = flipV m.full (flat3 r) := by
  apply List.ext_getElem?
  intro p
  rw [flipV_get, flat3_get, flat3_get, List.getElem?_map]
  cases r[p / 3]? <;> rfl

theorem residual_mirror (m : Axes) {r : List (V3 ℝ)} {fc f g : List ℝ} {l : ℝ} (h : residual r fc f l = .ok g) :
    residual (r.map m.mirror) (flipV m.full fc) (flipV m.full f) l = .ok (flipV m.full g) := by
  unfold residual at h ⊢
  simp only [flat3_mirror, flipV_length] at h ⊢
  split at h
  · next hl =>
    rw [if_pos hl]
    cases h
    congr 1
    apply List.ext_getElem?
    intro i
    rw [flipV_get]
    simp only [List.getElem?_zipWith, List.getElem?_map, flipV_get]
    cases (flat3 r)[i]? <;> cases fc[i]? <;> cases f[i]? <;> simp
    ring
  · cases h

/-! ## The problem of the path-following method -/

/-- Analysis objects of the two structures during a run. -/
structure Images (m : Axes) (π : Nat → Nat) (c c' : Ctx ℝ) (dofs : List Nat) (a a' : Analysis ℝ) : Prop where
  cong : a.Congruent m π a'
  ready : a.Ready c
  ready' : a'.Ready c'
  dof : a.DOF1 = dofs

theorem splitV_mirror {c c' : Ctx ℝ} {σ : Nat → Int} (hn : c'.ndof1 = c.ndof1) (hσ : σ c.ndof1 = 1) {a a' : Analysis ℝ}
    (hl : a'.lpf = a.lpf) {V V0 : List ℝ} (hV : V.length ≤ c.ndof1 + 1) {lpf : ℝ} {u u0 : List ℝ}
    (h : splitV c a V V0 = .ok (lpf, u, u0)) :
    splitV c' a' (flipV σ V) (flipV σ V0) = .ok (lpf, flipV σ u, flipV σ u0) := by
  unfold splitV at h ⊢
  rw [hn, flipV_length, hl]
  split at h
  · next hlt =>
    rw [if_pos hlt]
    have hlen : V.length = c.ndof1 + 1 := by omega
    cases hL : V.getLast? with
    | none => rw [hL] at h; cases h
    | some y =>
      rw [hL] at h
      cases h
      have : (flipV σ V).getLast? = some lpf := by
        rw [List.getLast?_eq_getElem?] at hL ⊢
        rw [flipV_length, flipV_get, hL, hlen, Nat.add_sub_cancel, hσ]
        simp
      rw [this]
      simp only [flipV_take]
  · next hlt =>
    rw [if_neg hlt]
    cases hL : a.lpf with
    | none => rw [hL] at h; cases h
    | some y =>
      rw [hL] at h
      cases h
      rfl

theorem splitV_lengths {c : Ctx ℝ} {a : Analysis ℝ} {V V0 : List ℝ} (hV : V.length = c.ndof1 ∨ V.length = c.ndof1 + 1)
    (hV0 : V0.length = V.length) {lpf : ℝ} {u u0 : List ℝ} (h : splitV c a V V0 = .ok (lpf, u, u0)) :
    u.length = c.ndof1 ∧ u0.length = c.ndof1 := by
  unfold splitV at h
  split at h
  · cases hL : V.getLast? with
    | none => rw [hL] at h; cases h
    | some y =>
      rw [hL] at h
      cases h
      simp only [List.length_take]
      omega
  · cases hL : a.lpf with
    | none => rw [hL] at h; cases h
    | some y =>
      rw [hL] at h
      cases h
      omega

theorem stateRow_reordered {t : V3 ℝ} {c c' : Ctx ℝ} {bars bars' : List (Bar ℝ)} (hB : c.Bars bars)
    (hC : Congruent m t π c c' bars bars') {a a' : Analysis ℝ} (hf : a.Fits c)
    (h : (a.statev = none ∧ a'.statev = none) ∨ ∃ sv sv', a.statev = some sv ∧ a'.statev = some sv' ∧ Reordered π sv sv')
    {k : Nat} (hk : k < bars.length) : stateRow c' a'.statev k = stateRow c a.statev (π k) := by
  unfold stateRow
  rw [hC.nstatev]
  split
  · next hs =>
    obtain ⟨sv, s1, s2⟩ := hf.statev hs
    rcases h with ⟨e, -⟩ | ⟨sv1, sv', e1, e2, e3⟩
    · rw [e] at s1; cases s1
    · rw [s1] at e1
      cases e1
      rw [s1, e2]
      exact e3.2 k (by rw [s2, ← hB.length]; exact hk)
  · rfl

theorem Outs.Image.reordered {bars bars' : List (Bar ℝ)} {outs outs' : List (TrussOut ℝ)} (h : Outs.Image m π bars bars' outs outs')
    (hl : outs.length = bars.length) (hl' : outs'.length = bars.length) {α : Type} {f : TrussOut ℝ → α}
    (hf : ∀ ε o o', TrussOut.Image m ε o o' → f o' = f o) : Reordered π (outs.map f) (outs'.map f) := by
  refine ⟨by simp [hl, hl'], ?_⟩
  intro k hk
  rw [List.length_map, hl] at hk
  obtain ⟨b, b', o, o', ε, -, -, -, h1, h2, -, h3⟩ := h k hk
  rw [List.getElem?_map, List.getElem?_map, h1, h2]
  simp only [Option.map_some, hf ε o o' h3]

section
variable {t : V3 ℝ} {c c' : Ctx ℝ} {bars bars' : List (Bar ℝ)} {dofs : List Nat}

theorem g_mirror (hB : c.Bars bars) (hB' : c'.Bars bars') (hC : Congruent m t π c c' bars bars')
    (hdl : dofs.length = c.ndof1) {a a' b b' : Analysis ℝ} {V V0 gr gr' : List ℝ} {w : Bool}
    (h : Images m π c c' dofs a a') (hV : V.length = c.ndof1 + 1) (hV0 : V0.length = c.ndof1 + 1)
    (hg : equilibrium c a V V0 .G w = .ok (b, gr))
    (hg' : equilibrium c' a' (flipV (m.free dofs) V) (flipV (m.free dofs) V0) .G w = .ok (b', gr')) :
    b.Congruent m π b' ∧ gr' = flipV (m.free dofs) gr ∧ b.DOF1 = dofs := by
  obtain ⟨lpf, u, u0, U, U0, outs, ef, g, p1, p2, p3, p4, p5, p6, p7, hA⟩ := equilibrium_G hB h.ready.base.fits hg
  obtain ⟨lpf', u', u0', U', U0', outs', ef', g', q1, q2, q3, q4, q5, q6, q7, hA'⟩ := equilibrium_G hB' h.ready'.base.fits hg'
  have hd := h.dof
  have hd' : a'.DOF1 = dofs := by rw [h.cong.dof1]; exact hd
  have hf := h.ready.base.fits
  have hlast : m.free dofs c.ndof1 = 1 := by rw [← hdl]; exact m.free_last dofs
  have s1 := splitV_mirror (c' := c') hC.ndof1 hlast h.cong.lpf (by omega) p1
  rw [q1] at s1
  cases s1
  obtain ⟨l1, l2⟩ := splitV_lengths (Or.inr hV) (by omega) p1
  rw [hd] at p2 p3 p7
  rw [hd'] at q2 q3 q7
  have hnd : dofs.Nodup := by rw [← hd]; exact hf.dofNodup
  have hlt : ∀ i ∈ dofs, i < 3 * c.nnodes := by rw [← hd]; exact hf.dof
  have s2 := scatter_flip m (by omega) hnd (by rw [hf.U]; exact hlt) p2
  rw [← h.cong.U, q2] at s2
  cases s2
  have s3 := scatter_flip m (by omega) hnd (by rw [hf.U0]; exact hlt) p3
  rw [← h.cong.U0, q3] at s3
  cases s3
  have hI := evalAll_mirror hC p4 q4 (fun k hk => stateRow_reordered hB hC hf h.cong.statev hk)
  have hr := forces_mirror hB hB' hC p4 q4 hI
  have e5 := h.cong.loads
  rw [p5, q5] at e5
  cases e5
  have s6 := residual_mirror m p6
  rw [← hr, q6] at s6
  cases s6
  have s7 := npTake_flip m p7
  rw [q7] at s7
  cases s7
  refine ⟨?_, rfl, ?_⟩
  · have lo := evalAll_length p4
    have lo' : outs'.length = bars.length := by rw [evalAll_length q4, hC.length]
    have r1 := hI.reordered lo lo' (f := (·.lam)) (fun _ _ _ h => h.lam)
    have r2 := hI.reordered lo lo' (f := (·.N)) (fun _ _ _ h => h.N)
    have r3 := hI.reordered lo lo' (f := (·.stress)) (fun _ _ _ h => h.stress)
    have r4 := hI.reordered lo lo' (f := fun o => o.statev.getD []) (fun _ _ _ h => by simp only [h.statev])
    have hemp : bars'.isEmpty = bars.isEmpty := by
      rw [Bool.eq_iff_iff, List.isEmpty_iff_length_eq_zero, List.isEmpty_iff_length_eq_zero, hC.length]
    have hV1 : flipV (m.free a.DOF1) (u ++ [lpf]) = flipV (m.free a.DOF1) u ++ [lpf] := by
      rw [flipV_append, l1, hd, hlast]
      simp
    rw [hA, hA']
    unfold afterG
    simp only [hC.nstatev, hemp]
    by_cases hw : (w && decide (0 < c.nstatev) && !bars.isEmpty) = true
    · rw [if_pos hw, if_pos hw]
      exact ⟨h.cong.step, rfl, rfl, hr, rfl, h.cong.K, r1, r2, r3, Or.inr ⟨_, _, rfl, rfl, r4⟩, h.cong.dof0, h.cong.dof1,
        h.cong.Ured, by rw [hV1, hd], rfl, h.cong.loads, h.cong.f0red, h.cong.Kred, h.cong.Kmod, h.cong.j, h.cong.dVmax⟩
    · rw [if_neg hw, if_neg hw]
      exact ⟨h.cong.step, rfl, rfl, hr, rfl, h.cong.K, r1, r2, r3, h.cong.statev, h.cong.dof0, h.cong.dof1,
        h.cong.Ured, h.cong.Vred, h.cong.lpf, h.cong.loads, h.cong.f0red, h.cong.Kred, h.cong.Kmod, h.cong.j, h.cong.dVmax⟩
  · rw [(equilibrium_frame hg).1.dof1]; exact hd

theorem dgdx_mirror (hB : c.Bars bars) (hB' : c'.Bars bars') (hC : Congruent m t π c c' bars bars')
    (hdl : dofs.length = c.ndof1) {a a' b b' : Analysis ℝ} {V : List ℝ} {K K' : List (List ℝ)}
    (h : Images m π c c' dofs a a') (hV : V.length = c.ndof1)
    (hg : stiffness c a V = .ok (b, K)) (hg' : stiffness c' a' (flipV (m.free dofs) V) = .ok (b', K')) :
    b.Congruent m π b' ∧ K' = flipM (m.free dofs) (m.free dofs) K ∧ b.DOF1 = dofs := by
  obtain ⟨lpf, u, u0, U, U0, outs, p1, p2, p3, p4, p5, hA⟩ := stiffness_inv hB h.ready.base.fits hg
  obtain ⟨lpf', u', u0', U', U0', outs', q1, q2, q3, q4, q5, hA'⟩ := stiffness_inv hB' h.ready'.base.fits hg'
  have hd := h.dof
  have hd' : a'.DOF1 = dofs := by rw [h.cong.dof1]; exact hd
  have hf := h.ready.base.fits
  have hlast : m.free dofs c.ndof1 = 1 := by rw [← hdl]; exact m.free_last dofs
  have s1 := splitV_mirror (c' := c') hC.ndof1 hlast h.cong.lpf (by omega) p1
  rw [q1] at s1
  cases s1
  obtain ⟨l1, l2⟩ := splitV_lengths (Or.inl hV) rfl p1
  rw [hd] at p2 p3 p5
  rw [hd'] at q2 q3 q5
  have hnd : dofs.Nodup := by rw [← hd]; exact hf.dofNodup
  have hlt : ∀ i ∈ dofs, i < 3 * c.nnodes := by rw [← hd]; exact hf.dof
  have s2 := scatter_flip m (by omega) hnd (by rw [hf.U]; exact hlt) p2
  rw [← h.cong.U, q2] at s2
  cases s2
  have s3 := scatter_flip m (by omega) hnd (by rw [hf.U0]; exact hlt) p3
  rw [← h.cong.U0, q3] at s3
  cases s3
  have hI := evalAll_mirror hC p4 q4 (fun k hk => stateRow_reordered hB hC hf h.cong.statev hk)
  have hr := stiffness_mirror hB hB' hC p4 q4 hI
  have hK : K' = flipM (m.free dofs) (m.free dofs) K := by
    rw [q5, hr, Kred_mirror, p5]
  refine ⟨?_, hK, ?_⟩
  · rw [hA, hA']
    exact ⟨h.cong.step, rfl, rfl, h.cong.r, h.cong.g, hr, h.cong.stretch, h.cong.force, h.cong.stress, h.cong.statev,
      h.cong.dof0, h.cong.dof1, h.cong.Ured, h.cong.Vred, h.cong.lpf, h.cong.loads, h.cong.f0red, by rw [hd]; exact hK,
      h.cong.Kmod, h.cong.j, h.cong.dVmax⟩
  · rw [hA]; exact hd

theorem modelProblem_flip (hB : c.Bars bars) (hB' : c'.Bars bars') (hK : ∀ b ∈ bars, b.Complete c.nstatev)
    (hK' : ∀ b ∈ bars', b.Complete c'.nstatev) (hC : Congruent m t π c c' bars bars') (hdl : dofs.length = c.ndof1) :
    (modelProblem c).Flip (modelProblem c') c.ndof1 (m.free dofs) (Images m π c c' dofs) where
  signs := m.free_signs dofs
  last := by rw [← hdl]; exact m.free_last dofs
  g := by
    intro a a' V V0 w h hV hV0
    obtain ⟨b, gr, e1, e2, e3⟩ := (modelProblem_runs hB hK).g a V V0 w h.ready hV hV0
    obtain ⟨b', gr', f1, f2, f3⟩ := (modelProblem_runs hB' hK').g a' (flipV (m.free dofs) V) (flipV (m.free dofs) V0) w h.ready'
      (by rw [flipV_length, hC.ndof1]; exact hV) (by rw [flipV_length, hC.ndof1]; exact hV0)
    rw [e1, f1]
    obtain ⟨i1, i2, i3⟩ := g_mirror hB hB' hC hdl h hV hV0 e1 f1
    exact .ok ⟨⟨i1, e2, f2, i3⟩, i2, e3⟩
  dgdx := by
    intro a a' U h hU
    obtain ⟨b, K, e1, e2, e3, e4⟩ := (modelProblem_runs hB hK).dgdx a U h.ready hU
    obtain ⟨b', K', f1, f2, f3, f4⟩ := (modelProblem_runs hB' hK').dgdx a' (flipV (m.free dofs) U) h.ready'
      (by rw [flipV_length, hC.ndof1]; exact hU)
    rw [e1, f1]
    obtain ⟨i1, i2, i3⟩ := dgdx_mirror hB hB' hC hdl h hU e1 f1
    exact .ok ⟨⟨i1, e2, f2, i3⟩, i2, e3, e4⟩
  f0 := by
    intro a a' h
    have := h.cong.f0red
    rw [h.dof] at this
    exact ⟨this, h.ready.f0⟩
  setJ := by
    intro a a' j h
    have b := (modelProblem_runs hB hK).book a j a.Kmod a.dVmax h.ready
    have b' := (modelProblem_runs hB' hK').book a' (flipJ (m.free dofs) j) a'.Kmod a'.dVmax h.ready'
    refine ⟨?_, b, b', h.dof⟩
    have hc := h.cong
    exact ⟨hc.step, hc.U, hc.U0, hc.r, hc.g, hc.K, hc.stretch, hc.force, hc.stress, hc.statev, hc.dof0, hc.dof1, hc.Ured, hc.Vred,
      hc.lpf, hc.loads, hc.f0red, hc.Kred, hc.Kmod, by simp only [h.dof], hc.dVmax⟩
  setK := by
    intro a a' τ K h hτ
    have b := (modelProblem_runs hB hK).book a a.j K a.dVmax h.ready
    have b' := (modelProblem_runs hB' hK').book a' a'.j (flipM τ (m.free dofs) K) a'.dVmax h.ready'
    refine ⟨?_, b, b', h.dof⟩
    have hc := h.cong
    exact ⟨hc.step, hc.U, hc.U0, hc.r, hc.g, hc.K, hc.stretch, hc.force, hc.stress, hc.statev, hc.dof0, hc.dof1, hc.Ured, hc.Vred,
      hc.lpf, hc.loads, hc.f0red, hc.Kred, ⟨τ, hτ, by simp only [h.dof]⟩, hc.j, hc.dVmax⟩
  setD := by
    intro a a' dV h
    have b := (modelProblem_runs hB hK).book a a.j a.Kmod dV h.ready
    have b' := (modelProblem_runs hB' hK').book a' a'.j a'.Kmod dV h.ready'
    refine ⟨?_, b, b', h.dof⟩
    have hc := h.cong
    exact ⟨hc.step, hc.U, hc.U0, hc.r, hc.g, hc.K, hc.stretch, hc.force, hc.stress, hc.statev, hc.dof0, hc.dof1, hc.Ured, hc.Vred,
      hc.lpf, hc.loads, hc.f0red, hc.Kred, hc.Kmod, hc.j, rfl⟩
  save := by
    intro a a' V u l h hV hu
    have b := (modelProblem_runs hB hK).save a V u l h.ready hu
    have b' := (modelProblem_runs hB' hK').save a' (flipV (m.free dofs) V) (flipV (m.free dofs) u) l h.ready'
      (by rw [flipV_length, hC.ndof1]; exact hu)
    refine ⟨?_, b, b', h.dof⟩
    have hc := h.cong
    exact ⟨hc.step, hc.U, hc.U0, hc.r, hc.g, hc.K, hc.stretch, hc.force, hc.stress, hc.statev, hc.dof0, hc.dof1,
      by simp only [h.dof], by simp only [h.dof],
      rfl, hc.loads, hc.f0red, hc.Kred, hc.Kmod, hc.j, hc.dVmax⟩

end

end TrussPy
