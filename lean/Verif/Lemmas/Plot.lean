import Verif.Spec.Plot
import Verif.Lemmas.Run
/-!
# Lemmas on plot data
-/

set_option linter.unusedSectionVars false

namespace TrussPy

variable {F : Type} [Zero F] [One F] [Add F] [Sub F] [Mul F] [Div F] [Neg F] [Flt F]

theorem deformed_points (coords : List (List F)) (U : List F) : DisplacedPoints coords U (deformed coords U) := by
  refine ⟨by simp [deformed], ?_⟩
  intro i row h
  refine ⟨row.zipIdx.map fun q => q.1 + U.getD (3 * i + q.2) 0, ?_, by simp, ?_⟩
  · simp [deformed, h]
  · intro k x u hx hu
    simp [hx, List.getD_eq_getElem?_getD, hu]

theorem mapM_get {α β : Type} {f : α → Py β} : ∀ {l : List α} {r : List β}, l.mapM f = .ok r →
    r.length = l.length ∧ ∀ (k : Nat) (x : α), l[k]? = some x → ∃ y, r[k]? = some y ∧ f x = .ok y := by
  intro l
  induction l with
  | nil => intro r h; cases h; exact ⟨rfl, fun k x hx => by simp at hx⟩
  | cons a l ih =>
    intro r h
    rw [List.mapM_cons] at h
    obtain ⟨b, h1, h⟩ := py_bind_eq_ok.1 h
    obtain ⟨bs, h2, h⟩ := py_bind_eq_ok.1 h
    cases h
    obtain ⟨i1, i2⟩ := ih h2
    refine ⟨by simp [i1], ?_⟩
    intro k x hx
    cases k with
    | zero => cases hx; exact ⟨b, rfl, h1⟩
    | succ k => exact i2 k x hx

/-- What a returning `p_model` has drawn. -/
theorem pModel_ok {m : Model F} {con : Option Contour} {inc : Int} {d : PlotData F} (h : pModel m con inc = .ok d) :
    ∃ nt et ft res r ef lpf con', m.nodes = some nt ∧ m.elems = some et ∧ m.forces = some ft ∧ m.results = some res ∧
      pyGet res.R (if inc < 0 then (res.R.length : Int) + inc else inc) = .ok r ∧ r.extForces = some ef ∧
      ((if inc < 0 then (res.R.length : Int) + inc else inc) = 0 ∧ lpf = 1 ∧ con' = none ∨
        (if inc < 0 then (res.R.length : Int) + inc else inc) ≠ 0 ∧ r.lpf = some lpf ∧ con' = con) ∧
      plotLoads ef.forcesConst lpf (stepSlice ft.forces.rows (r.step - 1)) = .ok d.loads ∧
      d.points = deformed nt.coords.rows r.U ∧ et.conns.rows.mapM (plotSegment d.points) = .ok d.segments ∧
      (con' = none ∧ d.contour = none ∨ ∃ q lim, con' = some q ∧ contourLimits r q = .ok lim ∧
        d.contour = some (contourData r q, lim.1, lim.2)) := by
  unfold pModel at h
  split at h
  case h_2 => cases h
  next nt et ft res h1 h2 h3 h4 =>
  simp only at h
  generalize hi : (if inc < 0 then (res.R.length : Int) + inc else inc) = inc' at h ⊢
  obtain ⟨r, h5, h⟩ := py_bind_eq_ok.1 h
  obtain ⟨⟨lpf, con'⟩, h6, h⟩ := py_bind_eq_ok.1 h
  simp only at h
  obtain ⟨cd, h7, h⟩ := py_bind_eq_ok.1 h
  have h6' : inc' = 0 ∧ lpf = 1 ∧ con' = none ∨ inc' ≠ 0 ∧ r.lpf = some lpf ∧ con' = con := by
    unfold plotFactor at h6
    by_cases h0 : inc' = 0
    · rw [if_pos h0] at h6; cases h6; exact .inl ⟨h0, rfl, rfl⟩
    · rw [if_neg h0] at h6
      split at h6
      · cases h6
      · next l hl => cases h6; exact .inr ⟨h0, hl, rfl⟩
  have h7' : con' = none ∧ cd = none ∨ ∃ q lim, con' = some q ∧ contourLimits r q = .ok lim ∧
        cd = some (contourData r q, lim.1, lim.2) := by
    cases con' with
    | none => cases h7; exact .inl ⟨rfl, rfl⟩
    | some q =>
      obtain ⟨lim, h8, h7⟩ := py_bind_eq_ok.1 h7
      cases h7
      exact .inr ⟨q, lim, rfl, h8, rfl⟩
  split at h
  · cases h
  next ef he =>
  obtain ⟨loads, h8, h⟩ := py_bind_eq_ok.1 h
  obtain ⟨segs, h9, h⟩ := py_bind_eq_ok.1 h
  cases h
  subst hi
  exact ⟨nt, et, ft, res, r, ef, lpf, con', h1, h2, h3, h4, h5, he, h6', h8, rfl, h9, h7'⟩

theorem plotLoads_ok {fc : List F} {lpf : F} {rows loads : List (List F)} (h : plotLoads fc lpf rows = .ok loads) :
    3 * loads.length = fc.length ∧ ∀ (i : Nat) (row : List F), loads[i]? = some row → row.length = 3 ∧ ∀ k, k < 3 →
      ∃ c f, fc[3 * i + k]? = some c ∧ rows.flatten[3 * i + k]? = some f ∧ row[k]? = some (c + lpf * f) := by
  unfold plotLoads at h
  split at h
  case isFalse => cases h
  next hc =>
  cases h
  refine ⟨by simp [hc.2], ?_⟩
  intro i row hi
  simp only [List.getElem?_map, Option.map_eq_some_iff, List.getElem?_zipIdx] at hi
  obtain ⟨_, ⟨r, hr, rfl⟩, rfl⟩ := hi
  have h3 : r.length = 3 := hc.1 r (List.mem_of_getElem? hr)
  have hil : i < rows.length := (List.getElem?_eq_some_iff.1 hr).1
  refine ⟨by simp [h3], ?_⟩
  intro k hk
  refine ⟨fc[3 * i + k]'(by omega), r[k]'(by omega), List.getElem?_eq_getElem _, ?_, ?_⟩
  · rw [flatten_block 3 hc.1 hr hk, List.getElem?_eq_getElem]
  · have hrk : r[k]? = some (r[k]'(by omega)) := List.getElem?_eq_getElem _
    have hfk : fc[3 * i + k]? = some (fc[3 * i + k]'(by omega)) := List.getElem?_eq_getElem _
    simp only [List.getElem?_map, List.getElem?_zipIdx, hrk, Option.map_some, List.getD_eq_getElem?_getD,
      Nat.zero_add, hfk, Option.getD_some]

/-- A resolved increment number. -/
theorem names_inc {n : Nat} {inc : Int} {k : Nat} (h : NamesResult n inc k) :
    (if inc < 0 then (n : Int) + inc else inc) = k := by
  obtain ⟨h1, h2 | h2⟩ := h
  · subst h2; rw [if_neg (by omega)]
  · rw [if_pos (by omega)]; omega

/-! ## Order of file names -/

theorem strLe_refl : ∀ a : List Char, strLe a a = true := by
  intro a
  induction a with
  | nil => rfl
  | cons c a ih =>
    unfold strLe
    rw [if_neg (by exact Nat.lt_irrefl _), if_pos rfl]
    exact ih

theorem strLe_total : ∀ a b : List Char, (strLe a b || strLe b a) = true := by
  intro a
  induction a with
  | nil => intro b; simp [strLe]
  | cons c a ih =>
    intro b
    cases b with
    | nil => simp [strLe]
    | cons d b =>
      simp only [strLe]
      by_cases h1 : c.val < d.val
      · simp [h1]
      · by_cases h2 : d.val < c.val
        · simp [h2]
        · have : c = d := by
            apply Char.ext
            exact UInt32.le_antisymm (UInt32.not_lt.1 h2) (UInt32.not_lt.1 h1)
          subst this
          simpa [UInt32.lt_irrefl] using ih b

theorem strLe_trans : ∀ a b c : List Char, strLe a b = true → strLe b c = true → strLe a c = true := by
  intro a
  induction a with
  | nil => intro b c _ _; rfl
  | cons x a ih =>
    intro b c h1 h2
    cases b with
    | nil => simp [strLe] at h1
    | cons y b =>
      cases c with
      | nil => simp [strLe] at h2
      | cons z c =>
        simp only [strLe] at h1 h2 ⊢
        by_cases hxy : x.val < y.val
        · by_cases hyz : y.val < z.val
          · simp [UInt32.lt_trans hxy hyz]
          · rw [if_neg hyz] at h2
            by_cases e : y = z
            · subst e; simp [hxy]
            · simp [e] at h2
        · rw [if_neg hxy] at h1
          by_cases e : x = y
          · subst e
            rw [if_pos rfl] at h1
            by_cases hyz : x.val < z.val
            · simp [hyz]
            · rw [if_neg hyz] at h2 ⊢
              by_cases e : x = z
              · subst e
                rw [if_pos rfl] at h2 ⊢
                exact ih b c h1 h2
              · simp [e] at h2
          · simp [e] at h1

theorem insertFile_perm {P : Type} (f : List Char × P) (d : Dir P) : (insertFile f d).Perm (f :: d) := by
  induction d with
  | nil => exact .refl _
  | cons g d ih =>
    unfold insertFile
    split
    · exact .refl _
    · exact (List.Perm.cons g ih).trans (.swap f g d)

theorem insertFile_sorted {P : Type} (f : List Char × P) {d : Dir P}
    (h : d.Pairwise fun p q => strLe p.1 q.1 = true) : (insertFile f d).Pairwise fun p q => strLe p.1 q.1 = true := by
  induction d with
  | nil => simp [insertFile]
  | cons g d ih =>
    rw [List.pairwise_cons] at h
    unfold insertFile
    split
    · next hfg =>
      refine List.pairwise_cons.2 ⟨?_, List.pairwise_cons.2 h⟩
      intro e he
      rcases List.mem_cons.1 he with rfl | he
      · exact hfg
      · exact strLe_trans _ _ _ hfg (h.1 e he)
    · next hfg =>
      refine List.pairwise_cons.2 ⟨?_, ih h.2⟩
      intro e he
      rcases List.mem_cons.1 ((insertFile_perm f d).mem_iff.1 he) with rfl | he
      · have := strLe_total e.1 g.1
        simpa [hfg] using this
      · exact h.1 e he

theorem sortFiles_perm {P : Type} (d : Dir P) : (sortFiles d).Perm d := by
  induction d with
  | nil => exact .refl _
  | cons f d ih => exact (insertFile_perm f (sortFiles d)).trans (.cons f ih)

theorem sortFiles_sorted {P : Type} (d : Dir P) : (sortFiles d).Pairwise fun p q => strLe p.1 q.1 = true := by
  induction d with
  | nil => exact .nil
  | cons f d ih => exact insertFile_sorted f ih

/-- The three characters of a number below 1000. -/
theorem padDigits_eq : ∀ n < 1000, padDigits 3 n =
    [Nat.digitChar (n / 100), Nat.digitChar (n / 10 % 10), Nat.digitChar (n % 10)] := by decide +kernel

theorem digitChar_lt : ∀ a < 10, ∀ b < 10, (Nat.digitChar a).val < (Nat.digitChar b).val ↔ a < b := by decide +kernel

theorem digitChar_inj' : ∀ a < 10, ∀ b < 10, Nat.digitChar a = Nat.digitChar b ↔ a = b := by decide +kernel

theorem frameName_le {a b : Nat} (ha : a < 1000) (hb : b < 1000) :
    strLe (frameName a) (frameName b) = true ↔ a ≤ b := by
  have h0 : ∀ x : Nat, x < 1000 → frameName x = ['f', 'i', 'g', '_', Nat.digitChar (x / 100),
      Nat.digitChar (x / 10 % 10), Nat.digitChar (x % 10), '.', 'p', 'n', 'g'] := by
    intro x hx
    have : pad3 (x : Int) = padDigits 3 x := by
      unfold pad3
      rw [if_neg (by omega)]
      rfl
    unfold frameName
    rw [this, padDigits_eq x hx]
    rfl
  rw [h0 a ha, h0 b hb]
  have l1 := digitChar_lt (a / 100) (by omega) (b / 100) (by omega)
  have l2 := digitChar_lt (a / 10 % 10) (by omega) (b / 10 % 10) (by omega)
  have l3 := digitChar_lt (a % 10) (by omega) (b % 10) (by omega)
  have e1 := digitChar_inj' (a / 100) (by omega) (b / 100) (by omega)
  have e2 := digitChar_inj' (a / 10 % 10) (by omega) (b / 10 % 10) (by omega)
  have e3 := digitChar_inj' (a % 10) (by omega) (b % 10) (by omega)
  have hs : ∀ (c : Char) (s t : List Char), strLe (c :: s) (c :: t) = strLe s t := by
    intro c s t
    simp [strLe, UInt32.lt_irrefl]
  simp only [hs]
  simp only [strLe, l1, l2, l3, e1, e2, e3]
  by_cases q1 : a / 100 < b / 100
  · simp [q1]; omega
  · simp only [q1, if_false]
    by_cases q2 : a / 100 = b / 100
    · simp only [q2, if_true]
      by_cases q3 : a / 10 % 10 < b / 10 % 10
      · simp [q3]; omega
      · simp only [q3, if_false]
        by_cases q4 : a / 10 % 10 = b / 10 % 10
        · simp only [q4, if_true]
          by_cases q5 : a % 10 < b % 10
          · simp [q5]; omega
          · simp only [q5, if_false]
            by_cases q6 : a % 10 = b % 10
            · simp [q6]; omega
            · simp [q6]; omega
        · simp [q4]; omega
    · simp [q2]; omega

/-- Frames written so far: one file per requested increment. -/
structure FramesOf {P : Type} (plot : Int → Py P) (incs : List Int) (d : Dir P) : Prop where
  nodup : (d.map (·.1)).Nodup
  source : ∀ e ∈ d, ∃ i ∈ incs, e.1 = frameName i ∧ plot i = .ok e.2
  complete : ∀ i ∈ incs, ∃ e ∈ d, e.1 = frameName i

theorem FramesOf.savefig {P : Type} {plot : Int → Py P} {incs : List Int} {d : Dir P} (h : FramesOf plot incs d)
    {i : Int} {p : P} (hp : plot i = .ok p) : FramesOf plot (incs ++ [i]) (savefig d (frameName i) p) := by
  unfold TrussPy.savefig
  refine ⟨?_, ?_, ?_⟩
  · rw [List.map_append, List.nodup_append]
    refine ⟨h.nodup.sublist (List.Sublist.map _ List.filter_sublist), by simp, ?_⟩
    intro a ha b hb
    simp only [List.map_cons, List.map_nil, List.mem_singleton] at hb
    obtain ⟨e, he, rfl⟩ := List.mem_map.1 ha
    have := (List.mem_filter.1 he).2
    rw [hb]
    simpa using this
  · intro e he
    rcases List.mem_append.1 he with he | he
    · obtain ⟨k, h1, h2⟩ := h.source e (List.mem_filter.1 he).1
      exact ⟨k, List.mem_append_left _ h1, h2⟩
    · simp only [List.mem_singleton] at he
      subst he
      exact ⟨i, by simp, rfl, hp⟩
  · intro k hk
    by_cases e : frameName k = frameName i
    · exact ⟨(frameName i, p), by simp, e.symm⟩
    · rcases List.mem_append.1 hk with hk | hk
      · obtain ⟨f, h1, h2⟩ := h.complete k hk
        refine ⟨f, List.mem_append_left _ (List.mem_filter.2 ⟨h1, ?_⟩), h2⟩
        rw [h2]; simpa using e
      · simp only [List.mem_singleton] at hk
        rw [hk] at e
        exact absurd rfl e

theorem frameLoop_frames {P : Type} {plot : Int → Py P} : ∀ (todo : List Int) {done : List Int} {d d' : Dir P},
    FramesOf plot done d → frameLoop plot todo d = .ok d' → FramesOf plot (done ++ todo) d' := by
  intro todo
  induction todo with
  | nil => intro done d d' h h1; cases h1; simpa using h
  | cons i todo ih =>
    intro done d d' h h1
    obtain ⟨p, h2, h1⟩ := py_bind_eq_ok.1 h1
    have := ih (h.savefig h2) h1
    simpa using this

theorem exists_shown {P : Type} {plot : Int → Py P} {incs : List Int} : ∀ {d : Dir P},
    (∀ e ∈ d, ∃ i ∈ incs, e.1 = frameName i ∧ plot i = .ok e.2) →
    ∃ shown : List Int, (∀ i ∈ shown, i ∈ incs) ∧ shown.map frameName = d.map (·.1) ∧
      List.Forall₂ (fun i p => plot i = .ok p) shown (d.map (·.2)) := by
  intro d
  induction d with
  | nil => intro _; exact ⟨[], by simp, rfl, .nil⟩
  | cons e d ih =>
    intro h
    obtain ⟨shown, h1, h2, h3⟩ := ih fun e he => h e (List.mem_cons_of_mem _ he)
    obtain ⟨i, h4, h5, h6⟩ := h e (List.mem_cons_self ..)
    refine ⟨i :: shown, ?_, ?_, ?_⟩
    · intro k hk
      rcases List.mem_cons.1 hk with rfl | hk
      · exact h4
      · exact h1 k hk
    · rw [List.map_cons, List.map_cons, h2, h5]
    · exact .cons h6 h3

/-- What a returning `p_movie` has assembled: the requested increments in the order of their file names. -/
theorem pMovie_ok {P : Type} {plot : Int → Py P} {disk : OnDisk P} {incs : List Int} {pics : List P}
    (h : pMovie plot disk incs = .ok pics) : ∃ shown : List Int, (∀ i ∈ shown, i ∈ incs) ∧
      (∀ i ∈ incs, frameName i ∈ shown.map frameName) ∧ (shown.map frameName).Nodup ∧
      (shown.map frameName).Pairwise (fun a b => strLe a b = true) ∧
      List.Forall₂ (fun i p => plot i = .ok p) shown pics := by
  unfold pMovie at h
  obtain ⟨d0, h1, h⟩ := py_bind_eq_ok.1 h
  obtain ⟨d, h2, h⟩ := py_bind_eq_ok.1 h
  cases h
  have h0 : d0 = [] := by
    cases disk with
    | absent => cases h1; rfl
    | file => cases h1
    | dir x => cases h1; rfl
  subst h0
  have hF : FramesOf plot ([] ++ incs) d := frameLoop_frames incs ⟨by simp, by simp, by simp⟩ h2
  rw [List.nil_append] at hF
  have hperm := sortFiles_perm d
  have hsort := sortFiles_sorted d
  unfold pngToGif
  generalize sortFiles d = L at hperm hsort
  have hsrc : ∀ e ∈ L, ∃ i ∈ incs, e.1 = frameName i ∧ plot i = .ok e.2 := fun e he => hF.source e (hperm.mem_iff.1 he)
  have hpng : L.filter (fun p => ".png".toList.isSuffixOf p.1) = L := by
    rw [List.filter_eq_self]
    intro e he
    obtain ⟨i, -, h3, -⟩ := hsrc e he
    rw [h3, List.isSuffixOf_iff_suffix]
    exact ⟨"fig_".toList ++ pad3 i, by rw [frameName, List.append_assoc]⟩
  rw [hpng]
  obtain ⟨shown, k1, k2, k3⟩ := exists_shown hsrc
  refine ⟨shown, k1, ?_, ?_, ?_, k3⟩
  · intro i hi
    obtain ⟨e, he, h3⟩ := hF.complete i hi
    rw [k2, ← h3]
    exact List.mem_map_of_mem (hperm.mem_iff.2 he)
  · rw [k2]
    exact (hperm.map _).nodup_iff.2 hF.nodup
  · rw [k2, List.pairwise_map]
    exact hsort

/-! ## History and path -/

theorem quantity_shows {labels : List Int} (hnd : labels.Nodup) {i : Nat} {node : Int} (hi : labels[i]? = some node)
    {Y : String} (hY : Y ∈ nodalQuantities) {r : Analysis F} (hU : 3 * i + 3 ≤ r.U.length) (hr : i < r.r.length)
    {l : F} (hl : r.lpf = some l) (prev : F) : ∃ v, quantity labels node Y.toList r prev = .ok v ∧ Shows r i Y v := by
  have hw : whereEq labels node = [i] := whereEq_of_idx hnd hi
  have hrr : r.r[i]? = some (r.r[i]'hr) := List.getElem?_eq_getElem _
  have hUr : ((List.range (r.U.length / 3)).map (row3 r.U))[i]? = some (row3 r.U i) := by
    rw [List.getElem?_map, List.getElem?_range (by omega)]; rfl
  have hget : ∀ k : Fin 3, r.U[3 * i + k.val]? = some (row3 r.U i k) := by
    intro k
    have := k.isLt
    unfold row3
    rw [List.getD_eq_getElem?_getD, List.getElem?_eq_getElem (by omega), Option.getD_some]
  simp only [nodalQuantities, List.mem_cons, List.not_mem_nil, or_false] at hY
  have hd : ∀ (s : String) (k : Fin 3), hasSub "Displacement".toList s.toList = true → dirIndex s.toList = .ok k →
      quantity labels node s.toList r prev = .ok (row3 r.U i k) := by
    intro s k h1 h2
    unfold quantity
    rw [if_pos h1, hw, npFirst_single hUr, py_bind_ok, h2]
    rfl
  have hf : ∀ (s : String) (k : Fin 3), hasSub "Displacement".toList s.toList = false →
      hasSub "LPF".toList s.toList = false → hasSub "Force".toList s.toList = true → dirIndex s.toList = .ok k →
      quantity labels node s.toList r prev = .ok ((r.r[i]'hr) k) := by
    intro s k h1 h2 h3 h4
    unfold quantity
    rw [if_neg (by rw [h1]; exact Bool.false_ne_true), if_neg (by rw [h2]; exact Bool.false_ne_true), if_pos h3, hw, npFirst_single hrr, py_bind_ok, h4]
    rfl
  rcases hY with rfl | rfl | rfl | rfl | rfl | rfl | rfl
  · exact ⟨_, hd _ 0 (by decide) (by decide), .dispX (hget 0)⟩
  · exact ⟨_, hd _ 1 (by decide) (by decide), .dispY (hget 1)⟩
  · exact ⟨_, hd _ 2 (by decide) (by decide), .dispZ (hget 2)⟩
  · exact ⟨_, hf _ 0 (by decide) (by decide) (by decide) (by decide), .forceX hrr⟩
  · exact ⟨_, hf _ 1 (by decide) (by decide) (by decide) (by decide), .forceY hrr⟩
  · exact ⟨_, hf _ 2 (by decide) (by decide) (by decide) (by decide), .forceZ hrr⟩
  · refine ⟨l, ?_, .lpf hl⟩
    unfold quantity
    rw [if_neg (by decide), if_pos (by decide), hl]
    rfl

theorem histLoop_length {labels : List Int} {n0 n1 : Int} {X Y : List Char} (R : List (Analysis F)) :
    ∀ {x y : F} {ps : List (F × F)}, histLoop labels n0 n1 X Y R x y = .ok ps → ps.length = R.length := by
  induction R with
  | nil => intro x y ps h; cases h; rfl
  | cons r R ih =>
    intro x y ps h
    obtain ⟨x', h1, h⟩ := py_bind_eq_ok.1 h
    obtain ⟨y', h2, h⟩ := py_bind_eq_ok.1 h
    obtain ⟨qs, h3, h⟩ := py_bind_eq_ok.1 h
    cases h
    simp [ih h3]

theorem histLoop_shows {labels : List Int} (hnd : labels.Nodup) {i j : Nat} {n0 n1 : Int}
    (hi : labels[i]? = some n0) (hj : labels[j]? = some n1) {X Y : String} (hX : X ∈ nodalQuantities)
    (hY : Y ∈ nodalQuantities) (R : List (Analysis F)) (hfit : ∀ r ∈ R, r.U.length = 3 * labels.length ∧
      r.r.length = labels.length ∧ ∃ l, r.lpf = some l) : ∀ x y : F, ∃ ps,
      histLoop labels n0 n1 X.toList Y.toList R x y = .ok ps ∧
      ∀ (k : Nat) (r : Analysis F), R[k]? = some r → ∃ p, ps[k]? = some p ∧ Shows r i X p.1 ∧ Shows r j Y p.2 := by
  have hil : i < labels.length := (List.getElem?_eq_some_iff.1 hi).1
  have hjl : j < labels.length := (List.getElem?_eq_some_iff.1 hj).1
  induction R with
  | nil => intro x y; exact ⟨[], rfl, fun k r h => by simp at h⟩
  | cons r R ih =>
    intro x y
    obtain ⟨f1, f2, l, f3⟩ := hfit r (by simp)
    obtain ⟨x', h1, s1⟩ := quantity_shows hnd hi hX (r := r) (by omega) (by omega) f3 x
    obtain ⟨y', h2, s2⟩ := quantity_shows hnd hj hY (r := r) (by omega) (by omega) f3 y
    obtain ⟨ps, h3, h4⟩ := ih (fun r hr => hfit r (by simp [hr])) x' y'
    refine ⟨(x', y') :: ps, ?_, ?_⟩
    · unfold histLoop
      rw [h1, py_bind_ok, h2, py_bind_ok, h3, py_bind_ok]
      rfl
    · intro k q hq
      cases k with
      | zero => cases hq; exact ⟨_, rfl, s1, s2⟩
      | succ k => exact h4 k q hq

theorem pathLoop_length {labels : List Int} {Y : List Char} {r : Analysis F} (ns : List Int) :
    ∀ {y : F} {ys : List F}, pathLoop labels Y r ns y = .ok ys → ys.length = ns.length := by
  induction ns with
  | nil => intro y ys h; cases h; rfl
  | cons n ns ih =>
    intro y ys h
    obtain ⟨x', h1, h⟩ := py_bind_eq_ok.1 h
    obtain ⟨qs, h3, h⟩ := py_bind_eq_ok.1 h
    cases h
    simp [ih h3]

theorem pathLoop_shows {labels : List Int} (hnd : labels.Nodup) {Y : String} (hY : Y ∈ nodalQuantities)
    {r : Analysis F} (hU : r.U.length = 3 * labels.length) (hr : r.r.length = labels.length) {l : F}
    (hl : r.lpf = some l) (ns : List Int) (hns : ∀ n ∈ ns, n ∈ labels) : ∀ y : F, ∃ ys,
      pathLoop labels Y.toList r ns y = .ok ys ∧ ∀ (k : Nat) (n : Int) (i : Nat), ns[k]? = some n →
        labels[i]? = some n → ∃ v, ys[k]? = some v ∧ Shows r i Y v := by
  induction ns with
  | nil => intro y; exact ⟨[], rfl, fun k n i h => by simp at h⟩
  | cons n ns ih =>
    intro y
    obtain ⟨i, hi⟩ := List.getElem?_of_mem (hns n (by simp))
    have hil : i < labels.length := (List.getElem?_eq_some_iff.1 hi).1
    obtain ⟨y', h2, s2⟩ := quantity_shows hnd hi hY (r := r) (by omega) (by omega) hl y
    obtain ⟨ys, h3, h4⟩ := ih (fun r hr => hns r (by simp [hr])) y'
    refine ⟨y' :: ys, ?_, ?_⟩
    · unfold pathLoop
      rw [h2, py_bind_ok, h3, py_bind_ok]
      rfl
    · intro k q j hq hj
      cases k with
      | zero =>
        cases hq
        have : i = j := by
          have h5 := whereEq_of_idx hnd hi
          rw [whereEq_of_idx hnd hj] at h5
          simpa using h5.symm
        subst this
        exact ⟨_, rfl, s2⟩
      | succ k => exact h4 k q j hq hj

/-- Sorting keeps the number of nodes. -/
theorem build_nodes_length {argsort : List Int → List Nat} (has : IsArgsort argsort) {m m1 : Model F}
    (h : m.build argsort = .ok m1) {nt : NodeTab F} (hnt : m1.nodes = some nt) {d : Dims} (hd : m1.dims = some d) :
    nt.labels.length = d.nnodes := by
  obtain ⟨nt0, et, nt', bt, ft, dof0, dof1, hn, he, hdim, hfn, hfb, hff, hcb, hcf, hd0, hd1, hm'⟩ := build_steps h
  subst hm'
  cases hnt
  cases hd
  unfold fixNodes at hfn
  obtain ⟨ls, h1, hfn⟩ := py_bind_eq_ok.1 hfn
  obtain ⟨cs, h2, hfn⟩ := py_bind_eq_ok.1 hfn
  cases hfn
  have := ((npTake_eq_ok_iff _ _ _).1 h1).1
  rw [(has nt0.labels).1.length_eq, List.length_range] at this
  exact this

/-- Sizes of the results of a run. -/
theorem run_sizes {argsort : List Int → List Nat} {env : Env F} {fuel : Nat} {m m1 m2 : Model F}
    (hb : m.build argsort = .ok m1) (hr : m1.run env fuel = .ok m2) {res : Results F} (hres : m2.results = some res) :
    ∃ c d, m1.ctx = some c ∧ m1.dims = some d ∧ c.nnodes = d.nnodes ∧
      ∀ r ∈ res.R, r.Fits c ∧ ∃ l, r.lpf = some l := by
  obtain ⟨c, d, r0, outs, h1, h2, h3, h4, h5, h6, h7, h8, h9, h10, res', h11, h12⟩ := run_summary hb hr
  rw [hres] at h11; cases h11
  refine ⟨c, d, h1, h2, h3, ?_⟩
  have hI : ∀ r ∈ r0 :: (recorded outs).map (·.a), r.Fits c ∧ ∃ l, r.lpf = some l := by
    intro r hr
    obtain ⟨k, hk⟩ := List.getElem?_of_mem hr
    cases k with
    | zero => cases hk; exact ⟨h7.fits, 0, h6.lpf⟩
    | succ k =>
      rw [List.getElem?_cons_succ, List.getElem?_map, Option.map_eq_some_iff] at hk
      obtain ⟨q, hq, rfl⟩ := hk
      have hk : k < (recorded outs).length := (List.getElem?_eq_some_iff.1 hq).1
      have hp : (r0 :: (recorded outs).map (·.a))[k]? =
          some ((r0 :: (recorded outs).map (·.a))[k]'(by simp; omega)) := List.getElem?_eq_getElem _
      have hinc := h8 k _ q hp hq
      refine ⟨hinc.next.fits, ?_⟩
      obtain ⟨sA, sx, -, -, -, ⟨-, -, b, lpf, -, -, ha⟩ | ⟨-, ⟨b, b', g, dV, lpf, -, -, -, ha⟩⟩⟩ := hinc.how
      · exact ⟨lpf, by rw [ha]⟩
      · exact ⟨lpf, by rw [ha]⟩
  intro r hr
  rcases h12 with ⟨-, -, e⟩ | ⟨-, e⟩
  · rw [e] at hr
    simp only [List.mem_cons, List.not_mem_nil, or_false, or_self] at hr
    rw [hr]; exact hI r0 (by simp)
  · rw [e] at hr; exact hI r hr

end TrussPy
