import Verif.Lemmas.OneDof
/-!
# Runs of a structure with one free direction, driven by its displacement
-/

set_option linter.unusedSectionVars false

namespace TrussPy

/-- Internal force in the free direction `q` after the strains `ε 1`, …, `ε t`, at the displacements `W`. -/
noncomputable def barPull (bars : List (Bar ℝ)) (ε : Bar ℝ → Nat → ℝ) (t : Nat) (W : List ℝ) (q : Nat) : ℝ :=
  (bars.map fun bar => bar.sgn (q / 3) * (barStress bar (ε bar) t * bar.geo.getD 0 0 * bar.dir W (comp q))).sum

/-- The analysis object `a` and the load factors `le` after `n` steps and `t` increments. -/
structure AtDrive (c : Ctx ℝ) (bars : List (Bar ℝ)) (a0 : Analysis ℝ) (ε : Bar ℝ → Nat → ℝ) (v : ℝ) (n t : Nat)
    (a : Analysis ℝ) (le : List ℝ) : Prop where
  base : a.Base c
  dof1 : a.DOF1 = a0.DOF1
  Uout : ∀ i, i ∉ a0.DOF1 → a.U[i]? = a0.U[i]?
  Ulen : a.U.length = a0.U.length
  rows : Histories c bars ε t a.statev
  ends : le.length = n
  Ured : a.Ured = [t * v]

section
variable {u : UserInput ℝ} {es : List (Elem ℝ)} {c : Ctx ℝ} {bars : List (Bar ℝ)} {w ns : Nat} {a0 : Analysis ℝ}

theorem drive_step (h : BuiltFor u es ns c bars w a0) {q : Nat} (hq : a0.DOF1 = [q]) {j : Int} (hj : j.natAbs = 1) {env : Env ℝ}
    (hsp : SolvesRegular env.spsolve 2) (hA : ArgMax env) {s : Settings ℝ} {g : ℝ} (hg : 0 < g) (hfix : FixedControl s 1 j g)
    (hN : 3 ≤ s.nfev) {ε : Bar ℝ → Nat → ℝ} {W : Nat → List ℝ}
    (hW : ∀ t : Nat, scatter a0.U a0.DOF1 [t * (g * (j.sign : ℝ))] = .ok (W t))
    (hε : ∀ t, ∀ bar ∈ bars, bar.stretch (W (t + 1)) - 1 = ε bar (t + 1)) {fuel : Nat} (hfuel : 1 ≤ fuel) {n : Nat} (hn : n < ns)
    (hload : stepLoad u n (dofLabel c q) (comp q) ≠ 0) {K : Nat} (hK : 0 < K) {lim : ℝ} {t : Nat} (hlim : ((t + K : Nat) : ℝ) * g ≤ lim)
    {a : Analysis ℝ} {le : List ℝ} (hst : AtDrive c bars a0 ε (g * (j.sign : ℝ)) n t a le) :
    ∃ a1 o lv, setStep (loadRows u c) le n a = .ok a1 ∧
      pathfollow env (modelProblem c) (stepCfg s K (1, lim)) fuel a1.Ured a1 = .ok o ∧ o.recs.length = K ∧
      (∃ r, o.recs.getLast? = some r ∧ r.a.lpf = some lv) ∧
      (∀ (m : Nat) (r : Rec ℝ), o.recs[m]? = some r → r.out = .accepted ∧ Histories c bars ε (t + m + 1) r.a.statev ∧
        ∃ l, r.x = [((t + m + 1 : Nat) : ℝ) * (g * (j.sign : ℝ)), l] ∧ |barPull bars ε (t + m + 1) (W (t + m + 1)) q -
          ((∑ i ∈ Finset.range n, le.getD i 0 * stepLoad u i (dofLabel c q) (comp q)) +
            l * stepLoad u n (dofLabel c q) (comp q))| < (10 : ℝ) ^ (-s.ftol)) ∧
      AtDrive c bars a0 ε (g * (j.sign : ℝ)) (n + 1) (t + K) (resetLpf o.final) (le ++ [lv]) := by
  have hndof : c.ndof1 = 1 := by rw [← h.base.dofs, hq]; rfl
  have hmem : q ∈ a0.DOF1 := by rw [hq]; simp
  obtain ⟨a1, hset, hready⟩ := setStep_total (rows := loadRows u c) (le := le) (k := n) hst.base h.rows h.width
    (by have := h.wide; omega) (by rw [hst.ends])
  obtain ⟨hcarry, -, hlpf1, fc, hfc, hext, hf0r⟩ := setStep_ok hset
  have hfcl : fc.length = 3 * c.nnodes := by rw [constLoad_length hfc, h.flat hn]
  set Bn := refAt u c a0 n fc with hBn
  have hdr : Driven c bars ⟨(stepSlice (loadRows u c) n).flatten, fc⟩ Bn ε t a1 := by
    refine ⟨⟨h.tables, hready.base.fits, h.complete, hready.base.statev, hext, h.flat hn, hfcl, hready.base.dofs⟩, hready, ?_,
      hcarry.dof1.trans hst.dof1, ?_, ?_, by rw [hcarry.statev]; exact hst.rows⟩
    · rw [npTake_eq_map (0 : ℝ) (fun i hi => by rw [h.flat hn]; exact h.laid.dofLt i (by rw [← hst.dof1]; exact hi))] at hf0r
      rw [← Except.ok.inj hf0r, hst.dof1]
      rfl
    · intro i hi
      rw [hcarry.U]
      exact hst.Uout i hi
    · rw [hcarry.U]
      exact hst.Ulen
  have hfl : (stepSlice (loadRows u c) n).flatten.getD q 0 = stepLoad u n (dofLabel c q) (comp q) := h.load hn hmem
  have hcl : fc.getD q 0 = ∑ i ∈ Finset.range n, le.getD i 0 * stepLoad u i (dofLabel c q) (comp q) := by
    rw [constLoad_getD hfc q]
    refine Finset.sum_congr rfl fun i hi => ?_
    rw [h.load (lt_trans (Finset.mem_range.1 hi) hn) hmem]
  have ha1 : a1.Ured = [t * (g * (j.sign : ℝ))] := by rw [hcarry.Ured, hst.Ured]
  have hw := initDxmax_width (x := a1.Ured) (n := 1) (by rw [ha1]; rfl) (du := s.du) (dl := s.dlpf)
  have hdu : s.du = g := by
    have := hfix.width
    rwa [if_pos (by omega)] at this
  obtain ⟨o, o1, o2, o3⟩ := drive_pathfollow (a := Bn) (b := a1) (ef := ⟨(stepSlice (loadRows u c) n).flatten, fc⟩) rfl hndof hq
    (by rw [hfl]; exact hload) hj hsp hA (cfg := stepCfg s K (1, lim)) hfix.fixed hfix.control hfix.plain hfix.overshoot
    (show (0 : ℝ) < (10 : ℝ) ^ (-s.ftol) by positivity) (show (0 : ℝ) < (10 : ℝ) ^ (-s.xtol) by positivity) hN hg hW hε rfl hfuel ha1
    (by
      show (initDxmax (a1.Ured ++ [0]) (.vec [s.du, s.dlpf])).length = _
      rw [hw]
      simp)
    (by
      show (initDxmax (a1.Ured ++ [0]) (.vec [s.du, s.dlpf]))[0]? = _
      rw [hw, ← hdu]
      rfl) hlim hdr
  have o2 : o.recs.length = K := o2
  obtain ⟨r, hr⟩ : ∃ r, o.recs[K - 1]? = some r := ⟨_, List.getElem?_eq_getElem (by omega)⟩
  have hrl : o.recs.getLast? = some r := by rw [List.getLast?_eq_getElem?, o2]; exact hr
  obtain ⟨-, rd, lv, rx, -⟩ := o3 _ r hr
  rw [show t + (K - 1) + 1 = t + K by omega] at rd rx
  obtain ⟨-, -, -, hsn⟩ := C39_snapshots _ _ _ _ _ _ o o1
  obtain ⟨-, s2, s3, -⟩ := hsn (K - 1) r.x r.a (by simp [PFOut.resX, hr]) (by simp [PFOut.resA, hr])
  have hfin : o.final = r.a := by
    rw [pathfollow_final o1]
    obtain ⟨ys, hys⟩ := List.getLast?_eq_some_iff.1 hrl
    rw [hys]
    simp
  refine ⟨a1, o, lv, hset, o1, o2, ⟨r, hrl, by rw [← s3, rx]; rfl⟩, ?_, ?_⟩
  · intro m r' hr'
    obtain ⟨p1, p2, l, p3, p4⟩ := o3 m r' hr'
    have p4 : |_ - (fc.getD q 0 + l * (stepSlice (loadRows u c) n).flatten.getD q 0)| < _ := p4
    rw [hfl, hcl] at p4
    exact ⟨p1, p2.rows, l, p3, p4⟩
  · rw [hfin]
    refine ⟨?_, rd.dof1, fun i hi => rd.U i hi, rd.Ulen, rd.rows, by rw [List.length_append, hst.ends]; rfl, ?_⟩
    · obtain ⟨b1, b2, b3, b4, b5⟩ := rd.ready.base
      exact ⟨⟨b1.U, b1.U0, b1.r, b1.K, b1.Krow, b1.stretch, b1.force, b1.stress, b1.statev, b1.dof, b1.dofNodup⟩, b2, b3, rfl, b5⟩
    · show r.a.Ured = _
      rw [s2, rx]
      rfl

theorem BuiltFor.drive (h : BuiltFor u es ns c bars w a0) {q : Nat} (hq : a0.DOF1 = [q]) (ε : Bar ℝ → Nat → ℝ) (v : ℝ) :
    AtDrive c bars a0 ε v 0 0 a0 [] where
  base := h.base
  dof1 := rfl
  Uout _ _ := rfl
  Ulen := rfl
  rows := by
    intro k bar hk hl
    obtain ⟨m, rest, more, more', y, y', p, h1, h2, h3, h4, -, -, h7⟩ := h.unyielded k bar hk hl
    have h3 := Option.some.inj h3
    simp only [List.cons.injEq] at h3
    obtain ⟨rfl, rfl, -⟩ := h3
    refine ⟨m, rest, y', more', h1, h2, h4, ?_⟩
    rw [← h7, if_pos rfl]
    rfl
  ends := rfl
  Ured := by rw [h.Ured, hq]; simp

/-- The run up to the end of `n` steps. -/
theorem drive_steps (h : BuiltFor u es ns c bars w a0) {q : Nat} (hq : a0.DOF1 = [q]) {j : Int} (hj : j.natAbs = 1) {env : Env ℝ}
    (hsp : SolvesRegular env.spsolve 2) (hA : ArgMax env) {s : Settings ℝ} {g : ℝ} (hg : 0 < g) (hfix : FixedControl s 1 j g)
    (hN : 3 ≤ s.nfev) {ε : Bar ℝ → Nat → ℝ} {W : Nat → List ℝ}
    (hW : ∀ t : Nat, scatter a0.U a0.DOF1 [t * (g * (j.sign : ℝ))] = .ok (W t))
    (hε : ∀ t, ∀ bar ∈ bars, bar.stretch (W (t + 1)) - 1 = ε bar (t + 1)) {fuel : Nat} (hfuel : 1 ≤ fuel)
    (hload : ∀ n < ns, stepLoad u n (dofLabel c q) (comp q) ≠ 0) {K : Nat → Nat} {lim : Nat → ℝ}
    (hK : ∀ k < ns, 0 < K k ∧ s.incs.ofStep k = some (K k) ∧ s.xlimit.ofStep k = some (1, lim k) ∧
      ((∑ m ∈ Finset.range (k + 1), K m : Nat) : ℝ) * g ≤ lim k) {r0 : Analysis ℝ} (hr0 : r0.lpf = some 0) :
    ∀ n, n ≤ ns → ∃ outs a R le, Steps env fuel c s (loadRows u c) a0 ⟨[r0, r0], []⟩ outs a ⟨R, le⟩ ∧ outs.length = n ∧
      AtDrive c bars a0 ε (g * (j.sign : ℝ)) n (∑ m ∈ Finset.range n, K m) a le ∧
      ∀ (k : Nat) (o : PFOut ℝ), outs[k]? = some o → o.recs.length = K k ∧
        (∃ r, o.recs.getLast? = some r ∧ r.a.lpf = some (le.getD k 0)) ∧
        ∀ (m : Nat) (r : Rec ℝ), o.recs[m]? = some r → r.out = .accepted ∧
          Histories c bars ε (∑ i ∈ Finset.range k, K i + m + 1) r.a.statev ∧
          ∃ l, r.a.lpf = some l ∧ r.x = [((∑ i ∈ Finset.range k, K i + m + 1 : Nat) : ℝ) * (g * (j.sign : ℝ)), l] ∧
            |barPull bars ε (∑ i ∈ Finset.range k, K i + m + 1) (W (∑ i ∈ Finset.range k, K i + m + 1)) q -
              ((∑ i ∈ Finset.range k, le.getD i 0 * stepLoad u i (dofLabel c q) (comp q)) +
                l * stepLoad u k (dofLabel c q) (comp q))| < (10 : ℝ) ^ (-s.ftol) := by
  intro n
  induction n with
  | zero =>
    intro _
    exact ⟨[], a0, [r0, r0], [], .nil, rfl, h.drive hq ε _, fun k o hk => by simp at hk⟩
  | succ n ih =>
    intro hn
    obtain ⟨outs, a, R, le, s1, s2, s3, s4⟩ := ih (by omega)
    obtain ⟨a1, a2, a3, a4⟩ := hK n (by omega)
    obtain ⟨b, o, lv, o1, o2, o3, ⟨r, o4, o5⟩, o6, o7⟩ := drive_step h hq hj hsp hA hg hfix hN hW hε hfuel (n := n) (by omega)
      (hload n (by omega)) a1 (lim := lim n) (by rw [← Finset.sum_range_succ]; exact a4) s3
    obtain ⟨-, -, -, hsn⟩ := C39_snapshots _ _ _ _ _ _ o o2
    have hRne : R ≠ [] := by
      intro he
      have := s1.lpfSome (by simp [lpfOf, hr0])
      rw [he] at this
      simp [lpfOf] at this
    obtain ⟨R1, lv', z1, z2⟩ := endStep_fewer (as := o.recs.map (·.a)) (R := R) hRne (s1.lpfSome (by simp [lpfOf, hr0])) (by
      intro b hb
      obtain ⟨r, hr, rfl⟩ := List.mem_map.1 hb
      obtain ⟨i, hir⟩ := List.getElem?_of_mem hr
      obtain ⟨-, -, -, s4⟩ := hsn i r.x r.a (by simp [PFOut.resX, hir]) (by simp [PFOut.resA, hir])
      exact Option.isSome_iff_ne_none.2 s4)
    have hlv : lv' = lv := by
      have := lastLpf_recorded z1 z2 o4
      rw [o5] at this
      exact (Option.some.inj this).symm
    subst hlv
    have hsum : ∀ k, k ≤ n → ∑ i ∈ Finset.range k, (le ++ [lv']).getD i 0 * stepLoad u i (dofLabel c q) (comp q) =
        ∑ i ∈ Finset.range k, le.getD i 0 * stepLoad u i (dofLabel c q) (comp q) := by
      intro k hk
      refine Finset.sum_congr rfl fun i hi => ?_
      rw [getD_snoc_left (by rw [s3.ends]; exact lt_of_lt_of_le (Finset.mem_range.1 hi) hk)]
    refine ⟨outs ++ [o], resetLpf o.final, R1, le ++ [lv'], ?_, by simp [s2], by rw [Finset.sum_range_succ]; exact o7, ?_⟩
    · exact .snoc s1 (incs := K n) (xl := (1, lim n)) (stepIncs_iff.2 (by rw [s2]; exact a2)) (stepXlimit_iff.2 (by rw [s2]; exact a3))
        (by rw [s2]; exact o1) o2 z1 z2
    · intro k o' hk
      rcases Nat.lt_trichotomy k outs.length with hlt' | heq | hgt
      · rw [List.getElem?_append_left hlt'] at hk
        obtain ⟨t1, ⟨r', t2, t3⟩, t4⟩ := s4 k o' hk
        refine ⟨t1, ⟨r', t2, by rw [getD_snoc_left (by rw [s3.ends, ← s2]; exact hlt')]; exact t3⟩, ?_⟩
        rw [hsum k (by omega)]
        exact t4
      · rw [heq, List.getElem?_concat_length] at hk
        cases hk
        rw [heq, s2]
        refine ⟨o3, ⟨r, o4, by rw [getD_snoc_last s3.ends]; exact o5⟩, fun m r' hr' => ?_⟩
        obtain ⟨p1, p0, l, p2, p3⟩ := o6 m r' hr'
        obtain ⟨-, -, v3, -⟩ := hsn m r'.x r'.a (by simp [PFOut.resX, hr']) (by simp [PFOut.resA, hr'])
        rw [hsum n le_rfl]
        exact ⟨p1, p0, l, by rw [← v3, p2]; rfl, p2, p3⟩
      · rw [List.getElem?_eq_none (by simp; omega)] at hk
        cases hk

/-! ## In terms of the calls made by the user -/

theorem driven_allowed {p : Int × Fin 3} (hP : FreeList u [p]) (s : ℝ) : AllowedVelocity u (driven p s) := by
  intro n hn d hd
  unfold driven
  rw [if_neg]
  rintro ⟨h1, h2⟩
  have := ((hP.mem p).1 (by simp)).2
  rw [← h1, ← h2] at this
  exact hd this

theorem BarOf.historyStress {e : Elem ℝ} {nA nE : Node ℝ} {b : Bar ℝ}
    (hbo : BarOf c.nodes.labels e nA nE b) (ε : Nat → ℝ) (t : Nat) : barStress b ε t = elementStress e ε t := by
  unfold barStress elementStress
  rw [hbo.mat]
  rcases hbo.law with ⟨h1, h2⟩ | ⟨h1, h2⟩
  · rw [if_neg (by rw [h2]; simp), if_neg (by rw [h1]; decide)]
  · rw [if_pos h2, if_pos h1]

theorem Laid.barPull (h : Laid u es c bars dofs) {U : Nat → Int → V3 ℝ} {W : Nat → List ℝ}
    (hU : ∀ (t i : Nat) (lab : Int), c.nodes.labels[i]? = some lab → ∀ e, row3 (W t) i e = U t lab e) (t : Nat) {q : Nat}
    (hq : q ∈ dofs) :
    barPull bars (fun b t => b.stretch (W t) - 1) t (W t) q =
      stressPull u es (U t) (fun e => elementStress e (fun t => elementStrain u (U t) e) t) (TrussPy.dofLabel c q) (comp q) := by
  have hi := h.dofLabel hq
  have hpos : ∀ {i' : Nat} {l' : Int}, c.nodes.labels[i']? = some l' → (q / 3 = i' ↔ TrussPy.dofLabel c q = l') := by
    intro i' l' hi'
    constructor
    · rintro rfl
      rw [hi] at hi'
      exact Option.some.inj hi'
    · rintro rfl
      obtain ⟨h1, h2⟩ := List.getElem?_eq_some_iff.1 hi
      obtain ⟨h3, h4⟩ := List.getElem?_eq_some_iff.1 hi'
      exact h.labelsNodup.getElem_inj_iff.1 (h2.trans h4.symm)
  unfold TrussPy.barPull stressPull
  refine (forall₂_map_sum h.meant ?_).symm
  rintro e b - ⟨nA, hA, nE, hE, hbo⟩
  have hs : (fun t => elementStrain u (U t) e) = fun t => b.stretch (W t) - 1 := by
    funext s
    unfold elementStrain Bar.stretch
    rw [hbo.conn, h.axis (hU s) hA hE hbo, h.ref hA hE hbo]
  simp only
  rw [hs, hbo.conn, hbo.historyStress]
  simp only
  unfold Bar.sgn Bar.dir
  rw [h.axis (hU t) hA hE hbo, hbo.geo]
  have e2 : e.gprop.vals.headD 0 = e.gprop.vals.getD 0 0 := by cases e.gprop.vals <;> rfl
  rw [e2]
  simp only [hpos hbo.posA, hpos hbo.posE]

theorem Laid.remembers (h : Laid u es c bars dofs) {U : Nat → Int → V3 ℝ} {W : Nat → List ℝ}
    (hU : ∀ (t i : Nat) (lab : Int), c.nodes.labels[i]? = some lab → ∀ e, row3 (W t) i e = U t lab e) {t : Nat}
    {sv : Option (List (List ℝ))} (hh : Histories c bars (fun b t => b.stretch (W t) - 1) t sv) :
    Remembers es (fun e t => elementStrain u (U t) e) t sv := by
  intro k e hk hm
  obtain ⟨hke, hke'⟩ := List.getElem?_eq_some_iff.1 hk
  have hkl : k < bars.length := by rw [← h.meant.length_eq]; exact hke
  obtain ⟨nA, hA, nE, hE, hbo⟩ := h.meant.get hke hkl
  simp only [List.get_eq_getElem, hke'] at hbo
  have hlaw : bars[k].law = .elplast := by
    rcases hbo.law with ⟨h1, -⟩ | ⟨-, h2⟩
    · omega
    · exact h2
  obtain ⟨m, rest, y, more, -, h2, h3, h4⟩ := hh k bars[k] (List.getElem?_eq_getElem hkl) hlaw
  have hs : (fun t => elementStrain u (U t) e) = fun t => bars[k].stretch (W t) - 1 := by
    funext s
    unfold elementStrain Bar.stretch
    rw [hbo.conn, h.axis (hU s) hA hE hbo, h.ref hA hE hbo]
  have hmm : (⟨e.mprop.vals.headD 0, e.mprop.vals.getD 1 0, e.mprop.vals.getD 2 0⟩ : Spec.Plastic) = m := by
    rw [← hbo.mat, h2]
    rfl
  refine ⟨y, (hardened m (fun t => bars[k].stretch (W t) - 1) t).2, more, ?_, ?_⟩
  · unfold stateRow at h3
    split at h3
    · exact h3
    · cases h3
  · simp only
    rw [hs, hmm, ← hbo.mat, h2]
    show (if y = 0 then m.Sy else y, _) = _
    rw [h4]

/-- The table of displacements with the free one set to `s`. -/
theorem Laid.driven {q : Nat} (h : Laid u es c bars [q]) {p : Int × Fin 3} (hP : FreeList u [p]) {s : ℝ} {W : List ℝ}
    (hW : TrussPy.scatter (List.replicate (3 * c.nnodes) 0) [q] [s] = .ok W) {i : Nat} {lab : Int}
    (hi : c.nodes.labels[i]? = some lab) (e : Fin 3) : row3 W i e = TrussPy.driven p s lab e := by
  refine h.scatter (l := 0) (driven_allowed hP s) ?_ hi e
  have hp := h.freeList hP
  simp only [List.map_cons, List.map_nil, List.cons.injEq, and_true] at hp
  have : (List.ofFn fun i : Fin [q].length => fieldVec c [q] (TrussPy.driven p s) 0 i.castSucc) = [s] := by
    simp [fieldVec, hp, TrussPy.driven]
  rw [this]
  exact hW

end

end TrussPy
