import Verif.Heap
/-!
# Lemmas on memory: what a statement leaves alone
-/

namespace TrussPy

variable {F : Type}

/-- The view shows existing positions. -/
def Heap.Valid (h : Heap F) (v : View) : Prop := ∃ b, h.bufs[v.buf]? = some b ∧ ∀ i ∈ v.idx, i < b.length

/-- Object `o` has an attribute in buffer `b`. -/
def Heap.Uses (h : Heap F) (o b : Nat) : Prop := ∃ as n v, h.objs[o]? = some as ∧ (n, AttrVal.arr v) ∈ as ∧ v.buf = b

/-- Object `o` and its arrays are the same in both memories. -/
structure Heap.Same (h h' : Heap F) (o : Nat) : Prop where
  obj : h'.objs[o]? = h.objs[o]?
  bufs : ∀ b, h.Uses o b → h'.bufs[b]? = h.bufs[b]?

theorem Heap.Same.refl (h : Heap F) (o : Nat) : h.Same h o := ⟨rfl, fun _ _ => rfl⟩

theorem Heap.Same.uses {h h' : Heap F} {o b : Nat} (hs : h.Same h' o) : h'.Uses o b ↔ h.Uses o b := by
  unfold Heap.Uses
  rw [hs.obj]

theorem Heap.Same.trans {h h' h'' : Heap F} {o : Nat} (h1 : h.Same h' o) (h2 : h'.Same h'' o) : h.Same h'' o :=
  ⟨h2.obj.trans h1.obj, fun b hb => (h2.bufs b (h1.uses.2 hb)).trans (h1.bufs b hb)⟩

theorem Heap.Same.observe {h h' : Heap F} {o : Nat} (hs : h.Same h' o) : h'.observe o = h.observe o := by
  unfold Heap.observe
  rw [hs.obj]
  cases ho : h.objs[o]? with
  | none => rfl
  | some as =>
    simp only [Option.map_some]
    congr 1
    apply List.map_congr_left
    intro p hp
    obtain ⟨n, x⟩ := p
    cases x with
    | val x => rfl
    | arr v =>
      simp only [Heap.read]
      rw [hs.bufs v.buf ⟨as, n, v, ho, hp, rfl⟩]

/-- Memory only grows: old objects and buffers stay. -/
structure Heap.Grows (h h' : Heap F) : Prop where
  objs : ∀ o, o < h.objs.length → h'.objs[o]? = h.objs[o]?
  bufs : ∀ b, b < h.bufs.length → h'.bufs[b]? = h.bufs[b]?
  olen : h.objs.length ≤ h'.objs.length
  blen : h.bufs.length ≤ h'.bufs.length

theorem Heap.Grows.refl (h : Heap F) : h.Grows h := ⟨fun _ _ => rfl, fun _ _ => rfl, Nat.le_refl _, Nat.le_refl _⟩

theorem Heap.Grows.trans {h h' h'' : Heap F} (h1 : h.Grows h') (h2 : h'.Grows h'') : h.Grows h'' where
  objs o ho := (h2.objs o (Nat.lt_of_lt_of_le ho h1.olen)).trans (h1.objs o ho)
  bufs o ho := (h2.bufs o (Nat.lt_of_lt_of_le ho h1.blen)).trans (h1.bufs o ho)
  olen := Nat.le_trans h1.olen h2.olen
  blen := Nat.le_trans h1.blen h2.blen

/-- All views of all objects show existing positions. -/
def Heap.WF (h : Heap F) : Prop := ∀ (o : Nat) (as : Attrs F), h.objs[o]? = some as →
  ∀ (n : String) (v : View), (n, AttrVal.arr v) ∈ as → h.Valid v

theorem Heap.Valid.lt {h : Heap F} {v : View} (hv : h.Valid v) : v.buf < h.bufs.length := by
  obtain ⟨b, hb, -⟩ := hv
  exact (List.getElem?_eq_some_iff.1 hb).1

theorem Heap.Uses.lt {h : Heap F} (hw : h.WF) {o b : Nat} (hu : h.Uses o b) : b < h.bufs.length ∧ o < h.objs.length := by
  obtain ⟨as, n, v, h1, h2, rfl⟩ := hu
  exact ⟨(hw o as h1 n v h2).lt, (List.getElem?_eq_some_iff.1 h1).1⟩

theorem Heap.Grows.valid {h h' : Heap F} (hg : h.Grows h') {v : View} (hv : h.Valid v) : h'.Valid v := by
  obtain ⟨b, hb, hi⟩ := hv
  exact ⟨b, by rw [hg.bufs _ (List.getElem?_eq_some_iff.1 hb).1]; exact hb, hi⟩

theorem Heap.Grows.same {h h' : Heap F} (hg : h.Grows h') (hw : h.WF) {o : Nat} (ho : o < h.objs.length) : h.Same h' o :=
  ⟨hg.objs o ho, fun b hb => hg.bufs b (hb.lt hw).1⟩

theorem alloc_grows (h : Heap F) (data : List F) : h.Grows (h.alloc data).1 := by
  refine ⟨fun _ _ => rfl, ?_, Nat.le_refl _, by simp [Heap.alloc]⟩
  intro b hb
  simp [Heap.alloc, List.getElem?_append_left hb]

theorem alloc_valid (h : Heap F) (data : List F) : (h.alloc data).1.Valid (h.alloc data).2 := by
  refine ⟨data, by simp [Heap.alloc], ?_⟩
  intro i hi
  simpa [Heap.alloc] using hi

theorem alloc_read (h : Heap F) (data : List F) : (h.alloc data).1.read (h.alloc data).2 = data.map some := by
  simp only [Heap.read, Heap.alloc]
  rw [List.getElem?_append_right (Nat.le_refl _), Nat.sub_self]
  apply List.ext_getElem?
  intro i
  simp only [List.getElem?_map, List.getElem?_cons_zero, Option.bind_some]
  by_cases hi : i < data.length
  · rw [List.getElem?_range hi]
    simp [hi]
  · rw [List.getElem?_eq_none (by simpa using hi), List.getElem?_eq_none (by simpa using hi)]
    rfl

theorem read_valid {h : Heap F} {v : View} (hv : h.Valid v) : ((h.read v).filterMap id).map some = h.read v := by
  obtain ⟨b, hb, hi⟩ := hv
  unfold Heap.read
  rw [hb]
  simp only [Option.bind_some]
  generalize v.idx = idx at hi
  induction idx with
  | nil => rfl
  | cons i idx ih =>
    have hib : i < b.length := hi i (List.mem_cons_self ..)
    rw [List.map_cons, List.getElem?_eq_getElem hib, List.filterMap_cons_some (by rfl), List.map_cons,
      ih fun k hk => hi k (List.mem_cons_of_mem _ hk)]

theorem Heap.Grows.read {h h' : Heap F} (hg : h.Grows h') {v : View} (hv : h.Valid v) : h'.read v = h.read v := by
  unfold Heap.read
  rw [hg.bufs _ hv.lt]

/-- A deep copy: memory grows, the arrays of the copy are new, and it shows the same. -/
theorem copyAttrs_spec (as : Attrs F) : ∀ (h : Heap F), (∀ n v, (n, AttrVal.arr v) ∈ as → h.Valid v) →
    h.Grows (h.copyAttrs as).1 ∧ (h.copyAttrs as).1.objs = h.objs ∧
    (∀ n v, (n, AttrVal.arr v) ∈ (h.copyAttrs as).2 → (h.copyAttrs as).1.Valid v ∧ h.bufs.length ≤ v.buf) ∧
    ((h.copyAttrs as).2.map fun p => (p.1, match p.2 with
      | .arr v => (Sum.inl ((h.copyAttrs as).1.read v) : List (Option F) ⊕ Option F)
      | .val x => Sum.inr x)) = as.map fun p => (p.1, match p.2 with
      | .arr v => .inl (h.read v)
      | .val x => .inr x) := by
  induction as with
  | nil => intro h _; exact ⟨.refl h, rfl, fun n v hv => by simp [Heap.copyAttrs] at hv, rfl⟩
  | cons a as ih =>
    intro h hv
    obtain ⟨n, x⟩ := a
    cases x with
    | val x =>
      obtain ⟨i1, i2, i3, i4⟩ := ih h fun n v hm => hv n v (List.mem_cons_of_mem _ hm)
      refine ⟨i1, i2, ?_, ?_⟩
      · intro m v hm
        simp only [Heap.copyAttrs, List.mem_cons] at hm
        rcases hm with hm | hm
        · cases hm
        · exact i3 m v hm
      · simp only [Heap.copyAttrs, List.map_cons]
        rw [i4]
    | arr v =>
      have hval := hv n v (List.mem_cons_self ..)
      have hg := alloc_grows h ((h.read v).filterMap id)
      have hva := alloc_valid h ((h.read v).filterMap id)
      have hra := alloc_read h ((h.read v).filterMap id)
      have hvb : (h.alloc ((h.read v).filterMap id)).2.buf = h.bufs.length := rfl
      have hob : (h.alloc ((h.read v).filterMap id)).1.objs = h.objs := rfl
      simp only [Heap.copyAttrs]
      generalize hal : h.alloc ((h.read v).filterMap id) = al at hg hva hra hvb hob
      obtain ⟨i1, i2, i3, i4⟩ := ih al.1 fun m w hm => hg.valid (hv m w (List.mem_cons_of_mem _ hm))
      refine ⟨hg.trans i1, by rw [i2, hob], ?_, ?_⟩
      · intro m w hm
        rcases List.mem_cons.1 hm with hm | hm
        · cases hm
          exact ⟨i1.valid hva, Nat.le_of_eq hvb.symm⟩
        · obtain ⟨k1, k2⟩ := i3 m w hm
          exact ⟨k1, Nat.le_trans hg.blen k2⟩
      · rw [List.map_cons, List.map_cons, i4]
        congr 1
        · simp only [Prod.mk.injEq, true_and, Sum.inl.injEq]
          rw [i1.read hva, hra, read_valid hval]
        · apply List.map_congr_left
          intro p hp
          obtain ⟨m, y⟩ := p
          cases y with
          | val y => rfl
          | arr w =>
            simp only
            rw [hg.read (hv m w (List.mem_cons_of_mem _ hp))]

theorem deepcopy_spec {h : Heap F} (hw : h.WF) {o : Nat} (ho : o < h.objs.length) :
    h.Grows (h.deepcopy o).1 ∧ (h.deepcopy o).1.WF ∧ (h.deepcopy o).2 = h.objs.length ∧
    (h.deepcopy o).1.objs.length = h.objs.length + 1 ∧
    (∀ b, (h.deepcopy o).1.Uses (h.deepcopy o).2 b → h.bufs.length ≤ b) ∧
    (h.deepcopy o).1.observe (h.deepcopy o).2 = h.observe o := by
  obtain ⟨as, has⟩ : ∃ as, h.objs[o]? = some as := ⟨_, List.getElem?_eq_getElem ho⟩
  obtain ⟨i1, i2, i3, i4⟩ := copyAttrs_spec as h (hw o as has)
  have he : h.deepcopy o = ({ (h.copyAttrs as).1 with objs := (h.copyAttrs as).1.objs ++ [(h.copyAttrs as).2] },
      (h.copyAttrs as).1.objs.length) := by
    simp [Heap.deepcopy, has]
  rw [he]
  simp only
  generalize (h.copyAttrs as).2 = cs at i3 i4
  generalize (h.copyAttrs as).1 = h1 at i1 i2 i3 i4
  have hnew : ({ h1 with objs := h1.objs ++ [cs] } : Heap F).objs[h1.objs.length]? = some cs := by simp
  have hold : ∀ k, k < h1.objs.length → ({ h1 with objs := h1.objs ++ [cs] } : Heap F).objs[k]? = h1.objs[k]? := by
    intro k hk
    simp [List.getElem?_append_left hk]
  have hgr : h1.Grows { h1 with objs := h1.objs ++ [cs] } :=
    ⟨fun k hk => hold k hk, fun _ _ => rfl, by simp, Nat.le_refl _⟩
  refine ⟨i1.trans hgr, ?_, by rw [i2], by simp [i2], ?_, ?_⟩
  · intro k bs hk n v hv
    by_cases hlt : k < h1.objs.length
    · rw [hold k hlt, i2] at hk
      exact hgr.valid (i1.valid (hw k bs hk n v hv))
    · have : k = h1.objs.length := by
        have := (List.getElem?_eq_some_iff.1 hk).1
        simp at this
        omega
      subst this
      rw [hnew] at hk
      cases hk
      exact hgr.valid (i3 n v hv).1
  · rintro b ⟨bs, n, v, h3, h4, rfl⟩
    rw [hnew] at h3
    cases h3
    exact (i3 n v h4).2
  · unfold Heap.observe
    rw [hnew, has]
    simp only [Option.map_some]
    exact congrArg some i4

theorem mem_setAttr {name : String} {x : AttrVal F} : ∀ {as : Attrs F} {p : String × AttrVal F}, p ∈ setAttr name x as →
    p = (name, x) ∨ p ∈ as := by
  intro as
  induction as with
  | nil => intro p hp; simpa [setAttr] using hp
  | cons a as ih =>
    obtain ⟨n, y⟩ := a
    intro p hp
    unfold setAttr at hp
    split at hp
    · next h =>
      rcases List.mem_cons.1 hp with hp | hp
      · left; rw [hp, h]
      · right; exact List.mem_cons_of_mem _ hp
    · rcases List.mem_cons.1 hp with hp | hp
      · right; rw [hp]; exact List.mem_cons_self ..
      · rcases ih hp with hp | hp
        · exact .inl hp
        · exact .inr (List.mem_cons_of_mem _ hp)

theorem bind_objs (h : Heap F) (o : Nat) (name : String) (x : AttrVal F) (k : Nat) :
    (h.bind o name x).objs[k]? = if k = o then h.objs[k]?.map (setAttr name x) else h.objs[k]? := by
  unfold Heap.bind
  simp only [List.getElem?_modify]
  by_cases hk : k = o
  · subst hk; simp
  · simp [if_neg hk, if_neg (fun h : o = k => hk h.symm)]

theorem bind_wf {h : Heap F} (hw : h.WF) {o : Nat} {name : String} {x : AttrVal F}
    (hx : ∀ v, x = .arr v → h.Valid v) : (h.bind o name x).WF := by
  intro k as hk n v hv
  show h.Valid v
  rw [bind_objs] at hk
  by_cases hko : k = o
  · rw [if_pos hko] at hk
    obtain ⟨bs, hb, rfl⟩ := Option.map_eq_some_iff.1 hk
    rcases mem_setAttr hv with hv | hv
    · cases hv; exact hx v rfl
    · exact hw k bs hb n v hv
  · rw [if_neg hko] at hk
    exact hw k as hk n v hv

theorem bind_same {h : Heap F} {o : Nat} {name : String} {x : AttrVal F} {k : Nat} (hk : k ≠ o) :
    h.Same (h.bind o name x) k :=
  ⟨by rw [bind_objs, if_neg hk], fun _ _ => rfl⟩

theorem bind_uses {h : Heap F} {o : Nat} {name : String} {x : AttrVal F} {k b : Nat}
    (hu : (h.bind o name x).Uses k b) : h.Uses k b ∨ (k = o ∧ ∃ v, x = .arr v ∧ v.buf = b) := by
  obtain ⟨as, n, v, h1, h2, h3⟩ := hu
  rw [bind_objs] at h1
  by_cases hko : k = o
  · rw [if_pos hko] at h1
    obtain ⟨bs, hb, rfl⟩ := Option.map_eq_some_iff.1 h1
    rcases mem_setAttr h2 with h2 | h2
    · cases h2; exact .inr ⟨hko, v, rfl, h3⟩
    · exact .inl ⟨bs, n, v, hb, h2, h3⟩
  · rw [if_neg hko] at h1
    exact .inl ⟨as, n, v, h1, h2, h3⟩

theorem write_bufs (h : Heap F) (v : View) (i : Nat) (x : F) (b : Nat) (hb : b ≠ v.buf) :
    (h.write v i x).bufs[b]? = h.bufs[b]? := by
  unfold Heap.write
  split
  · rfl
  · simp only [List.getElem?_modify]
    simp [if_neg (fun h : v.buf = b => hb h.symm)]

theorem write_objs (h : Heap F) (v : View) (i : Nat) (x : F) : (h.write v i x).objs = h.objs := by
  unfold Heap.write
  split <;> rfl

theorem write_valid {h : Heap F} {v : View} {i : Nat} {x : F} {w : View} (hw : h.Valid w) : (h.write v i x).Valid w := by
  unfold Heap.write
  split
  · exact hw
  · next k hk =>
    obtain ⟨b, hb, hi⟩ := hw
    by_cases he : w.buf = v.buf
    · refine ⟨b.set k x, ?_, fun j hj => by rw [List.length_set]; exact hi j hj⟩
      simp only [List.getElem?_modify, he, if_true]
      rw [← he, hb]; rfl
    · refine ⟨b, ?_, hi⟩
      simp only [List.getElem?_modify]
      simp [if_neg (fun h : v.buf = w.buf => he h.symm), hb]

theorem write_same {h : Heap F} {v : View} {i : Nat} {x : F} {o : Nat} (hu : ¬ h.Uses o v.buf) :
    h.Same (h.write v i x) o :=
  ⟨by rw [write_objs], fun b hb => write_bufs h v i x b fun he => hu (he ▸ hb)⟩

theorem write_wf {h : Heap F} (hw : h.WF) {v : View} {i : Nat} {x : F} : (h.write v i x).WF := by
  intro o as ho n w hm
  rw [write_objs] at ho
  exact write_valid (hw o as ho n w hm)

/-! ## Isolation of the results -/

/-- An object of the result list or of `res_a`. -/
def HState.Held (s : HState F) (o : Nat) : Prop := o ∈ s.R ∨ o ∈ s.resA

/-- Held objects are not the live one, and share no buffer with it or with a local name. -/
structure Isolated (s : HState F) : Prop where
  wf : s.heap.WF
  loc : ∀ v ∈ s.locals, s.heap.Valid v
  live : s.live < s.heap.objs.length
  held : ∀ o, s.Held o → o < s.heap.objs.length ∧ o ≠ s.live
  sep : ∀ o, s.Held o → ∀ b, s.heap.Uses o b → ¬ s.heap.Uses s.live b ∧ ∀ v ∈ s.locals, v.buf ≠ b

/-- The last result object occurs only once. -/
def LastNew (s : HState F) : Prop := ∀ l, s.R.getLast? = some l → l ∉ s.R.dropLast

theorem Heap.Grows.bind {h h' : Heap F} (hg : h.Grows h') {o : Nat} (ho : h.objs.length ≤ o) (n : String) (x : AttrVal F) :
    h.Grows (h'.bind o n x) where
  objs k hk := by rw [bind_objs, if_neg (by omega)]; exact hg.objs k hk
  bufs := hg.bufs
  olen := by simpa [Heap.bind] using hg.olen
  blen := hg.blen

theorem Isolated.grow {s : HState F} (hs : Isolated s) {h' : Heap F} (hg : s.heap.Grows h') (hw : h'.WF) {R resA : List Nat}
    (hn : ∀ o, o ∈ R ∨ o ∈ resA → s.Held o ∨ (s.heap.objs.length ≤ o ∧ o < h'.objs.length ∧
      ∀ b, h'.Uses o b → s.heap.bufs.length ≤ b)) :
    Isolated { s with heap := h', R := R, resA := resA } where
  wf := hw
  loc v hv := hg.valid (hs.loc v hv)
  live := Nat.lt_of_lt_of_le hs.live hg.olen
  held o ho := by
    rcases hn o ho with h | ⟨h1, h2, -⟩
    · exact ⟨Nat.lt_of_lt_of_le (hs.held o h).1 hg.olen, (hs.held o h).2⟩
    · exact ⟨h2, fun he => by have := hs.live; simp only at he; omega⟩
  sep o ho b hb := by
    have hl := (hg.same hs.wf hs.live).uses (b := b)
    rcases hn o ho with h | ⟨h1, h2, h3⟩
    · rw [(hg.same hs.wf (hs.held o h).1).uses] at hb
      exact ⟨fun hu => (hs.sep o h b hb).1 (hl.1 hu), (hs.sep o h b hb).2⟩
    · have hb' := h3 b hb
      refine ⟨fun hu => ?_, fun v hv he => ?_⟩
      · have := ((hl.1 hu).lt hs.wf).1
        omega
      · have := (hs.loc v hv).lt
        omega

theorem alloc_wf {h : Heap F} (hw : h.WF) (data : List F) : (h.alloc data).1.WF := fun o as ho n v hv =>
  (alloc_grows h data).valid (hw o as ho n v hv)

theorem mem_of_mem_dropLast' {α : Type} {l : List α} {a : α} (h : a ∈ l.dropLast) : a ∈ l :=
  (List.dropLast_sublist l).subset h

/-- Statements that do not touch the result list: everything between two writes of results. -/
def HOp.Solving : HOp F → Bool
  | .publish _ | .syncU0 _ | .addIncrement .. | .dupFirst | .removeLast | .adopt _ => false
  | _ => true

/-- Statements of `build` and `run` except the last one of the last step. -/
def HOp.OfRun : HOp F → Bool
  | .removeLast | .adopt _ => false
  | _ => true

theorem lookup_mem {α β : Type} [BEq α] [LawfulBEq α] {a : α} {b : β} : ∀ {l : List (α × β)}, l.lookup a = some b → (a, b) ∈ l
  | [], h => by simp at h
  | (c, d) :: l, h => by
    rw [List.lookup_cons] at h
    split at h
    · next hc =>
      cases h
      rw [eq_of_beq hc]
      exact List.mem_cons_self ..
    · exact List.mem_cons_of_mem _ (lookup_mem h)

/-- A new local name for a buffer that is already live. -/
theorem Isolated.addLocal {s : HState F} (hs : Isolated s) {v w : View} (hv : s.heap.Valid v) (hb : w.buf = v.buf)
    (hi : ∀ i ∈ w.idx, i ∈ v.idx) (hl : s.heap.Uses s.live v.buf ∨ ∃ u ∈ s.locals, u.buf = v.buf) :
    Isolated { s with locals := s.locals ++ [w] } where
  wf := hs.wf
  loc u hu := by
    rcases List.mem_append.1 hu with hu | hu
    · exact hs.loc u hu
    · rw [List.mem_singleton.1 hu]
      obtain ⟨b, h1, h2⟩ := hv
      exact ⟨b, by rw [hb]; exact h1, fun i h => h2 i (hi i h)⟩
  live := hs.live
  held := hs.held
  sep o ho b hub := by
    refine ⟨(hs.sep o ho b hub).1, fun u hu => ?_⟩
    rcases List.mem_append.1 hu with hu | hu
    · exact (hs.sep o ho b hub).2 u hu
    · rw [List.mem_singleton.1 hu, hb]
      rintro rfl
      rcases hl with hl | ⟨u, h1, h2⟩
      · exact (hs.sep o ho _ hub).1 hl
      · exact (hs.sep o ho _ hub).2 u h1 h2

theorem sel_mem {v : View} {sel : List Nat} : ∀ i ∈ sel.filterMap (v.idx[·]?), i ∈ v.idx := by
  intro i hi
  obtain ⟨k, -, hk⟩ := List.mem_filterMap.1 hi
  exact List.mem_of_getElem? hk

theorem Isolated.bindLive {s : HState F} (hs : Isolated s) {n : String} {x : AttrVal F}
    (hx : ∀ v, x = .arr v → v ∈ s.locals) : Isolated { s with heap := s.heap.bind s.live n x } where
  wf := bind_wf hs.wf fun v hv => hs.loc v (hx v hv)
  loc := hs.loc
  live := by simpa [Heap.bind] using hs.live
  held o ho := ⟨by simpa [Heap.bind] using (hs.held o ho).1, (hs.held o ho).2⟩
  sep o ho b hb := by
    rw [(bind_same (hs.held o ho).2).uses] at hb
    refine ⟨fun hu => ?_, (hs.sep o ho b hb).2⟩
    rcases bind_uses hu with hu | ⟨-, v, h1, h2⟩
    · exact (hs.sep o ho b hb).1 hu
    · exact (hs.sep o ho b hb).2 v (hx v h1) h2

theorem Isolated.step {s : HState F} (hs : Isolated s) {op : HOp F} (hop : ∀ k, op ≠ .adopt k) : Isolated (s.step op) := by
  cases op with
  | compute data =>
    have hg : Isolated { s with heap := (s.heap.alloc data).1, R := s.R, resA := s.resA } :=
      hs.grow (alloc_grows _ _) (alloc_wf hs.wf _) fun o ho => .inl ho
    refine ⟨hg.wf, ?_, hg.live, hg.held, ?_⟩
    · intro v hv
      rcases List.mem_append.1 hv with hv | hv
      · exact hg.loc v hv
      · rw [List.mem_singleton.1 hv]
        exact alloc_valid _ _
    · intro o ho b hb
      refine ⟨(hg.sep o ho b hb).1, fun v hv => ?_⟩
      rcases List.mem_append.1 hv with hv | hv
      · exact (hg.sep o ho b hb).2 v hv
      · rw [List.mem_singleton.1 hv]
        have h1 : s.heap.Uses o b := ((alloc_grows s.heap data).same hs.wf (hs.held o ho).1).uses.1 hb
        have h2 := (h1.lt hs.wf).1
        show s.heap.bufs.length ≠ b
        omega
  | viewLocal k sel =>
    simp only [HState.step]
    split
    · exact hs
    · next v hv =>
      have hm := List.mem_of_getElem? hv
      exact hs.addLocal (hs.loc v hm) rfl sel_mem (.inr ⟨v, hm, rfl⟩)
  | viewAttr name sel =>
    simp only [HState.step]
    split
    · next v hv =>
      obtain ⟨as, h1, h2⟩ := Option.bind_eq_some_iff.1 hv
      have hm := lookup_mem h2
      exact hs.addLocal (hs.wf _ as h1 _ v hm) rfl sel_mem (.inl ⟨as, name, v, h1, hm, rfl⟩)
    · exact hs
  | bindArr name k =>
    simp only [HState.step]
    split
    · exact hs
    · next v hv =>
      refine hs.bindLive ?_
      intro w hw
      cases hw
      exact List.mem_of_getElem? hv
  | bindVal name x => exact hs.bindLive fun v hv => by cases hv
  | write k i x =>
    simp only [HState.step]
    split
    · exact hs
    · next v hv =>
      refine ⟨write_wf hs.wf, fun w hw => write_valid (hs.loc w hw), by simpa [write_objs] using hs.live,
        fun o ho => by simpa [write_objs] using hs.held o ho, ?_⟩
      intro o ho b hb
      have hu : ∀ o b, (s.heap.write v i x).Uses o b ↔ s.heap.Uses o b := by
        intro o b
        unfold Heap.Uses
        rw [write_objs]
      rw [hu] at hb
      exact ⟨fun h => (hs.sep o ho b hb).1 ((hu _ _).1 h), (hs.sep o ho b hb).2⟩
  | newResA =>
    obtain ⟨h1, h2, h3, h4, h5, -⟩ := deepcopy_spec hs.wf hs.live
    simp only [HState.step]
    refine hs.grow h1 h2 ?_
    rintro o (ho | ho)
    · exact .inl (.inl ho)
    · rw [List.mem_singleton.1 ho]
      exact .inr ⟨by omega, by omega, h5⟩
  | snapshot =>
    obtain ⟨h1, h2, h3, h4, h5, -⟩ := deepcopy_spec hs.wf hs.live
    simp only [HState.step]
    refine hs.grow h1 h2 ?_
    rintro o (ho | ho)
    · exact .inl (.inl ho)
    · rcases List.mem_append.1 ho with ho | ho
      · exact .inl (.inr ho)
      · rw [List.mem_singleton.1 ho]
        exact .inr ⟨by omega, by omega, h5⟩
  | publish k =>
    simp only [HState.step]
    split
    · exact hs
    · next a ha =>
      have hm := List.mem_of_getElem? ha
      obtain ⟨h1, h2, h3, h4, h5, -⟩ := deepcopy_spec hs.wf (hs.held a (.inr hm)).1
      refine hs.grow h1 h2 ?_
      rintro o (ho | ho)
      · rcases List.mem_append.1 ho with ho | ho
        · exact .inl (.inl (mem_of_mem_dropLast' ho))
        · rcases List.mem_cons.1 ho with rfl | ho
          · exact .inl (.inr hm)
          · rw [List.mem_singleton.1 ho]
            exact .inr ⟨by omega, by omega, h5⟩
      · exact .inl (.inr ho)
  | syncU0 data =>
    simp only [HState.step]
    split
    · exact hs
    · next l hl =>
      have hlR : s.Held l := .inl (List.mem_of_getLast? hl)
      have hg : Isolated { s with heap := (s.heap.alloc data).1, R := s.R, resA := s.resA } :=
        hs.grow (alloc_grows _ _) (alloc_wf hs.wf _) fun o ho => .inl ho
      have hne : s.live ≠ l := fun h => (hs.held l hlR).2 h.symm
      refine ⟨bind_wf hg.wf ?_, hg.loc, by simpa [Heap.bind] using hg.live,
        fun o ho => ⟨by simpa [Heap.bind] using (hg.held o ho).1, (hg.held o ho).2⟩, ?_⟩
      · intro v hv
        cases hv
        exact alloc_valid _ _
      · intro o ho b hb
        rcases bind_uses hb with hb | ⟨rfl, v, hv, rfl⟩
        · exact ⟨fun hu => (hg.sep o ho b hb).1 ((bind_same hne).uses.1 hu), (hg.sep o ho b hb).2⟩
        · cases hv
          refine ⟨fun hu => ?_, fun w hw he => ?_⟩
          · have h1 := (bind_same hne).uses.1 hu
            have h2 := ((alloc_grows s.heap data).same hs.wf hs.live).uses.1 h1
            exact Nat.lt_irrefl _ (h2.lt hs.wf).1
          · have h1 := (hs.loc w hw).lt
            rw [he] at h1
            exact Nat.lt_irrefl _ h1
  | addIncrement forces fconst lpf =>
    obtain ⟨h1, h2, h3, h4, h5, -⟩ := deepcopy_spec hs.wf hs.live
    simp only [HState.step]
    generalize s.heap.deepcopy s.live = dc at h1 h2 h3 h4 h5
    obtain ⟨h, o⟩ := dc
    have g1 := alloc_grows h forces
    have g2 := alloc_grows (h.alloc forces).1 fconst
    have w2 := alloc_wf (alloc_wf h2 forces) fconst
    have vv := g2.valid (alloc_valid h forces)
    have vw := alloc_valid (h.alloc forces).1 fconst
    have hob : o = s.heap.objs.length := h3
    have b1 : (h.alloc forces).2.buf = h.bufs.length := rfl
    have b2 : ((h.alloc forces).1.alloc fconst).2.buf = h.bufs.length + 1 := by simp [Heap.alloc]
    have hbl := h1.blen
    have hbl' : s.heap.bufs.length ≤ h.bufs.length := hbl
    have hol : ((h.alloc forces).1.alloc fconst).1.objs.length = s.heap.objs.length + 1 := h4
    refine hs.grow ((((h1.trans (g1.trans g2)).bind (by omega) _ _).bind (by omega) _ _).bind (by omega) _ _) ?_ ?_
    · refine bind_wf (bind_wf (bind_wf w2 ?_) ?_) ?_
      · intro v hv; cases hv; exact vv
      · intro v hv; cases hv; exact vw
      · intro v hv; cases hv
    · rintro p (hp | hp)
      · rcases List.mem_append.1 hp with hp | hp
        · exact .inl (.inl hp)
        · rw [List.mem_singleton.1 hp]
          refine .inr ⟨by omega, ?_, ?_⟩
          · simp only [Heap.bind, List.length_modify]
            omega
          · intro b hb
            rcases bind_uses hb with hb | ⟨-, v, hv, -⟩
            · rcases bind_uses hb with hb | ⟨-, v, hv, rfl⟩
              · rcases bind_uses hb with hb | ⟨-, v, hv, rfl⟩
                · have : h.Uses o b := ((g1.trans g2).same h2 (by rw [hob]; show _ < h.objs.length; have : h.objs.length = s.heap.objs.length + 1 := h4; omega)).uses.1 hb
                  exact h5 b this
                · cases hv; rw [b1]; exact hbl'
              · cases hv; rw [b2]; omega
            · cases hv
      · exact .inl (.inr hp)
  | dupFirst =>
    simp only [HState.step]
    split
    · exact hs
    · next a ha =>
      have hm := List.mem_of_head? ha
      obtain ⟨h1, h2, h3, h4, h5, -⟩ := deepcopy_spec hs.wf (hs.held a (.inl hm)).1
      refine hs.grow h1 h2 ?_
      rintro o (ho | ho)
      · rcases List.mem_cons.1 ho with rfl | ho
        · exact .inr ⟨by omega, by omega, h5⟩
        · exact .inl (.inl ho)
      · exact .inl (.inr ho)
  | removeLast =>
    exact hs.grow (.refl _) hs.wf fun o ho => .inl (ho.imp mem_of_mem_dropLast' id)
  | adopt k => exact absurd rfl (hop k)

theorem LastNew.step {s : HState F} (hs : Isolated s) (hl : LastNew s) {op : HOp F} (hop : op.OfRun = true) :
    LastNew (s.step op) := by
  cases op with
  | compute data => exact hl
  | viewLocal k sel =>
    simp only [HState.step]
    split <;> exact hl
  | viewAttr name sel =>
    simp only [HState.step]
    split <;> exact hl
  | bindArr name k =>
    simp only [HState.step]
    split <;> exact hl
  | bindVal name x => exact hl
  | write k i x =>
    simp only [HState.step]
    split <;> exact hl
  | newResA => exact hl
  | snapshot => exact hl
  | publish k =>
    simp only [HState.step]
    split
    · exact hl
    · next a ha =>
      have hm := List.mem_of_getElem? ha
      have ha' := (hs.held a (.inr hm)).1
      obtain ⟨-, -, h3, -⟩ := deepcopy_spec hs.wf ha'
      intro l h
      have e : s.R.dropLast ++ [a, (s.heap.deepcopy a).2] = (s.R.dropLast ++ [a]) ++ [(s.heap.deepcopy a).2] := by simp
      simp only [e, List.getLast?_concat, List.dropLast_concat, Option.some.injEq] at h ⊢
      rw [← h, h3]
      intro hc
      rcases List.mem_append.1 hc with hc | hc
      · exact Nat.lt_irrefl _ (hs.held _ (.inl (mem_of_mem_dropLast' hc))).1
      · rw [List.mem_singleton.1 hc] at ha'
        exact Nat.lt_irrefl _ ha'
  | syncU0 data =>
    simp only [HState.step]
    split <;> exact hl
  | addIncrement forces fconst lpf =>
    obtain ⟨-, -, h3, -⟩ := deepcopy_spec hs.wf hs.live
    intro l h
    simp only [HState.step, List.getLast?_concat, List.dropLast_concat, Option.some.injEq] at h ⊢
    rw [← h, h3]
    intro hc
    exact Nat.lt_irrefl _ (hs.held _ (.inl hc)).1
  | dupFirst =>
    simp only [HState.step]
    split
    · exact hl
    · next a ha =>
      have hm := List.mem_of_head? ha
      obtain ⟨-, -, h3, -⟩ := deepcopy_spec hs.wf (hs.held a (.inl hm)).1
      intro l h
      obtain ⟨r, rs, hr⟩ : ∃ r rs, s.R = r :: rs := List.exists_cons_of_ne_nil (by rintro h0; rw [h0] at hm; cases hm)
      have h' : s.R.getLast? = some l := by
        simp only [hr] at h ⊢
        rw [List.getLast?_cons_cons] at h
        exact h
      have hd : ((s.heap.deepcopy a).2 :: s.R).dropLast = (s.heap.deepcopy a).2 :: s.R.dropLast := by
        rw [hr]; rfl
      simp only [hd, List.mem_cons, not_or]
      refine ⟨?_, hl l h'⟩
      rw [h3]
      have := (hs.held l (.inl (List.mem_of_getLast? h'))).1
      omega
  | removeLast => cases hop
  | adopt k => cases hop

/-- Statements of the solver leave every held object alone. -/
theorem Isolated.keep_solving {s : HState F} (hs : Isolated s) {op : HOp F} (hop : op.Solving = true) {o : Nat}
    (ho : s.Held o) : s.heap.Same (s.step op).heap o ∧ (s.step op).R = s.R := by
  cases op with
  | compute data => exact ⟨(alloc_grows _ _).same hs.wf (hs.held o ho).1, rfl⟩
  | viewLocal k sel =>
    simp only [HState.step]
    split <;> exact ⟨.refl _ _, rfl⟩
  | viewAttr name sel =>
    simp only [HState.step]
    split <;> exact ⟨.refl _ _, rfl⟩
  | bindArr name k =>
    simp only [HState.step]
    split
    · exact ⟨.refl _ _, rfl⟩
    · exact ⟨bind_same (hs.held o ho).2, rfl⟩
  | bindVal name x => exact ⟨bind_same (hs.held o ho).2, rfl⟩
  | write k i x =>
    simp only [HState.step]
    split
    · exact ⟨.refl _ _, rfl⟩
    · next v hv =>
      exact ⟨write_same fun hu => (hs.sep o ho _ hu).2 v (List.mem_of_getElem? hv) rfl, rfl⟩
  | newResA => exact ⟨(deepcopy_spec hs.wf hs.live).1.same hs.wf (hs.held o ho).1, rfl⟩
  | snapshot => exact ⟨(deepcopy_spec hs.wf hs.live).1.same hs.wf (hs.held o ho).1, rfl⟩
  | publish k => cases hop
  | syncU0 data => cases hop
  | addIncrement forces fconst lpf => cases hop
  | dupFirst => cases hop
  | removeLast => cases hop
  | adopt k => cases hop

/-- Every statement of a run leaves all results but the last alone. -/
theorem Isolated.keep {s : HState F} (hs : Isolated s) (hl : LastNew s) {op : HOp F} (hop : op.OfRun = true) {o : Nat}
    (ho : o ∈ s.R.dropLast) : s.heap.Same (s.step op).heap o := by
  have hR : o ∈ s.R := mem_of_mem_dropLast' ho
  have hlt := (hs.held o (.inl hR)).1
  by_cases hsv : op.Solving = true
  · exact (hs.keep_solving hsv (.inl hR)).1
  cases op with
  | publish k =>
    simp only [HState.step]
    split
    · exact .refl _ _
    · next a ha =>
      exact (deepcopy_spec hs.wf (hs.held a (.inr (List.mem_of_getElem? ha))).1).1.same hs.wf hlt
  | syncU0 data =>
    simp only [HState.step]
    split
    · exact .refl _ _
    · next l h =>
      exact ((alloc_grows _ _).same hs.wf hlt).trans (bind_same fun he => hl l h (he ▸ ho))
  | addIncrement forces fconst lpf =>
    obtain ⟨h1, h2, h3, -⟩ := deepcopy_spec hs.wf hs.live
    have hg := (h1.trans ((alloc_grows _ forces).trans (alloc_grows _ fconst)))
    refine Heap.Grows.same ?_ hs.wf hlt
    exact ((hg.bind (Nat.le_of_eq h3.symm) _ _).bind (Nat.le_of_eq h3.symm) _ _).bind (Nat.le_of_eq h3.symm) _ _
  | dupFirst =>
    simp only [HState.step]
    split
    · exact .refl _ _
    · next a ha =>
      exact (deepcopy_spec hs.wf (hs.held a (.inl (List.mem_of_head? ha))).1).1.same hs.wf hlt
  | removeLast => cases hop
  | adopt k => cases hop
  | compute data => exact absurd rfl hsv
  | viewLocal k sel => exact absurd rfl hsv
  | viewAttr name sel => exact absurd rfl hsv
  | bindArr name k => exact absurd rfl hsv
  | bindVal name x => exact absurd rfl hsv
  | write k i x => exact absurd rfl hsv
  | newResA => exact absurd rfl hsv
  | snapshot => exact absurd rfl hsv

/-- The list of results only changes at its end, except for `duplicate_first_increment`. -/
theorem step_R_prefix {s : HState F} {op : HOp F} (hop : op.OfRun = true) (hd : op ≠ .dupFirst) {k : Nat}
    (hk : k + 1 < s.R.length) : (s.step op).R[k]? = s.R[k]? ∧ s.R.length ≤ (s.step op).R.length := by
  have triv : s.R[k]? = s.R[k]? ∧ s.R.length ≤ s.R.length := ⟨rfl, Nat.le_refl _⟩
  cases op with
  | compute data => exact triv
  | viewLocal k sel => simp only [HState.step]; split <;> exact triv
  | viewAttr name sel => simp only [HState.step]; split <;> exact triv
  | bindArr name k => simp only [HState.step]; split <;> exact triv
  | bindVal name x => exact triv
  | write k i x => simp only [HState.step]; split <;> exact triv
  | newResA => exact triv
  | snapshot => exact triv
  | publish j =>
    simp only [HState.step]
    split
    · exact triv
    · refine ⟨?_, by simp only [List.length_append, List.length_dropLast, List.length_cons, List.length_nil]; omega⟩
      rw [List.getElem?_append_left (by rw [List.length_dropLast]; omega), List.getElem?_dropLast, if_pos (by omega)]
  | syncU0 data => simp only [HState.step]; split <;> exact triv
  | addIncrement forces fconst lpf =>
    refine ⟨?_, by simp [HState.step]⟩
    simp only [HState.step]
    rw [List.getElem?_append_left (by omega)]
  | dupFirst => exact absurd rfl hd
  | removeLast => cases hop
  | adopt k => cases hop

theorem start_isolated {attrs : Attrs F} {bufs : List (List F)} {locals : List View}
    (ha : ∀ n v, (n, AttrVal.arr v) ∈ attrs → (Heap.mk [attrs] bufs).Valid v)
    (hl : ∀ v ∈ locals, (Heap.mk [attrs] bufs).Valid v) : Isolated (HState.start attrs bufs locals) := by
  refine ⟨?_, hl, by simp [HState.start], ?_, ?_⟩
  · intro o as ho n v hv
    simp only [HState.start] at ho
    obtain ⟨h1, h2⟩ := List.getElem?_eq_some_iff.1 ho
    have : o = 0 := by simpa using h1
    subst this
    simp only [List.getElem_cons_zero] at h2
    subst h2
    exact ha n v hv
  · rintro o (ho | ho) <;> cases ho
  · rintro o (ho | ho) <;> cases ho

theorem exec_inv {s : HState F} (hs : Isolated s) (hl : LastNew s) (ops : List (HOp F)) (hop : ∀ op ∈ ops, op.OfRun = true) :
    Isolated (s.exec ops) ∧ LastNew (s.exec ops) := by
  induction ops generalizing s with
  | nil => exact ⟨hs, hl⟩
  | cons op ops ih =>
    have h1 := hop op (List.mem_cons_self ..)
    exact ih (hs.step fun k he => by rw [he] at h1; cases h1) (LastNew.step hs hl h1)
      fun o ho => hop o (List.mem_cons_of_mem _ ho)

theorem exec_keep {s : HState F} (hs : Isolated s) (hl : LastNew s) (ops : List (HOp F))
    (hop : ∀ op ∈ ops, op.OfRun = true ∧ op ≠ .dupFirst) {k : Nat} (hk : k + 1 < s.R.length) :
    (s.exec ops).R[k]? = s.R[k]? ∧ ∀ o, s.R[k]? = some o → s.heap.Same (s.exec ops).heap o := by
  induction ops generalizing s with
  | nil => exact ⟨rfl, fun o _ => .refl _ _⟩
  | cons op ops ih =>
    obtain ⟨h1, h2⟩ := hop op (List.mem_cons_self ..)
    obtain ⟨p1, p2⟩ := step_R_prefix h1 h2 hk
    obtain ⟨i1, i2⟩ := ih (hs.step fun k he => by rw [he] at h1; cases h1) (LastNew.step hs hl h1)
      (fun o ho => hop o (List.mem_cons_of_mem _ ho)) (Nat.lt_of_lt_of_le hk p2)
    refine ⟨i1.trans p1, fun o ho => ?_⟩
    have hd : o ∈ s.R.dropLast := by
      refine List.mem_of_getElem? (i := k) ?_
      rw [List.getElem?_dropLast, if_pos (by omega)]
      exact ho
    exact (hs.keep hl h1 hd).trans (i2 o (p1.trans ho))

theorem exec_keep_solving {s : HState F} (hs : Isolated s) (ops : List (HOp F))
    (hop : ∀ op ∈ ops, op.Solving = true) : (s.exec ops).R = s.R ∧ ∀ o ∈ s.R, s.heap.Same (s.exec ops).heap o := by
  induction ops generalizing s with
  | nil => exact ⟨rfl, fun o _ => .refl _ _⟩
  | cons op ops ih =>
    have h1 := hop op (List.mem_cons_self ..)
    have hR : (s.step op).R = s.R := by
      cases op <;> first | cases h1 | skip
      all_goals simp only [HState.step]
      all_goals split <;> rfl
    obtain ⟨i1, i2⟩ := ih (hs.step (op := op) fun k he => by rw [he] at h1; cases h1) (fun o ho => hop o (List.mem_cons_of_mem _ ho))
    refine ⟨i1.trans hR, fun o ho => ?_⟩
    exact (hs.keep_solving h1 (.inl ho)).1.trans (i2 o (hR ▸ ho))

end TrussPy
