import Verif.Lemmas.Build
import Verif.Examples
/-!
# C01-C08: from user input to the tables of the solver

`F` is an arbitrary carrier (no arithmetic law is used), `argsort` any implementation that returns a
sorting permutation.  `Entered u m` says that the handlers of `m` were filled by the calls `u`.
-/

namespace TrussPy

variable {F : Type} [Zero F]

/-- **C01** After `build`, labels ascend strictly and the stored (label, coordinates) pairs are a
rearrangement of the pairs entered by the user. -/
theorem C01_nodes_keep_coordinates {argsort : List Int → List Nat} (has : IsArgsort argsort)
    {u : UserInput F} {m m' : Model F} (hu : Entered u m) (hnd : (u.nodes.map (·.label)).Nodup)
    (hb : m.build argsort = .ok m') :
    ∃ nt, m'.nodes = some nt ∧ nt.labels.Pairwise (· < ·) ∧
      nt.labels.length = nt.coords.rows.length ∧
      (nt.labels.zip nt.coords.rows).Perm (u.nodes.map fun n => (n.label, n.coord)) := by
  obtain ⟨s⟩ := build_steps hb
  have u1 := hu.1
  rw [s.hn] at u1
  obtain ⟨n1, n2, n3, n4, n5⟩ := fixNodes_ok has u1 s.hfn
  refine ⟨s.nt, congrArg Model.nodes s.hm', ?_, n2, n3⟩
  exact (n5.and (n4.nodup_iff.2 hnd)).imp fun ⟨h1, h2⟩ => lt_of_le_of_ne h1 h2

example : ∃ nt m', exModel.build refArgsort = .ok m' ∧ m'.nodes = some nt ∧
    nt.labels = [1, 2, 3] ∧ nt.coords.rows = [[0, 0, 0], [4, 0, 3], [8, 0, 0]] := by
  obtain ⟨m', h⟩ := exBuild_ok
  have : (exModel.build refArgsort).toOption.bind (·.nodes) =
      some ⟨[1, 2, 3], ⟨3, [[0, 0, 0], [4, 0, 3], [8, 0, 0]]⟩⟩ := by decide +kernel
  rw [h] at this
  exact ⟨_, m', h, this, rfl, rfl⟩

/-- **C02** (for at least two nodes) After `build` there is one support row per node, in node order:
the row the user entered for that node, `(1,1,1)` otherwise.
Missing from the full statement: models with a single node, see `C02_single_node_counterexample`. -/
theorem C02_supports_partial {argsort : List Int → List Nat} (has : IsArgsort argsort)
    {u : UserInput F} {m m' : Model F} (hu : Entered u m) (hnd : (u.nodes.map (·.label)).Nodup)
    (h2 : 2 ≤ u.nodes.length) (hb : m.build argsort = .ok m') :
    ∃ nt bt w rows, m'.nodes = some nt ∧ m'.bounds = some bt ∧ bt.nodes = nt.labels ∧
      bt.values = .d2 ⟨w, rows⟩ ∧ rows = nt.labels.map (supportOf u.bounds) ∧
      (∀ b ∈ u.bounds, (b.node, b.values) ∈ bt.nodes.zip rows) ∧
      (∀ l ∈ nt.labels, (∀ b ∈ u.bounds, b.node ≠ l) → (l, [1, 1, 1]) ∈ bt.nodes.zip rows) := by
  obtain ⟨s⟩ := build_steps hb
  obtain ⟨c1, c2, c3, c4, c5, ⟨w, c6, c7⟩, c8, c9, c10, c11, c12⟩ := build_closed has hu hnd h2 s
  have key : ∀ l ∈ s.nt.labels, (l, supportOf u.bounds l) ∈
      s.nt.labels.zip (s.nt.labels.map (supportOf u.bounds)) := by
    intro l hl
    rw [List.zip_map_right]
    refine List.mem_map.2 ⟨(l, l), ?_, rfl⟩
    rw [List.zip_eq_zipWith, List.zipWith_self]
    exact List.mem_map.2 ⟨l, hl, rfl⟩
  refine ⟨s.nt, s.bt, w, _, congrArg Model.nodes s.hm', congrArg Model.bounds s.hm', c5, c6, rfl, ?_, ?_⟩
  · intro b hb
    rw [c5, ← supportOf_mem c11.bnd hb]
    exact key _ (c1.mem_iff.2 (c11.bsub (List.mem_map.2 ⟨b, hb, rfl⟩)))
  · intro l hl hno
    rw [c5, ← supportOf_not_mem (bs := u.bounds) (l := l)]
    · exact key l hl
    · rintro h
      obtain ⟨b, hb, rfl⟩ := List.mem_map.1 h
      exact hno b hb rfl

example : (exModel.build refArgsort).toOption.bind (·.bounds) =
    some ⟨[1, 2, 3], .d2 ⟨3, [[0, 0, 0], [1, 1, 1], [0, 0, 0]]⟩⟩ := by decide +kernel

/-- A model with one free node: the single support row is stored one-dimensionally and sorting keeps
only its first component; two of the three degrees of freedom are lost. -/
theorem C02_single_node_counterexample :
    let m : Model ℚ := { exModel with
      nodes := some ⟨[1], ⟨3, [[0, 0, 0]]⟩⟩, bounds := none, forces := some ⟨[1], ⟨3, [[0, 0, -1]]⟩⟩ }
    Entered ⟨[⟨1, [0, 0, 0]⟩], [], [⟨1, [0, 0, -1]⟩]⟩ m ∧
    ((m.build refArgsort).toOption.bind (·.bounds)) = some ⟨[1], .d1 [1]⟩ ∧
    ((m.build refArgsort).toOption.bind (·.dims)).map (fun d => (d.ndof, d.dof0, d.dof1)) =
      some (3, [], [0]) := by
  unfold Entered
  decide +kernel

/-- **C03** (for at least two nodes) After `build` there is one load row per node, in node order, all
of the common width: the row the user entered, a zero row otherwise.
Missing from the full statement: models with a single node, see `C03_single_node_counterexample`. -/
theorem C03_loads_partial {argsort : List Int → List Nat} (has : IsArgsort argsort)
    {u : UserInput F} {m m' : Model F} (hu : Entered u m) (hnd : (u.nodes.map (·.label)).Nodup)
    (h2 : 2 ≤ u.nodes.length) (hb : m.build argsort = .ok m') :
    ∃ nt ft, m'.nodes = some nt ∧ m'.forces = some ft ∧ ft.nodes = nt.labels ∧
      ft.forces.rows = nt.labels.map (loadOf u.forces) ∧
      (∀ r ∈ ft.forces.rows, r.length = ft.forces.cols) ∧
      (∀ f ∈ u.forces, (f.node, f.force) ∈ ft.nodes.zip ft.forces.rows) ∧
      (∀ l ∈ nt.labels, (∀ f ∈ u.forces, f.node ≠ l) →
        (l, List.replicate ft.forces.cols 0) ∈ ft.nodes.zip ft.forces.rows) := by
  obtain ⟨s⟩ := build_steps hb
  obtain ⟨c1, c2, c3, c4, c5, ⟨w, c6, c7⟩, c8, c9, c10, c11, c12⟩ := build_closed has hu hnd h2 s
  have key : ∀ l ∈ s.nt.labels, (l, loadOf u.forces l) ∈
      s.nt.labels.zip (s.nt.labels.map (loadOf u.forces)) := by
    intro l hl
    rw [List.zip_map_right]
    refine List.mem_map.2 ⟨(l, l), ?_, rfl⟩
    rw [List.zip_eq_zipWith, List.zipWith_self]
    exact List.mem_map.2 ⟨l, hl, rfl⟩
  refine ⟨s.nt, s.ft, congrArg Model.nodes s.hm', congrArg Model.forces s.hm', c8, by rw [c9], ?_, ?_, ?_⟩
  · intro r hr
    rw [c9] at hr ⊢
    obtain ⟨l, hl, rfl⟩ := List.mem_map.1 hr
    exact c10 l hl
  · intro b hb
    rw [c8, c9, ← loadOf_mem c11.fnd hb]
    exact key _ (c1.mem_iff.2 (c11.fsub (List.mem_map.2 ⟨b, hb, rfl⟩)))
  · intro l hl hno
    rw [c8, c9, ← loadOf_not_mem (fs := u.forces) (l := l)]
    · exact key l hl
    · rintro h
      obtain ⟨b, hb, rfl⟩ := List.mem_map.1 h
      exact hno b hb rfl

example : (exModel.build refArgsort).toOption.bind (·.forces) =
    some ⟨[1, 2, 3], ⟨3, [[0, 0, 0], [0, 0, -1], [0, 0, 0]]⟩⟩ := by decide +kernel

/-- With a single node `np.allclose` broadcasts, so a load on a node that does not exist (and even two
loads on one node) is accepted and the load table has more rows than there are nodes. -/
theorem C03_single_node_counterexample :
    let m : Model ℚ := { exModel with
      nodes := some ⟨[100000], ⟨3, [[0, 0, 0]]⟩⟩, bounds := none
      forces := some ⟨[100001], ⟨3, [[0, 0, -1]]⟩⟩ }
    Entered ⟨[⟨100000, [0, 0, 0]⟩], [], [⟨100001, [0, 0, -1]⟩]⟩ m ∧
    ((m.build refArgsort).toOption.bind (·.forces)) =
      some ⟨[100000, 100001], ⟨3, [[0, 0, 0], [0, 0, -1]]⟩⟩ := by
  unfold Entered
  decide +kernel

/-- **C05** For distinct node labels and at least two nodes, a model that builds has no node
constrained twice or loaded twice, and no support or load at a label that is not a node.  The labels
are arbitrary, so this includes labels which `np.allclose` cannot tell apart. -/
theorem C05_no_silent_misassignment {argsort : List Int → List Nat} (has : IsArgsort argsort)
    {u : UserInput F} {m m' : Model F} (hu : Entered u m) (hnd : (u.nodes.map (·.label)).Nodup)
    (h2 : 2 ≤ u.nodes.length) (hb : m.build argsort = .ok m') :
    (u.bounds.map (·.node)).Nodup ∧ (∀ b ∈ u.bounds, ∃ n ∈ u.nodes, n.label = b.node) ∧
    (u.forces.map (·.node)).Nodup ∧ (∀ f ∈ u.forces, ∃ n ∈ u.nodes, n.label = f.node) := by
  obtain ⟨s⟩ := build_steps hb
  obtain ⟨c1, c2, c3, c4, c5, ⟨w, c6, c7⟩, c8, c9, c10, c11, c12⟩ := build_closed has hu hnd h2 s
  refine ⟨c11.bnd, ?_, c11.fnd, ?_⟩
  · intro b hb
    exact List.mem_map.1 (c11.bsub (List.mem_map.2 ⟨b, hb, rfl⟩))
  · intro b hb
    exact List.mem_map.1 (c11.fsub (List.mem_map.2 ⟨b, hb, rfl⟩))

/-- **C05** For distinct node labels, at least two nodes and supports of three components, `build`
succeeds exactly if there are elements, at least one load, three dimensions, and every support and
load names an existing node, no node twice.  In every other case it raises. -/
theorem C05_build_succeeds_iff {argsort : List Int → List Nat} (has : IsArgsort argsort)
    {u : UserInput F} {m : Model F} (hu : Entered u m) (hnd : (u.nodes.map (·.label)).Nodup)
    (h2 : 2 ≤ u.nodes.length) (hw : ∀ b ∈ u.bounds, b.values.length = 3) :
    (∃ m', m.build argsort = .ok m') ↔
      m.elems ≠ none ∧ m.settings.ndim = 3 ∧ u.forces ≠ [] ∧
      (u.bounds.map (·.node)).Nodup ∧ (∀ b ∈ u.bounds, ∃ n ∈ u.nodes, n.label = b.node) ∧
      (u.forces.map (·.node)).Nodup ∧ (∀ f ∈ u.forces, ∃ n ∈ u.nodes, n.label = f.node) := by
  constructor
  · rintro ⟨m', hb⟩
    obtain ⟨s⟩ := build_steps hb
    obtain ⟨c1, c2, c3, c4, c5, ⟨w, c6, c7⟩, c8, c9, c10, c11, c12⟩ := build_closed has hu hnd h2 s
    refine ⟨by rw [s.he]; simp, s.hdim, c12, c11.bnd, ?_, c11.fnd, ?_⟩
    · intro b hb
      exact List.mem_map.1 (c11.bsub (List.mem_map.2 ⟨b, hb, rfl⟩))
    · intro b hb
      exact List.mem_map.1 (c11.fsub (List.mem_map.2 ⟨b, hb, rfl⟩))
  · rintro ⟨he, hdim, hne, hbn, hbs, hfn, hfs⟩
    obtain ⟨et, he⟩ := Option.ne_none_iff_exists'.1 he
    have hc : Consistent u := by
      refine ⟨hbn, ?_, hfn, ?_⟩
      · intro x hx
        obtain ⟨b, hb, rfl⟩ := List.mem_map.1 hx
        obtain ⟨n, hn, hnb⟩ := hbs b hb
        exact List.mem_map.2 ⟨n, hn, hnb⟩
      · intro x hx
        obtain ⟨b, hb, rfl⟩ := List.mem_map.1 hx
        obtain ⟨n, hn, hnb⟩ := hfs b hb
        exact List.mem_map.2 ⟨n, hn, hnb⟩
    have hsw : ∀ l, (supportOf u.bounds l).length = 3 := by
      intro l
      by_cases h : l ∈ u.bounds.map (·.node)
      · obtain ⟨b, hb, rfl⟩ := List.mem_map.1 h
        rw [supportOf_mem hbn hb]
        exact hw b hb
      · rw [supportOf_not_mem h]
        rfl
    obtain ⟨m', ⟨s⟩⟩ := build_make has hu hnd h2 he hdim hc hne (w := 3) (fun l _ => hsw l) (by
      intro sl hp _ v _
      apply whereEq_lt_length
      rw [flatten_length_of (w := 3)]
      · rw [List.length_map, hp.length_eq, List.length_map]
      · intro r hr
        obtain ⟨l, _, rfl⟩ := List.mem_map.1 hr
        exact hsw l)
    exact ⟨m', build_of_steps s⟩

example : (exInput.nodes.map (·.label)).Nodup ∧ 2 ≤ exInput.nodes.length ∧
    ∀ b ∈ exInput.bounds, b.values.length = 3 := by decide

/-- The tolerance of `np.allclose` would accept this wrong label, but the filled table is too long and
the comparison raises. -/
example : closeInt 100000 100001 = true ∧
    (let m : Model ℚ := { exModel with
      nodes := some ⟨[100000, 200000], ⟨3, [[0, 0, 0], [1, 0, 0]]⟩⟩
      bounds := none, forces := some ⟨[100001], ⟨3, [[0, 0, -1]]⟩⟩ }
    m.build refArgsort).toBool = false := by
  decide +kernel

/-- The table part of C06: positions of a value in the flattened support table. -/
private theorem mem_dof {rows : List (List Int)} (hrows : ∀ r ∈ rows, r.length = 3) {v : Int} {i c : Nat}
    (hc : c < 3) : 3 * i + c ∈ whereEq rows.flatten v ↔ ∃ r, rows[i]? = some r ∧ r[c]? = some v := by
  rw [mem_whereEq, flatten_get hrows i c hc]
  cases rows[i]? with
  | none => simp
  | some r => simp

/-- **C06** For supports of three components: `3*i+c` is active iff component `c` of the support of
the `i`-th node is 1, locked iff it is 0; both lists ascend strictly, are disjoint, and together
contain all degrees of freedom iff all support entries are 0 or 1.
Missing from the full statement: supports of another width (`C06_width_counterexample`) and models
with a single node (`C02_single_node_counterexample`). -/
theorem C06_degrees_of_freedom_partial {argsort : List Int → List Nat} (has : IsArgsort argsort)
    {u : UserInput F} {m m' : Model F} (hu : Entered u m) (hnd : (u.nodes.map (·.label)).Nodup)
    (h2 : 2 ≤ u.nodes.length) (hw : ∀ b ∈ u.bounds, b.values.length = 3)
    (hb : m.build argsort = .ok m') :
    ∃ nt d, m'.nodes = some nt ∧ m'.dims = some d ∧ d.ndof = 3 * u.nodes.length ∧
      (∀ i l, nt.labels[i]? = some l → ∀ c, c < 3 →
        (3 * i + c ∈ d.dof1 ↔ (supportOf u.bounds l)[c]? = some 1) ∧
        (3 * i + c ∈ d.dof0 ↔ (supportOf u.bounds l)[c]? = some 0)) ∧
      d.dof0.Pairwise (· < ·) ∧ d.dof1.Pairwise (· < ·) ∧
      (∀ k ∈ d.dof0, k < d.ndof) ∧ (∀ k ∈ d.dof1, k < d.ndof) ∧ (∀ k ∈ d.dof0, k ∉ d.dof1) ∧
      ((∀ k < d.ndof, k ∈ d.dof0 ∨ k ∈ d.dof1) ↔
        ∀ b ∈ u.bounds, ∀ v ∈ b.values, v = 0 ∨ v = 1) := by
  obtain ⟨s⟩ := build_steps hb
  obtain ⟨c1, c2, c3, c4, c5, ⟨w, c6, c7⟩, c8, c9, c10, c11, c12⟩ := build_closed has hu hnd h2 s
  have hsw : ∀ l, (supportOf u.bounds l).length = 3 := by
    intro l
    by_cases h : l ∈ u.bounds.map (·.node)
    · obtain ⟨b, hb, rfl⟩ := List.mem_map.1 h
      rw [supportOf_mem c11.bnd hb]
      exact hw b hb
    · rw [supportOf_not_mem h]
      rfl
  have hrows : ∀ r ∈ s.nt.labels.map (supportOf u.bounds), r.length = 3 := by
    intro r hr
    obtain ⟨l, _, rfl⟩ := List.mem_map.1 hr
    exact hsw l
  obtain ⟨d0, d0'⟩ := dofWhere_ok_iff.1 s.hd0
  obtain ⟨d1, d1'⟩ := dofWhere_ok_iff.1 s.hd1
  have hflat : s.bt.values.flatten = (s.nt.labels.map (supportOf u.bounds)).flatten := by
    rw [c6]; rfl
  have hlen : s.nt.labels.length = u.nodes.length := by simpa using c1.length_eq
  rw [hflat] at d0 d1 d0' d1'
  rw [c3] at d0' d1'
  have key : ∀ i l, s.nt.labels[i]? = some l → ∀ c, c < 3 →
        (3 * i + c ∈ s.dof1 ↔ (supportOf u.bounds l)[c]? = some 1) ∧
        (3 * i + c ∈ s.dof0 ↔ (supportOf u.bounds l)[c]? = some 0) := by
    intro i l hi c hc
    rw [d0, d1, mem_dof hrows hc, mem_dof hrows hc]
    simp [hi]
  refine ⟨s.nt, _, congrArg Model.nodes s.hm', congrArg Model.dims s.hm', ?_, key, ?_, ?_, ?_, ?_, ?_, ?_⟩
  · simp only [c3]; omega
  · simp only [d0]; exact whereEq_sorted _ _
  · simp only [d1]; exact whereEq_sorted _ _
  · simp only [d0, c3]; exact d0'
  · simp only [d1, c3]; exact d1'
  · simp only [d0, d1]
    intro k hk hk'
    rw [mem_whereEq] at hk hk'
    rw [hk] at hk'
    cases hk'
  · simp only [c3]
    constructor
    · intro h b hb v hv
      obtain ⟨c, hc, rfl⟩ := List.getElem_of_mem hv
      rw [hw b hb] at hc
      have hl : b.node ∈ s.nt.labels := c1.mem_iff.2 (c11.bsub (List.mem_map.2 ⟨b, hb, rfl⟩))
      obtain ⟨i, hi, hil⟩ := List.getElem_of_mem hl
      have hk := key i b.node (by rw [← hil]; simp) c hc
      rw [supportOf_mem c11.bnd hb] at hk
      rcases h (3 * i + c) (by omega) with h0 | h0
      · left
        exact (List.getElem?_eq_some_iff.1 (hk.2.1 h0)).2
      · right
        exact (List.getElem?_eq_some_iff.1 (hk.1.1 h0)).2
    · intro h k hk
      have hi : k / 3 < s.nt.labels.length := by omega
      have hkk := key (k / 3) s.nt.labels[k / 3] (by simp) (k % 3) (Nat.mod_lt _ (by decide))
      have hk3 : 3 * (k / 3) + k % 3 = k := Nat.div_add_mod k 3
      rw [hk3] at hkk
      have hc : k % 3 < (supportOf u.bounds s.nt.labels[k / 3]).length := by
        rw [hsw]; exact Nat.mod_lt _ (by decide)
      have hv : (supportOf u.bounds s.nt.labels[k / 3])[k % 3] = 0 ∨
          (supportOf u.bounds s.nt.labels[k / 3])[k % 3] = 1 := by
        have hmem := List.getElem_mem hc
        by_cases hl : s.nt.labels[k / 3] ∈ u.bounds.map (·.node)
        · obtain ⟨b, hb, hbl⟩ := List.mem_map.1 hl
          have : supportOf u.bounds s.nt.labels[k / 3] = b.values := by
            rw [← hbl]; exact supportOf_mem c11.bnd hb
          exact h b hb _ (this ▸ hmem)
        · right
          have hone : ∀ v ∈ supportOf u.bounds s.nt.labels[k / 3], v = 1 := by
            rw [supportOf_not_mem hl]; simp
          exact hone _ hmem
      rcases hv with hv | hv
      · left
        rw [hkk.2, List.getElem?_eq_some_iff]
        exact ⟨hc, hv⟩
      · right
        rw [hkk.1, List.getElem?_eq_some_iff]
        exact ⟨hc, hv⟩

example : ((exModel.build refArgsort).toOption.bind (·.dims)).map (fun d => (d.dof0, d.dof1)) =
    some ([0, 1, 2, 6, 7, 8], [3, 4, 5]) := by decide +kernel

/-- Supports of another width are accepted if every node has one; then the lists no longer belong to
the nodes: here node 2 is fixed in x (row `[0,1]`), but degree of freedom 2, the z component of
node 1, is the one that gets locked. -/
theorem C06_width_counterexample :
    let m : Model ℚ := { exModel with
      nodes := some ⟨[1, 2], ⟨3, [[0, 0, 0], [1, 0, 0]]⟩⟩
      bounds := some ⟨[1, 2], .d2 ⟨2, [[1, 1], [0, 1]]⟩⟩
      forces := some ⟨[1], ⟨3, [[0, 0, -1]]⟩⟩ }
    Entered ⟨[⟨1, [0, 0, 0]⟩, ⟨2, [1, 0, 0]⟩], [⟨1, [1, 1]⟩, ⟨2, [0, 1]⟩], [⟨1, [0, 0, -1]⟩]⟩ m ∧
    ((m.build refArgsort).toOption.bind (·.dims)).map (fun d => (d.dof0, d.dof1)) =
      some ([2], [0, 1, 3]) := by
  unfold Entered
  decide +kernel

/-- Equality of the tables that the solver reads. -/
structure SameTables (a b : Model F) : Prop where
  nodes : a.nodes = b.nodes
  bounds : a.bounds = b.bounds
  forces : a.forces = b.forces
  dims : a.dims = b.dims

omit [Zero F] in
private theorem coordOf_perm {a b : List (Node F)} (hp : a.Perm b) (hnd : (a.map (·.label)).Nodup) (l : Int) :
    coordOf a l = coordOf b l := by
  have hnd' : (b.map (·.label)).Nodup := (hp.map _).nodup_iff.1 hnd
  by_cases h : l ∈ a.map (·.label)
  · obtain ⟨n, hn, rfl⟩ := List.mem_map.1 h
    rw [coordOf_mem hnd hn, coordOf_mem hnd' (hp.mem_iff.1 hn)]
  · have h' : l ∉ b.map (·.label) := fun hc => h ((hp.map _).mem_iff.2 hc)
    have e1 := find_key_none (fun n : Node F => n.label) h
    have e2 := find_key_none (fun n : Node F => n.label) h'
    simp only [coordOf, e1, e2]

private theorem supportOf_perm {a b : List BoundU} (hp : a.Perm b) (hnd : (a.map (·.node)).Nodup) (l : Int) :
    supportOf a l = supportOf b l := by
  have hnd' : (b.map (·.node)).Nodup := (hp.map _).nodup_iff.1 hnd
  by_cases h : l ∈ a.map (·.node)
  · obtain ⟨n, hn, rfl⟩ := List.mem_map.1 h
    rw [supportOf_mem hnd hn, supportOf_mem hnd' (hp.mem_iff.1 hn)]
  · rw [supportOf_not_mem h, supportOf_not_mem fun hc => h ((hp.map _).mem_iff.2 hc)]

omit [Zero F] in
private theorem loadWidth_perm {a b : List (ExtForce F)} (hp : a.Perm b) {t t' : Option (ForceTab F)}
    (ha : addForces none a = .ok t) (_hb : addForces none b = .ok t') : loadWidth a = loadWidth b := by
  cases t with
  | none =>
    cases a with
    | nil => rw [List.nil_perm.1 hp]
    | cons x xs => rw [addForces_none] at ha; simp at ha
  | some t =>
    obtain ⟨_, _, a3, a4⟩ := addForces_tab ha
    cases b with
    | nil => rw [List.perm_nil.1 hp]
    | cons x xs =>
      have := a4 x (hp.mem_iff.2 (by simp))
      rw [← a3, ← this]
      rfl

private theorem loadOf_perm {a b : List (ExtForce F)} (hp : a.Perm b) (hnd : (a.map (·.node)).Nodup)
    (hw : loadWidth a = loadWidth b) (l : Int) : loadOf a l = loadOf b l := by
  have hnd' : (b.map (·.node)).Nodup := (hp.map _).nodup_iff.1 hnd
  by_cases h : l ∈ a.map (·.node)
  · obtain ⟨n, hn, rfl⟩ := List.mem_map.1 h
    rw [loadOf_mem hnd hn, loadOf_mem hnd' (hp.mem_iff.1 hn)]
  · rw [loadOf_not_mem h, loadOf_not_mem fun hc => h ((hp.map _).mem_iff.2 hc), hw]

/-- **C04** If two models were entered with the same calls in different orders (and share elements and
settings) and the first builds, then so does the second, with the same node, support, load and
degree-of-freedom tables, whatever sorting permutations the two `argsort`s return.
Missing from the full statement: models with a single node (where duplicate loads are accepted, see
`C03_single_node_counterexample`, and keep their insertion order). -/
theorem C04_insertion_order_irrelevant_partial {as1 as2 : List Int → List Nat} (h1 : IsArgsort as1)
    (h2 : IsArgsort as2) {u1 u2 : UserInput F} {m1 m2 m1' : Model F} (hu1 : Entered u1 m1)
    (hu2 : Entered u2 m2) (hn : u1.nodes.Perm u2.nodes) (hbd : u1.bounds.Perm u2.bounds)
    (hf : u1.forces.Perm u2.forces) (hel : m1.elems = m2.elems) (hset : m1.settings = m2.settings)
    (hnd : (u1.nodes.map (·.label)).Nodup) (hlen : 2 ≤ u1.nodes.length)
    (hb : m1.build as1 = .ok m1') :
    ∃ m2', m2.build as2 = .ok m2' ∧ SameTables m1' m2' := by
  obtain ⟨s⟩ := build_steps hb
  obtain ⟨c1, c2, c3, c4, c5, ⟨w, c6, c7⟩, c8, c9, c10, c11, c12⟩ := build_closed h1 hu1 hnd hlen s
  have hnd2 : (u2.nodes.map (·.label)).Nodup := (hn.map _).nodup_iff.1 hnd
  have hlen2 : 2 ≤ u2.nodes.length := by rw [← hn.length_eq]; exact hlen
  have hc2 : Consistent u2 := by
    refine ⟨(hbd.map _).nodup_iff.1 c11.bnd, ?_, (hf.map _).nodup_iff.1 c11.fnd, ?_⟩
    · exact fun x hx => (hn.map _).mem_iff.1 (c11.bsub ((hbd.map _).mem_iff.2 hx))
    · exact fun x hx => (hn.map _).mem_iff.1 (c11.fsub ((hf.map _).mem_iff.2 hx))
  have hne2 : u2.forces ≠ [] := by
    intro h
    rw [h] at hf
    exact c12 (List.perm_nil.1 hf)
  have hsup := supportOf_perm hbd c11.bnd
  have hlw : loadWidth u1.forces = loadWidth u2.forces := loadWidth_perm hf hu1.2.2 hu2.2.2
  have hload := loadOf_perm hf c11.fnd hlw
  have hcoord := coordOf_perm hn hnd
  have hsl : ∀ sl : List Int, sl.Perm (u2.nodes.map (·.label)) → sl.Pairwise (· ≤ ·) → sl = s.nt.labels :=
    fun sl hp hs => sorted_perm_eq (hp.trans ((hn.map _).symm.trans c1.symm)) hs (c2.imp le_of_lt)
  have hmap : ∀ sl : List Int, sl.map (supportOf u2.bounds) = sl.map (supportOf u1.bounds) :=
    fun sl => List.map_congr_left fun l _ => (hsup l).symm
  have hflat : s.bt.values.flatten = (s.nt.labels.map (supportOf u1.bounds)).flatten := by
    rw [c6]; rfl
  have d0 := dofWhere_ok_iff.1 s.hd0
  have d1 := dofWhere_ok_iff.1 s.hd1
  rw [hflat, c3] at d0 d1
  obtain ⟨m2', ⟨s2⟩⟩ := build_make h2 hu2 hnd2 hlen2 (et := s.et) (by rw [← hel]; exact s.he)
    (by rw [← hset]; exact s.hdim) hc2 hne2 (w := w) (by
      intro l hl
      rw [← hsup]
      exact c7 l (c1.mem_iff.2 ((hn.map _).mem_iff.2 hl))) (by
      intro sl hp hs v hv
      rw [hsl sl hp hs, hmap, ← hn.length_eq]
      rcases hv with rfl | rfl
      · exact d0.2
      · exact d1.2)
  obtain ⟨e1, e2, e3, e4, e5, ⟨w2, e6, e7⟩, e8, e9, e10, e11, e12⟩ := build_closed h2 hu2 hnd2 hlen2 s2
  have hlab : s2.nt.labels = s.nt.labels := hsl _ e1 (e2.imp le_of_lt)
  have hw2 : w = w2 := by
    have hpos : 0 < s.nt.labels.length := by
      rw [c1.length_eq, List.length_map]; omega
    have hm := List.getElem_mem hpos
    have q1 := c7 _ hm
    have q2 := e7 s.nt.labels[0] (by rw [hlab]; exact hm)
    rw [← hsup] at q2
    omega
  have n1 := hu1.1
  have n2 := hu2.1
  rw [s.hn] at n1
  rw [s2.hn] at n2
  obtain ⟨p1, _, p3, p4, p5⟩ := fixNodes_ok h1 n1 s.hfn
  obtain ⟨q1, _, q3, q4, q5⟩ := fixNodes_ok h2 n2 s2.hfn
  have hcols : s.nt.coords.cols = s2.nt.coords.cols := by
    obtain ⟨a1, a2, a3⟩ := addNodes_tab n1
    obtain ⟨b1, b2, b3⟩ := addNodes_tab n2
    obtain ⟨x, hx⟩ := List.exists_mem_of_length_pos (l := u1.nodes) (by omega)
    rw [p1, q1, ← a3 x hx, ← b3 x (hn.mem_iff.1 hx)]
  have hnt : s.nt = s2.nt := by
    have hr : s.nt.coords.rows = s2.nt.coords.rows := by
      rw [c4, e4, hlab]
      exact List.map_congr_left fun l _ => hcoord l
    have hc : s.nt.coords = s2.nt.coords := by
      cases hx : s.nt.coords; cases hy : s2.nt.coords
      simp_all
    cases hx : s.nt; cases hy : s2.nt
    simp_all
  have hbt : s.bt = s2.bt := by
    have hv : s.bt.values = s2.bt.values := by rw [c6, e6, hlab, hmap, hw2]
    cases hx : s.bt; cases hy : s2.bt
    simp_all
  have hft : s.ft = s2.ft := by
    have hv : s.ft.forces = s2.ft.forces := by
      rw [c9, e9, hlab, hlw]
      congr 1
      exact List.map_congr_left fun l _ => hload l
    cases hx : s.ft; cases hy : s2.ft
    simp_all
  have hl : s.nt0.labels.length = s2.nt0.labels.length := by rw [c3, e3, hn.length_eq]
  have het : s.et = s2.et := by
    have := s.he
    rw [hel, s2.he] at this
    exact (Option.some.inj this).symm
  have g0 : s.dof0 = s2.dof0 := by
    have a := s.hd0; have b := s2.hd0
    rw [hl, hbt, b] at a
    exact (Except.ok.inj a).symm
  have g1 : s.dof1 = s2.dof1 := by
    have a := s.hd1; have b := s2.hd1
    rw [hl, hbt, b] at a
    exact (Except.ok.inj a).symm
  refine ⟨m2', build_of_steps s2, ?_, ?_, ?_, ?_⟩
  · refine (congrArg Model.nodes s.hm').trans (Eq.trans ?_ (congrArg Model.nodes s2.hm').symm)
    simp only [hnt]
  · refine (congrArg Model.bounds s.hm').trans (Eq.trans ?_ (congrArg Model.bounds s2.hm').symm)
    simp only [hbt]
  · refine (congrArg Model.forces s.hm').trans (Eq.trans ?_ (congrArg Model.forces s2.hm').symm)
    simp only [hft]
  · refine (congrArg Model.dims s.hm').trans (Eq.trans ?_ (congrArg Model.dims s2.hm').symm)
    simp only [hl, het, g0, g1]

/-- The example entered in another order. -/
example : Entered ⟨exInput.nodes.reverse, exInput.bounds.reverse, exInput.forces⟩
    { exModel with
      nodes := some ⟨[2, 1, 3], ⟨3, [[4, 0, 3], [0, 0, 0], [8, 0, 0]]⟩⟩
      bounds := some ⟨[1, 3], .d2 ⟨3, [[0, 0, 0], [0, 0, 0]]⟩⟩ } := by
  unfold Entered
  decide +kernel

/-- **C07** (distinct labels, at least two nodes) Building a built model again succeeds and changes
nothing at all: tables, degrees of freedom, settings and the fresh analysis and results are the
same.  Missing from the full statement: single-node models and models with duplicate labels, where
`argsort` may permute equal labels. -/
theorem C07_build_idempotent_partial {argsort : List Int → List Nat} (has : IsArgsort argsort)
    {u : UserInput F} {m m' : Model F} (hu : Entered u m) (hnd : (u.nodes.map (·.label)).Nodup)
    (h2 : 2 ≤ u.nodes.length) (hb : m.build argsort = .ok m') : m'.build argsort = .ok m' := by
  obtain ⟨s⟩ := build_steps hb
  obtain ⟨c1, c2, c3, c4, c5, ⟨w, c6, c7⟩, c8, c9, c10, c11, c12⟩ := build_closed has hu hnd h2 s
  have hsort := argsort_sorted has c2
  have hlen : s.nt.labels.length = s.nt0.labels.length := by
    rw [c1.length_eq, List.length_map, c3]
  have hmiss : ∀ l : List Int, (l.filter fun n => !l.contains n) = [] := by
    intro l
    rw [List.filter_eq_nil_iff]
    simp
  have r1 : npTake s.nt.coords.rows (List.range s.nt.labels.length) = .ok s.nt.coords.rows := by
    have := npTake_range s.nt.coords.rows
    have hl : s.nt.coords.rows.length = s.nt.labels.length := by rw [c4, List.length_map]
    rwa [hl] at this
  have r2 : npTake (s.nt.labels.map (supportOf u.bounds)) (List.range s.nt.labels.length) =
      .ok (s.nt.labels.map (supportOf u.bounds)) := by
    have := npTake_range (s.nt.labels.map (supportOf u.bounds))
    rwa [List.length_map] at this
  have r3 : npTake (s.nt.labels.map (loadOf u.forces)) (List.range s.nt.labels.length) =
      .ok (s.nt.labels.map (loadOf u.forces)) := by
    have := npTake_range (s.nt.labels.map (loadOf u.forces))
    rwa [List.length_map] at this
  have q1 : fixNodes argsort s.nt = .ok s.nt := by
    simp only [fixNodes, hsort, npTake_range, Tab.take, r1, py_bind_ok, py_pure]
  have q2 : fixBoundsU argsort s.nt.labels (some s.bt) = .ok s.bt := by
    have hv := c6
    have hbt : s.bt = ⟨s.nt.labels, .d2 ⟨w, s.nt.labels.map (supportOf u.bounds)⟩⟩ := by
      cases hx : s.bt
      simp_all
    rw [hbt]
    simp only [fixBoundsU, missing, Option.map_some, hmiss, List.map_nil, addBoundsU, List.foldlM_nil,
      py_pure, py_bind_ok, hsort, npTake_range, BArr.take, Tab.take, r2]
  have q3 : fixForces argsort s.nt.labels (some s.ft) = .ok s.ft := by
    have hft : s.ft = ⟨s.nt.labels, ⟨loadWidth u.forces, s.nt.labels.map (loadOf u.forces)⟩⟩ := by
      cases hx : s.ft
      simp_all
    rw [hft]
    simp only [fixForces, missing, hmiss, List.map_nil, addForces, List.foldlM_nil,
      py_pure, py_bind_ok, hsort, npTake_range, Tab.take, r3]
  have hst : (if s.et.mtype.contains 2 then 2 else if s.et.mtype.contains 2 then 2 else m.settings.nstatev)
      = if s.et.mtype.contains 2 then 2 else m.settings.nstatev := by
    split <;> rfl
  apply build_of_steps
  refine ⟨s.nt, s.et, s.nt, s.bt, s.ft, s.dof0, s.dof1, ?_, ?_, ?_, q1, ?_, ?_, s.hcb, s.hcf, ?_, ?_, ?_⟩
  · exact congrArg Model.nodes s.hm'
  · exact (congrArg Model.elems s.hm').trans s.he
  · exact (congrArg (fun m => m.settings.ndim) s.hm').trans s.hdim
  · rw [congrArg Model.bounds s.hm']; exact q2
  · rw [congrArg Model.forces s.hm']; exact q3
  · rw [hlen]; exact s.hd0
  · rw [hlen]; exact s.hd1
  · rw [hlen]
    obtain ⟨nt0, et, nt, bt, ft, dof0, dof1, _, _, _, _, _, _, _, _, _, _, hm'⟩ := s
    subst hm'
    simp only [hst]

example : exModel.build refArgsort ≠ .error .ioError ∧ 2 ≤ exInput.nodes.length := by
  obtain ⟨m', h⟩ := exBuild_ok
  exact ⟨by rw [h]; simp, by decide⟩

/-- **C08** (rejection) Without nodes, elements or external forces `build` raises, whatever else the
model contains. -/
theorem C08_missing_tables_rejected (argsort : List Int → List Nat) (m : Model F)
    (h : m.nodes = none ∨ m.elems = none ∨ m.forces = none) : ∃ e, m.build argsort = .error e := by
  rcases py_ok_or_error (m.build argsort) with ⟨m', hm⟩ | he
  · obtain ⟨s⟩ := build_steps hm
    rcases h with h | h | h
    · have := s.hn; rw [h] at this; cases this
    · have := s.he; rw [h] at this; cases this
    · have := s.hff
      rw [h] at this
      simp [fixForces] at this
  · exact he

/-- **C08** (acceptance) A model without any support definition builds, and all degrees of freedom are
active. -/
theorem C08_no_supports_all_free {argsort : List Int → List Nat} (has : IsArgsort argsort)
    {u : UserInput F} {m : Model F} (hu : Entered u m) (hnd : (u.nodes.map (·.label)).Nodup)
    (h2 : 2 ≤ u.nodes.length) (hnb : u.bounds = []) (he : m.elems ≠ none) (hdim : m.settings.ndim = 3)
    (hne : u.forces ≠ []) (hfn : (u.forces.map (·.node)).Nodup)
    (hfs : ∀ f ∈ u.forces, ∃ n ∈ u.nodes, n.label = f.node) :
    ∃ m' d, m.build argsort = .ok m' ∧ m'.dims = some d ∧ d.dof0 = [] ∧
      d.dof1 = List.range (3 * u.nodes.length) := by
  have hw : ∀ b ∈ u.bounds, b.values.length = 3 := by rw [hnb]; simp
  obtain ⟨m', hb⟩ := (C05_build_succeeds_iff has hu hnd h2 hw).2
    ⟨he, hdim, hne, by rw [hnb]; simp, by rw [hnb]; simp, hfn, hfs⟩
  obtain ⟨nt, d, _, hd, hnd', hk, s0, s1, b0, b1, hdis, hall⟩ := C06_degrees_of_freedom_partial has hu hnd h2 hw hb
  obtain ⟨nt', h1, h3, h4, h5⟩ := C01_nodes_keep_coordinates has hu hnd hb
  have hall' := hall.2 (by rw [hnb]; simp)
  have e0 : d.dof0 = [] := by
    rw [List.eq_nil_iff_forall_not_mem]
    intro k hk0
    have hklt := b0 k hk0
    rename_i hnts
    have hll : nt.labels.length = u.nodes.length := by
      rw [h1] at hnts
      cases hnts
      have := h5.length_eq
      simp only [List.length_zip, List.length_map] at this
      omega
    have hi : k / 3 < nt.labels.length := by omega
    have := (hk (k / 3) nt.labels[k / 3] (by simp) (k % 3) (Nat.mod_lt _ (by decide))).2
    rw [Nat.div_add_mod, hnb] at this
    have := this.1 hk0
    rw [supportOf_not_mem (by simp)] at this
    have h3' : k % 3 = 0 ∨ k % 3 = 1 ∨ k % 3 = 2 := by omega
    rcases h3' with h | h | h <;> rw [h] at this <;> simp at this
  refine ⟨m', d, hb, hd, e0, ?_⟩
  apply List.Perm.eq_of_pairwise (le := (· < ·)) (fun a b _ _ h1 h2 => by omega) s1 List.pairwise_lt_range
  rw [List.perm_ext_iff_of_nodup (s1.imp Nat.ne_of_lt) List.nodup_range]
  intro k
  rw [List.mem_range, ← hnd']
  constructor
  · exact b1 k
  · intro hk
    rcases hall' k hk with h | h
    · rw [e0] at h; cases h
    · exact h

example : (({ exModel with bounds := none } : Model ℚ).build refArgsort).toOption.bind (·.dims) =
    some ⟨3, 2, 9, [], [0, 1, 2, 3, 4, 5, 6, 7, 8]⟩ := by decide +kernel

end TrussPy
