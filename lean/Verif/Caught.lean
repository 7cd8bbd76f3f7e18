import Verif.Build
/-!
# Calls whose exceptions are caught

`Verif/Handlers.lean` and `Verif/Build.lean` say what a call returns or raises.  In an interactive session a
user goes on after an exception; then it matters what the call had already done.  The functions below
repeat the handler methods and `Model.build` line by line and return the state left behind together with
the result.
-/

namespace TrussPy

variable {F : Type}

/-- `handler_node.py:26-36` `add_node`: `labels` is assigned (35) before `np.vstack` may raise (36). -/
def addNodeC (h : Option (NodeTab F)) (n : Node F) : Option (NodeTab F) × Py Unit :=
  match h with
  | none => (some ⟨[n.label], Tab.ofRow n.coord⟩, .ok ())
  | some t => match t.coords.vstack n.coord with
    | .ok coords => (some ⟨t.labels ++ [n.label], coords⟩, .ok ())
    | .error e => (some ⟨t.labels ++ [n.label], t.coords⟩, .error e)

/-- `handler_node.py:38-41` `del_node`: `labels` is assigned (40) before `np.delete` of the coordinates may raise
(41). -/
def delNodeC (h : Option (NodeTab F)) (label : Int) : Option (NodeTab F) × Py Unit :=
  match h with
  | none => (none, .error .valueError)
  | some t =>
    let idx := whereEq t.labels label
    match npDelete t.labels idx with
    | .error e => (some t, .error e)
    | .ok labels => match t.coords.delete idx with
      | .ok coords => (some ⟨labels, coords⟩, .ok ())
      | .error e => (some ⟨labels, t.coords⟩, .error e)

/-- `handler_node.py:47-50` `fix_nodes`. -/
def fixNodesC (argsort : List Int → List Nat) (t : NodeTab F) : NodeTab F × Py Unit :=
  let indices := argsort t.labels
  match npTake t.labels indices with
  | .error e => (t, .error e)
  | .ok labels => match t.coords.take indices with
    | .error e => (⟨labels, t.coords⟩, .error e)
    | .ok coords => (⟨labels, coords⟩, .ok ())

/-- `handler_boundary.py:36-47` `add_bound_U`: `Unodes` (46) before `Uvalues` (47). -/
def addBoundUC (h : Option BoundTab) (b : BoundU) : Option BoundTab × Py Unit :=
  match h with
  | none => (some ⟨[b.node], .d1 b.values⟩, .ok ())
  | some t => match t.values.vstack b.values with
    | .ok values => (some ⟨t.nodes ++ [b.node], values⟩, .ok ())
    | .error e => (some ⟨t.nodes ++ [b.node], t.values⟩, .error e)

/-- `handler_boundary.py:49-53` `del_bound_U`. -/
def delBoundUC (h : Option BoundTab) (label : Int) : Option BoundTab × Py Unit :=
  match h with
  | none => (none, .error .valueError)
  | some t =>
    let idx := whereEq t.nodes label
    match npDelete t.nodes idx with
    | .error e => (some t, .error e)
    | .ok nodes => match t.values.delete idx with
      | .ok values => (some ⟨nodes, values⟩, .ok ())
      | .error e => (some ⟨nodes, t.values⟩, .error e)

/-- `handler_boundary.py:55-58` `add_bounds_U` (and the loop 67-69): the first exception ends the loop. -/
def addBoundsUC (h : Option BoundTab) : List BoundU → Option BoundTab × Py Unit
  | [] => (h, .ok ())
  | b :: bs => match addBoundUC h b with
    | (h', .ok ()) => addBoundsUC h' bs
    | (h', .error e) => (h', .error e)

/-- `handler_boundary.py:60-71` `fix_bounds_U`. -/
def fixBoundsUC (argsort : List Int → List Nat) (nodelist : List Int) (h : Option BoundTab) :
    Option BoundTab × Py BoundTab :=
  match addBoundsUC h ((missing nodelist (h.map (·.nodes))).map fun n => ⟨n, [1, 1, 1]⟩) with
  | (h', .error e) => (h', .error e)
  | (none, .ok ()) => (none, .error .valueError)
  | (some t, .ok ()) =>
    let indices := argsort t.nodes
    match npTake t.nodes indices with
    | .error e => (some t, .error e)
    | .ok nodes => match t.values.take indices with
      | .error e => (some ⟨nodes, t.values⟩, .error e)
      | .ok values => (some ⟨nodes, values⟩, .ok ⟨nodes, values⟩)

/-- `handler_extforce.py:26-35` `add_force`: `nodes` (34) before `forces` (35). -/
def addForceC (h : Option (ForceTab F)) (f : ExtForce F) : Option (ForceTab F) × Py Unit :=
  match h with
  | none => (some ⟨[f.node], Tab.ofRow f.force⟩, .ok ())
  | some t => match t.forces.vstack f.force with
    | .ok forces => (some ⟨t.nodes ++ [f.node], forces⟩, .ok ())
    | .error e => (some ⟨t.nodes ++ [f.node], t.forces⟩, .error e)

/-- `handler_extforce.py:37-40` `del_force`. -/
def delForceC (h : Option (ForceTab F)) (label : Int) : Option (ForceTab F) × Py Unit :=
  match h with
  | none => (none, .error .valueError)
  | some t =>
    let idx := whereEq t.nodes label
    match npDelete t.nodes idx with
    | .error e => (some t, .error e)
    | .ok nodes => match t.forces.delete idx with
      | .ok forces => (some ⟨nodes, forces⟩, .ok ())
      | .error e => (some ⟨nodes, t.forces⟩, .error e)

/-- `handler_extforce.py:42-44` `add_forces` (and the loop 53-55). -/
def addForcesC (h : Option (ForceTab F)) : List (ExtForce F) → Option (ForceTab F) × Py Unit
  | [] => (h, .ok ())
  | b :: bs => match addForceC h b with
    | (h', .ok ()) => addForcesC h' bs
    | (h', .error e) => (h', .error e)

/-- `handler_extforce.py:46-58` `fix_forces`. -/
def fixForcesC [Zero F] (argsort : List Int → List Nat) (nodelist : List Int) (h : Option (ForceTab F)) :
    Option (ForceTab F) × Py (ForceTab F) :=
  match h with
  | none => (none, .error .attributeError)
  | some t =>
    match addForcesC h ((missing nodelist (some t.nodes)).map fun n => ⟨n, List.replicate t.forces.cols 0⟩) with
    | (h', .error e) => (h', .error e)
    | (none, .ok ()) => (none, .error .attributeError)
    | (some t, .ok ()) =>
      let indices := argsort t.nodes
      match npTake t.nodes indices with
      | .error e => (some t, .error e)
      | .ok nodes => match t.forces.take indices with
        | .error e => (some ⟨nodes, t.forces⟩, .error e)
        | .ok forces => (some ⟨nodes, forces⟩, .ok ⟨nodes, forces⟩)

/-- `handler_element.py:76-100` `add_element`: labels, connectivity, types, material and geometric properties are
assigned one after the other; `np.vstack` may raise in lines 92, 95 and 98. -/
def addElemC (h : Option (ElemTab F)) (e : Elem F) : Option (ElemTab F) × Py Unit :=
  match h with
  | none => (some ⟨[e.label], Tab.ofRow e.conn, [e.etype], [e.mtype], PTab.ofRow e.mprop, PTab.ofRow e.gprop⟩, .ok ())
  | some t =>
    let t := { t with labels := t.labels ++ [e.label] }
    match t.conns.vstack e.conn with
    | .error x => (some t, .error x)
    | .ok conns =>
      let t := { t with conns := conns, etype := t.etype ++ [e.etype], mtype := t.mtype ++ [e.mtype] }
      match t.mprop.vstack e.mprop with
      | .error x => (some t, .error x)
      | .ok mprop =>
        let t := { t with mprop := mprop }
        match t.gprop.vstack e.gprop with
        | .error x => (some t, .error x)
        | .ok gprop => (some { t with gprop := gprop }, .ok ())

/-- `handler_element.py:102-107` `del_element`. -/
def delElemC (h : Option (ElemTab F)) (label : Int) : Option (ElemTab F) × Py Unit :=
  match h with
  | none => (none, .error .valueError)
  | some t =>
    let idx := whereEq t.labels label
    match npDelete t.labels idx with
    | .error e => (some t, .error e)
    | .ok labels =>
      let t := { t with labels := labels }
      match t.conns.delete idx with
      | .error e => (some t, .error e)
      | .ok conns =>
        let t := { t with conns := conns }
        match t.mprop.delete idx with
        | .error e => (some t, .error e)
        | .ok mprop =>
          let t := { t with mprop := mprop }
          match t.gprop.delete idx with
          | .error e => (some t, .error e)
          | .ok gprop => (some { t with gprop := gprop }, .ok ())

/-- `model.py:146-150`: the comparison of the label lists. -/
def sameLabels (nt : NodeTab F) (bt : BoundTab) (ft : ForceTab F) : Py Bool := do
  let okB ← npAllclose nt.labels bt.nodes
  let okF ← if okB then npAllclose nt.labels ft.nodes else pure false
  return okB && okF

/-- `model.py:126-199` `Model.build`.  Results and analysis are replaced first (129-130): an `Analysis` that was not
built yet is `none`.  Simplifications: `ndim` other than 3 is refused before anything is sorted (as in
`Model.build`); the dimensions (136-139, 161-166) are `none` after a failure, although some
of them have been assigned; the model is not evaluated before the next `build`. -/
def Model.buildC [Zero F] (argsort : List Int → List Nat) (m : Model F) : Model F × Py Unit :=
  let m := { m with results := some ⟨[], []⟩, analysis := none, dims := none }
  match m.nodes, m.elems with
  | some nt0, some et =>
    if m.settings.ndim ≠ 3 then (m, .error .valueError) else
    match fixNodesC argsort nt0 with
    | (nt, .error e) => ({ m with nodes := some nt }, .error e)
    | (nt, .ok ()) =>
      let m := { m with nodes := some nt }
      match fixBoundsUC argsort nt.labels m.bounds with
      | (b, .error e) => ({ m with bounds := b }, .error e)
      | (b, .ok bt) =>
        let m := { m with bounds := b }
        match fixForcesC argsort nt.labels m.forces with
        | (f, .error e) => ({ m with forces := f }, .error e)
        | (f, .ok ft) =>
          let m := { m with forces := f }
          match sameLabels nt bt ft with
          | .error e => (m, .error e)
          | .ok false => (m, .error .ioError)
          | .ok true =>
            let nstatev := if et.mtype.contains 2 then 2 else m.settings.nstatev
            let m := { m with settings := { m.settings with nstatev := nstatev } }
            let nnodes := nt0.labels.length
            let nelems := et.labels.length
            match dofWhere (nnodes * 3) bt.values.flatten 0 with
            | .error e => (m, .error e)
            | .ok dof0 => match dofWhere (nnodes * 3) bt.values.flatten 1 with
              | .error e => (m, .error e)
              | .ok dof1 => match Analysis.build none nnodes nelems dof0 dof1 nstatev with
                | .error e => (m, .error e)
                | .ok a => ({ m with
                    dims := some ⟨nnodes, nelems, nnodes * 3, dof0, dof1⟩
                    analysis := some a
                    results := some ⟨addIncrement a ft.forces.rows.flatten [], []⟩ }, .ok ())
  | _, _ => (m, .error .typeError)

end TrussPy
