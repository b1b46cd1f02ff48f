import Verif.BVH.Mesh

/-!
# Model of the calls that build and change a `BVHModel` (include/fcl/geometry/bvh/BVH_model-inl.h)

Arrays are lists of optional values: the length is what was allocated, `none` is an element that was not written yet.
A null pointer is the empty list (any access to it is out of bounds), except for `prev_vertices`, whose being null is
tested. A call gives `none` if it has undefined behaviour: an access outside of an array, or the use of a value that
was never written. Allocation never fails.
-/

namespace Fcl

/-- `BVHBuildState`, geometry/bvh/BVH_internal.h 52-60. -/
inductive BState
  | empty
  | begun
  | processed
  | updateBegun
  | updated
  | replaceBegun
deriving DecidableEq, Repr

/-- `BVHReturnCode`, BVH_internal.h 63-75; the other codes are not returned by the calls modelled here. -/
inductive Code
  | ok
  | outOfSequence
  | emptyModel
  | emptyPreviousFrame
  | incorrectData
deriving DecidableEq, Repr

/-- The data members of `BVHModel<BV>`, BVH_model.h 170-232. `num_bvs_allocated` is never read. -/
structure BModel (V K : Type*) where
  state : BState
  verts : List (Option (V3 K))
  vAlloc : ℕ
  numV : ℕ
  tris : List (Option (ℕ × ℕ × ℕ))
  tAlloc : ℕ
  numT : ℕ
  prev : Option (List (Option (V3 K)))
  numUpd : Option ℕ
  bvs : List (BVNode V)
  prims : List ℕ
  numBvs : ℕ

/-- The fitter, the splitter and the operator `+` of a volume type, for all contents of the vertex and triangle
arrays. -/
structure BVType (V K : Type*) where
  builder : Geom K → Builder V
  leafFit : Geom K → ℕ → V
  fit : Geom K → List ℕ → V
  merge : V → V → V

/-- The volume types whose fitter adds points one by one. -/
def BVOps.type {V K : Type*} (o : BVOps V K) (right : Geom K → V → List ℕ → ℕ → Bool) : BVType V K :=
  ⟨fun g => o.builder g (right g), o.leafFit, o.fit, o.merge⟩

/-- The calls. `copy` stands for going on with a copy made by the copy constructor. -/
inductive BCall (K : Type*) where
  | beginModel (numTris numVerts : ℤ)
  | addVertex (p : V3 K)
  | addTriangle (p1 p2 p3 : V3 K)
  | addPoints (ps : List (V3 K))
  | addMesh (ps : List (V3 K)) (ts : List (ℕ × ℕ × ℕ))
  | endModel
  | beginReplace
  | replaceVertex (p : V3 K)
  | replaceTriangle (p1 p2 p3 : V3 K)
  | replaceSub (ps : List (V3 K))
  | endReplace (refit bottomup : Bool)
  | beginUpdate
  | updateVertex (p : V3 K)
  | updateTriangle (p1 p2 p3 : V3 K)
  | updateSub (ps : List (V3 K))
  | endUpdate (refit bottomup : Bool)
  | copy

section arrays
variable {α : Type*}

/-- `temp = new T[len]; std::copy(a, a + n, temp)`. -/
def regrow (a : List (Option α)) (n len : ℕ) : Option (List (Option α)) :=
  if n ≤ a.length ∧ n ≤ len then some (a.take n ++ List.replicate (len - n) none) else none

/-- The elements of `xs` are written to `a[i]`, `a[i + 1]`, ... -/
def writeAll (a : List (Option α)) (i : ℕ) : List α → Option (List (Option α))
  | [] => some a
  | x :: xs => if i < a.length then writeAll (a.set i (some x)) (i + 1) xs else none

/-- Every element was written. -/
def readAll : List (Option α) → Option (List α)
  | [] => some []
  | none :: _ => none
  | some x :: l => (readAll l).map (x :: ·)

end arrays

namespace BModel
variable {V K : Type*}

/-- Default constructor, 62-80. -/
def fresh : BModel V K := ⟨.empty, [], 0, 0, [], 0, 0, none, some 0, [], [], 0⟩

/-- The vertices and triangles as the fitters see them. The code reads exactly the vertices of the primitives; here
all of the first `num_vertices` have to be written, and all triangles have to refer to them. -/
def geom? (m : BModel V K) (withPrev : Bool) : Option (Geom K) :=
  if m.verts.length < m.numV ∨ m.tris.length < m.numT then none
  else
    match readAll (m.verts.take m.numV), readAll (m.tris.take m.numT) with
    | some vs, some ts =>
      if ts.all fun t => t.1 < vs.length && t.2.1 < vs.length && t.2.2 < vs.length then
        match m.prev, withPrev with
        | some old, true =>
          if old.length < m.numV then none
          else (readAll (old.take m.numV)).map fun o => ⟨vs, some o, ts⟩
        | _, _ => some ⟨vs, none, ts⟩
      else none
    | _, _ => none

/-- `buildTree`, 833-864. For a model without vertices (`BVH_MODEL_UNKNOWN`) it only sets `num_bvs`, and its error
code is ignored by all callers. -/
def build (t : BVType V K) (m : BModel V K) : Option (BModel V K) :=
  if m.numV = 0 then some { m with numBvs := 1 }
  else
    match m.geom? false with
    | none => none
    | some g =>
      match buildTree (t.builder g) g.numPrims g.numPrims m.bvs m.prims with
      | none => none
      | some b => some { m with bvs := b.bvs, numBvs := b.numBvs, prims := b.prims }

/-- `refitTree`, 942-957, 961-1027, 1064-1076. For a model without vertices the nodes were never initialised. -/
def refit (t : BVType V K) (bottomup : Bool) (m : BModel V K) : Option (BModel V K) :=
  if m.numV = 0 then none
  else
    match m.geom? true with
    | none => none
    | some g =>
      match (if bottomup then refitBottomUp (t.leafFit g) t.merge g.numPrims 0 m.bvs
        else refitTopDown (t.fit g) m.prims m.numBvs 0 m.bvs) with
      | none => none
      | some b => some { m with bvs := b }

/-- `beginModel`, 206-254. Deleting the arrays of a model that is not empty makes them null. -/
def beginModel (m : BModel V K) (numTris numVerts : ℤ) : Code × BModel V K :=
  let m' : BModel V K :=
    if m.state ≠ .empty then
      { m with verts := [], tris := [], bvs := [], prev := none, prims := [], vAlloc := 0, numV := 0, tAlloc := 0,
               numT := 0, numBvs := 0 }
    else m
  let nt := if numTris < 0 then 8 else numTris.toNat
  let nv := if numVerts ≤ 0 then 8 else numVerts.toNat
  let m' := { m' with vAlloc := nv, tAlloc := nt }
  let m' := if nt > 0 then { m' with tris := List.replicate nt none } else m'
  let m' := { m' with verts := List.replicate nv none }
  if m.state ≠ .empty then (.outOfSequence, { m' with state := .empty })
  else (.ok, { m' with state := .begun })

/-- `addVertex`, 257-285. -/
def addVertex (m : BModel V K) (p : V3 K) : Option (Code × BModel V K) :=
  if m.state ≠ .begun then some (.outOfSequence, m)
  else
    match (if m.numV ≥ m.vAlloc then (regrow m.verts m.numV (m.vAlloc * 2)).map (·, m.vAlloc * 2)
      else some (m.verts, m.vAlloc)) with
    | none => none
    | some (vs, al) =>
      match writeAll vs m.numV [p] with
      | none => none
      | some vs => some (.ok, { m with verts := vs, vAlloc := al, numV := m.numV + 1 })

/-- `addTriangle`, 288-343. -/
def addTriangle (m : BModel V K) (p1 p2 p3 : V3 K) : Option (Code × BModel V K) :=
  if m.state = .processed then some (.outOfSequence, m)
  else
    match (if m.numV + 2 ≥ m.vAlloc then (regrow m.verts m.numV (m.vAlloc * 2 + 2)).map (·, m.vAlloc * 2 + 2)
      else some (m.verts, m.vAlloc)) with
    | none => none
    | some (vs, al) =>
      match writeAll vs m.numV [p1, p2, p3] with
      | none => none
      | some vs =>
        let al0 := if m.tAlloc = 0 then 1 else m.tAlloc
        match (if m.numT ≥ m.tAlloc then (regrow m.tris m.numT (al0 * 2)).map (·, al0 * 2)
          else some (m.tris, m.tAlloc)) with
        | none => none
        | some (ts, tal) =>
          match writeAll ts m.numT [(m.numV, m.numV + 1, m.numV + 2)] with
          | none => none
          | some ts => some (.ok, { m with verts := vs, vAlloc := al, numV := m.numV + 3, tris := ts, tAlloc := tal,
                                           numT := m.numT + 1 })

/-- `addSubModel(ps)`, 347-379. The comparison `num_vertices + k - 1 >= allocated` is one of `int`s, where `k` may
be 0. -/
def addPoints (m : BModel V K) (ps : List (V3 K)) : Option (Code × BModel V K) :=
  if m.state = .processed then some (.outOfSequence, m)
  else
    match (if m.numV + ps.length ≥ m.vAlloc + 1 then
        (regrow m.verts m.numV (m.vAlloc * 2 + ps.length - 1)).map (·, m.vAlloc * 2 + ps.length - 1)
      else some (m.verts, m.vAlloc)) with
    | none => none
    | some (vs, al) =>
      match writeAll vs m.numV ps with
      | none => none
      | some vs => some (.ok, { m with verts := vs, vAlloc := al, numV := m.numV + ps.length })

/-- `addSubModel(ps, ts)`, 383-446. -/
def addMesh (m : BModel V K) (ps : List (V3 K)) (new : List (ℕ × ℕ × ℕ)) : Option (Code × BModel V K) :=
  if m.state = .processed then some (.outOfSequence, m)
  else
    match (if m.numV + ps.length ≥ m.vAlloc + 1 then
        (regrow m.verts m.numV (m.vAlloc * 2 + ps.length - 1)).map (·, m.vAlloc * 2 + ps.length - 1)
      else some (m.verts, m.vAlloc)) with
    | none => none
    | some (vs, al) =>
      match writeAll vs m.numV ps with
      | none => none
      | some vs =>
        let al0 := if m.tAlloc = 0 then 1 else m.tAlloc
        match (if m.numT + new.length ≥ m.tAlloc + 1 then
            (regrow m.tris m.numT (al0 * 2 + new.length - 1)).map (·, al0 * 2 + new.length - 1)
          else some (m.tris, m.tAlloc)) with
        | none => none
        | some (ts, tal) =>
          match writeAll ts m.numT (new.map fun t => (t.1 + m.numV, t.2.1 + m.numV, t.2.2 + m.numV)) with
          | none => none
          | some ts => some (.ok, { m with verts := vs, vAlloc := al, numV := m.numV + ps.length, tris := ts, tAlloc := tal,
                                           numT := m.numT + new.length })

/-- `endModel`, 449-517. `junk` and `junkIdx` are the contents of the arrays `bvs` and `primitive_indices` before
anything is written to them. -/
def endModel (t : BVType V K) (junk : BVNode V) (junkIdx : ℕ) (m : BModel V K) : Option (Code × BModel V K) :=
  if m.state ≠ .begun then some (.outOfSequence, m)
  else if m.numT = 0 ∧ m.numV = 0 then some (.emptyModel, m)
  else
    match (if m.tAlloc > m.numT then (regrow m.tris m.numT m.numT).map (·, m.numT) else some (m.tris, m.tAlloc)) with
    | none => none
    | some (ts, tal) =>
      match (if m.vAlloc > m.numV then (regrow m.verts m.numV m.numV).map (·, m.numV)
        else some (m.verts, m.vAlloc)) with
      | none => none
      | some (vs, al) =>
        let n := if m.numT = 0 then 2 * m.numV - 1 else 2 * m.numT - 1
        match build t { m with tris := ts, tAlloc := tal, verts := vs, vAlloc := al, bvs := List.replicate n junk,
                               prims := List.replicate n junkIdx, numBvs := 0 } with
        | none => none
        | some m => some (.ok, { m with state := .processed })

/-- `beginReplaceModel`, 520-541. -/
def beginReplace (m : BModel V K) : Code × BModel V K :=
  if m.state ≠ .processed then (.emptyPreviousFrame, m)
  else (.ok, { m with prev := none, numUpd := some 0, state := .replaceBegun })

/-- The loops that write to `vertices[num_vertex_updated]`, 554-555, 569-571, 584-588, 667-668, 682-684, 697-701. -/
def overwrite (m : BModel V K) (ps : List (V3 K)) : Option (Code × BModel V K) :=
  match m.numUpd with
  | none => none
  | some k =>
    match writeAll m.verts k ps with
    | none => none
    | some vs => some (.ok, { m with verts := vs, numUpd := some (k + ps.length) })

/-- `replaceVertex`, `replaceTriangle`, `replaceSubModel`, 544-590. -/
def replace (m : BModel V K) (ps : List (V3 K)) : Option (Code × BModel V K) :=
  if m.state ≠ .replaceBegun then some (.outOfSequence, m) else m.overwrite ps

/-- `endReplaceModel`, 593-621. -/
def endReplace (t : BVType V K) (refit bottomup : Bool) (m : BModel V K) : Option (Code × BModel V K) :=
  if m.state ≠ .replaceBegun then some (.outOfSequence, m)
  else
    match m.numUpd with
    | none => none
    | some k =>
      if k ≠ m.numV then some (.incorrectData, m)
      else
        match (if refit then m.refit t bottomup else m.build t) with
        | none => none
        | some m => some (.ok, { m with state := .processed })

/-- `beginUpdateModel`, 624-652. -/
def beginUpdate (m : BModel V K) : Code × BModel V K :=
  if m.state ≠ .processed ∧ m.state ≠ .updated then (.emptyPreviousFrame, m)
  else
    match m.prev with
    | some old => (.ok, { m with prev := some m.verts, verts := old, numUpd := some 0, state := .updateBegun })
    | none => (.ok, { m with prev := some m.verts, verts := List.replicate m.numV none, numUpd := some 0,
                             state := .updateBegun })

/-- `updateVertex`, `updateTriangle`, `updateSubModel`, 655-703. -/
def update (m : BModel V K) (ps : List (V3 K)) : Option (Code × BModel V K) :=
  if m.state ≠ .updateBegun then some (.outOfSequence, m) else m.overwrite ps

/-- `endUpdateModel`, 706-738. -/
def endUpdate (t : BVType V K) (refit bottomup : Bool) (m : BModel V K) : Option (Code × BModel V K) :=
  if m.state ≠ .updateBegun then some (.outOfSequence, m)
  else
    match m.numUpd with
    | none => none
    | some k =>
      if k ≠ m.numV then some (.incorrectData, m)
      else
        match (if refit then m.refit t bottomup else (m.build t).bind (BModel.refit t bottomup)) with
        | none => none
        | some m => some (.ok, { m with state := .updated })

/-- The copy constructor, 83-146. `num_vertex_updated` is not initialised. -/
def copy (m : BModel V K) : Option (BModel V K) :=
  let n := if m.numV = 0 then 0 else if m.numT = 0 then m.numV else m.numT
  if m.verts.length < m.numV ∨ m.tris.length < m.numT ∨ m.bvs.length < m.numBvs ∨
    (m.prims ≠ [] ∧ m.prims.length < n) ∨ (m.prev.any fun old => old.length < m.numV) = true then none
  else
    some { m with verts := m.verts.take m.numV, vAlloc := m.numV, tris := m.tris.take m.numT, tAlloc := m.numT,
                  prev := m.prev.map (·.take m.numV), numUpd := none, bvs := m.bvs.take m.numBvs,
                  prims := m.prims.take n }

/-- One call: the return code and the state afterwards. -/
def call (t : BVType V K) (junk : BVNode V) (junkIdx : ℕ) (m : BModel V K) : BCall K → Option (Code × BModel V K)
  | .beginModel nt nv => some (m.beginModel nt nv)
  | .addVertex p => m.addVertex p
  | .addTriangle p1 p2 p3 => m.addTriangle p1 p2 p3
  | .addPoints ps => m.addPoints ps
  | .addMesh ps ts => m.addMesh ps ts
  | .endModel => m.endModel t junk junkIdx
  | .beginReplace => some m.beginReplace
  | .replaceVertex p => m.replace [p]
  | .replaceTriangle p1 p2 p3 => m.replace [p1, p2, p3]
  | .replaceSub ps => m.replace ps
  | .endReplace r b => m.endReplace t r b
  | .beginUpdate => some m.beginUpdate
  | .updateVertex p => m.update [p]
  | .updateTriangle p1 p2 p3 => m.update [p1, p2, p3]
  | .updateSub ps => m.update ps
  | .endUpdate r b => m.endUpdate t r b
  | .copy => m.copy.map (.ok, ·)

/-- A history of calls: the return codes and the state afterwards. -/
def run (t : BVType V K) (junk : BVNode V) (junkIdx : ℕ) (m : BModel V K) : List (BCall K) → Option (List Code × BModel V K)
  | [] => some ([], m)
  | c :: cs =>
    match m.call t junk junkIdx c with
    | none => none
    | some (code, m) => (run t junk junkIdx m cs).map fun x => (code :: x.1, x.2)

end BModel
end Fcl
