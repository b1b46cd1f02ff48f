import Verif.BVH.Protocol
import Verif.BVH.MeshSpec

/-!
# What a user of `BVHModel` may rely on

An abstract model in which there are no arrays and no capacities, only the geometry that was given.
-/

namespace Fcl

/-- The geometry of a model and how far the user is in changing it. -/
inductive Abs (K : Type*) where
  /-- Nothing was given. -/
  | empty
  /-- Between `beginModel` and `endModel`: the vertices and triangles given so far. -/
  | building (vs : List (V3 K)) (ts : List (ℕ × ℕ × ℕ))
  /-- A finished model. -/
  | ready (vs : List (V3 K)) (ts : List (ℕ × ℕ × ℕ))
  /-- Between `beginReplaceModel` and `endReplaceModel`: the first `k` vertices were replaced. -/
  | replacing (vs : List (V3 K)) (k : ℕ) (ts : List (ℕ × ℕ × ℕ))
  /-- Between `beginUpdateModel` and `endUpdateModel`: the vertices of the last frame and those given so far. -/
  | updating (old given : List (V3 K)) (ts : List (ℕ × ℕ × ℕ))
  /-- A finished model with the vertices of the last frame. -/
  | updated (old vs : List (V3 K)) (ts : List (ℕ × ℕ × ℕ))

namespace Abs
variable {K : Type*}

/-- `ps` are the next vertices to be replaced. -/
def replace (ps : List (V3 K)) : Abs K → Code × Abs K
  | .replacing vs k ts => (.ok, .replacing (vs.take k ++ ps ++ vs.drop (k + ps.length)) (k + ps.length) ts)
  | a => (.outOfSequence, a)

/-- `ps` are the next vertices of the new frame. -/
def update (ps : List (V3 K)) : Abs K → Code × Abs K
  | .updating old given ts => (.ok, .updating old (given ++ ps) ts)
  | a => (.outOfSequence, a)

/-- More vertices and triangles; the triangles count the new vertices from 0. -/
def add (ps : List (V3 K)) (new : List (ℕ × ℕ × ℕ)) : Abs K → Code × Abs K
  | .building vs ts =>
    (.ok, .building (vs ++ ps) (ts ++ new.map fun t => (t.1 + vs.length, t.2.1 + vs.length, t.2.2 + vs.length)))
  | a => (.outOfSequence, a)

/-- The effect of a call and its return code. A call in the wrong phase returns an error and changes nothing, with
one exception: `beginModel` on a model that is not empty returns an error and empties the model. -/
def step (a : Abs K) : BCall K → Code × Abs K
  | .beginModel .. =>
    match a with
    | .empty => (.ok, .building [] [])
    | _ => (.outOfSequence, .empty)
  | .addVertex p => a.add [p] []
  | .addTriangle p1 p2 p3 => a.add [p1, p2, p3] [(0, 1, 2)]
  | .addPoints ps => a.add ps []
  | .addMesh ps ts => a.add ps ts
  | .endModel =>
    match a with
    | .building [] [] => (.emptyModel, a)
    | .building vs ts => (.ok, .ready vs ts)
    | _ => (.outOfSequence, a)
  | .beginReplace =>
    match a with
    | .ready vs ts => (.ok, .replacing vs 0 ts)
    | _ => (.emptyPreviousFrame, a)
  | .replaceVertex p => a.replace [p]
  | .replaceTriangle p1 p2 p3 => a.replace [p1, p2, p3]
  | .replaceSub ps => a.replace ps
  | .endReplace .. =>
    match a with
    | .replacing vs k ts => if k = vs.length then (.ok, .ready vs ts) else (.incorrectData, a)
    | _ => (.outOfSequence, a)
  | .beginUpdate =>
    match a with
    | .ready vs ts => (.ok, .updating vs [] ts)
    | .updated _ vs ts => (.ok, .updating vs [] ts)
    | _ => (.emptyPreviousFrame, a)
  | .updateVertex p => a.update [p]
  | .updateTriangle p1 p2 p3 => a.update [p1, p2, p3]
  | .updateSub ps => a.update ps
  | .endUpdate .. =>
    match a with
    | .updating old given ts => if given.length = old.length then (.ok, .updated old given ts) else (.incorrectData, a)
    | _ => (.outOfSequence, a)
  | .copy => (.ok, a)

/-- The number of vertices that may still be given by a replace or update call. -/
def room : Abs K → ℕ
  | .replacing vs k _ => vs.length - k
  | .updating old given _ => old.length - given.length
  | _ => 0

def isBuilding : Abs K → Bool
  | .building .. => true
  | _ => false
def isReady : Abs K → Bool
  | .ready .. => true
  | _ => false
def isReplacing : Abs K → Bool
  | .replacing .. => true
  | _ => false
def isUpdating : Abs K → Bool
  | .updating .. => true
  | _ => false

/-- The calls for which the code does what `step` says. Excluded are: `addTriangle` and `addSubModel` in a wrong phase
other than that of a finished model; more vertices than the model has in a replace or update; `endModel` with a
triangle that refers to a vertex that was not given; and copies of a model that is being replaced or updated, or that
was begun and has no vertex yet. -/
def Allowed (a : Abs K) : BCall K → Prop
  | .addTriangle .. | .addPoints .. | .addMesh .. => a.isBuilding ∨ a.isReady
  | .endModel =>
    match a with
    | .building vs ts => ∀ t ∈ ts, t.1 < vs.length ∧ t.2.1 < vs.length ∧ t.2.2 < vs.length
    | _ => True
  | .replaceVertex _ => a.isReplacing → 1 ≤ a.room
  | .replaceTriangle .. => a.isReplacing → 3 ≤ a.room
  | .replaceSub ps => a.isReplacing → ps.length ≤ a.room
  | .updateVertex _ => a.isUpdating → 1 ≤ a.room
  | .updateTriangle .. => a.isUpdating → 3 ≤ a.room
  | .updateSub ps => a.isUpdating → ps.length ≤ a.room
  | .copy =>
    match a with
    | .building vs _ => vs ≠ []
    | .replacing .. => False
    | .updating .. => False
    | _ => True
  | _ => True

/-- A history of allowed calls. -/
def AllAllowed : Abs K → List (BCall K) → Prop
  | _, [] => True
  | a, c :: cs => a.Allowed c ∧ AllAllowed (a.step c).2 cs

/-- The return codes of a history and the state afterwards. -/
def run : Abs K → List (BCall K) → List Code × Abs K
  | a, [] => ([], a)
  | a, c :: cs => ((a.step c).1 :: (run (a.step c).2 cs).1, (run (a.step c).2 cs).2)

end Abs

section
variable {V K : Type*} [Field K] [LinearOrder K]

/-- The arrays of the model hold a hierarchy over `n` primitives that satisfies `P`. -/
def BModel.Holds (m : BModel V K) (n : ℕ) (P : BT V ℕ → Prop) : Prop :=
  m.numBvs = 2 * n - 1 ∧ m.bvs.length = 2 * n - 1 ∧ n ≤ m.prims.length ∧ 1 ≤ n ∧
    ∃ ids t, IsTree m.bvs m.prims 0 0 n ids t ∧ ids.Perm (List.range (2 * n - 1)) ∧ t.prims.Perm (List.range n) ∧ P t

/-- The arrays hold exactly these vertices and triangles. -/
structure BModel.Data (m : BModel V K) (vs : List (V3 K)) (ts : List (ℕ × ℕ × ℕ)) : Prop where
  numV : m.numV = vs.length
  numT : m.numT = ts.length
  verts : m.verts.take m.numV = vs.map some
  tris : m.tris.take m.numT = ts.map some

/-- All triangles refer to vertices. -/
def InRange (vs : List (V3 K)) (ts : List (ℕ × ℕ × ℕ)) : Prop :=
  ∀ t ∈ ts, t.1 < vs.length ∧ t.2.1 < vs.length ∧ t.2.2 < vs.length

/-- The state of the code is the one the user expects. In the finished phases the hierarchy encloses all primitives,
after an update along the whole motion from the last frame to the current one. -/
def BModel.Rep (pts : V → Set (V3 K)) (m : BModel V K) : Abs K → Prop
  | .empty => m.state = .empty ∧ m.Data [] [] ∧ m.prev = none ∧ m.bvs = [] ∧ m.prims = [] ∧ m.numBvs = 0
  | .building vs ts => m.state = .begun ∧ m.Data vs ts ∧ m.prev = none ∧ m.bvs = [] ∧ m.prims = [] ∧ m.numBvs = 0 ∧
      m.verts.length = m.vAlloc ∧ m.tAlloc ≤ m.tris.length ∧ m.numT ≤ m.tAlloc ∧ 1 ≤ m.vAlloc
  | .ready vs ts => m.state = .processed ∧ m.Data vs ts ∧ m.prev = none ∧ m.verts.length = vs.length ∧ InRange vs ts ∧
      m.Holds (Geom.numPrims ⟨vs, none, ts⟩) (Enclosing (Encloses pts ⟨vs, none, ts⟩))
  | .replacing vs k ts => m.state = .replaceBegun ∧ m.Data vs ts ∧ m.prev = none ∧ m.numUpd = some k ∧ k ≤ vs.length ∧
      m.verts.length = vs.length ∧ InRange vs ts ∧ m.Holds (Geom.numPrims ⟨vs, none, ts⟩) fun _ => True
  | .updating old given ts => m.state = .updateBegun ∧ m.numV = old.length ∧ m.numT = ts.length ∧
      m.prev = some (old.map some) ∧ m.numUpd = some given.length ∧ given.length ≤ old.length ∧
      m.verts.length = old.length ∧ m.verts.take given.length = given.map some ∧ m.tris.take m.numT = ts.map some ∧
      InRange old ts ∧ m.Holds (Geom.numPrims ⟨old, none, ts⟩) fun _ => True
  | .updated old vs ts => m.state = .updated ∧ m.Data vs ts ∧ m.prev = some (old.map some) ∧ old.length = vs.length ∧
      m.verts.length = vs.length ∧ InRange vs ts ∧
      m.Holds (Geom.numPrims ⟨vs, none, ts⟩) (Enclosing (Encloses pts ⟨vs, some old, ts⟩))

end
end Fcl
