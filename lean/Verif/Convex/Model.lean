import Verif.Base.Vec
import Mathlib.Data.List.Sort
import Mathlib.Algebra.Order.Field.Basic

/-!
# Model of the mesh of `Convex` (`include/fcl/geometry/shape/convex.h`, `convex-inl.h`)

The constructor's adjacency graph, its topology check and `findExtremeVertex`. The faces are the flat array the
user passes: for each face the number of its vertices, then their indices. Reading outside of an array
is undefined behaviour, modelled as `none`.
-/

namespace Fcl
namespace Convex

/-- The inner loop over the vertices of one face, `convex-inl.h:452-457` (and 405-409, where it counts faces
per edge): the pairs `(v, prev_v)` in order, `n` indices from position `i` on. -/
def faceEdges (faces : List ℕ) : ℕ → ℕ → ℕ → Option (List (ℕ × ℕ))
  | 0, _, _ => some []
  | n + 1, i, prev => do
    let v ← faces[i]?
    let rest ← faceEdges faces n (i + 1) v
    return (v, prev) :: rest

/-- The outer loop over the faces, lines 447-459 (and 401-411); `fi` is `face_index`. -/
def allEdges (faces : List ℕ) : ℕ → ℕ → Option (List (ℕ × ℕ))
  | 0, _ => some []
  | f + 1, fi => do
    let n ← faces[fi]?
    let prev ← faces[fi + n]?
    let es ← faceEdges faces n (fi + 1) prev
    let rest ← allEdges faces f (fi + n + 1)
    return es ++ rest

/-- `std::set<int>::insert`: a sorted list without duplicates. -/
def setInsert (x : ℕ) (l : List ℕ) : List ℕ := if x ∈ l then l else l.orderedInsert (· ≤ ·) x

/-- `neighbors[v].insert(x)`, undefined for `v` outside of the vector. -/
def insertAt (ns : List (List ℕ)) (v x : ℕ) : Option (List (List ℕ)) :=
  if v < ns.length then some (ns.modify v (setInsert x)) else none

/-- The sets of neighbours, lines 454-455 in the loop. -/
def neighborSets (ns : List (List ℕ)) : List (ℕ × ℕ) → Option (List (List ℕ))
  | [] => some ns
  | (v, p) :: es => do
    let ns1 ← insertAt ns v p
    let ns2 ← insertAt ns1 p v
    neighborSets ns2 es

/-- The encoded adjacency graph, lines 462-468: from vertex `v` on. -/
def encode (arr : List ℕ) : ℕ → List (List ℕ) → List ℕ
  | _, [] => arr
  | v, nb :: rest => encode (arr.set v arr.length ++ nb.length :: nb) (v + 1) rest

/-- `FindVertexNeighbors`, lines 438-469; `vc` is the number of vertices. -/
def findVertexNeighbors (vc nf : ℕ) (faces : List ℕ) : Option (List ℕ) := do
  let es ← allEdges faces nf 0
  let ns ← neighborSets (List.replicate vc []) es
  return encode (List.replicate vc 0) 0 ns

/-- `n` entries from position `i` on. -/
def readN (enc : List ℕ) : ℕ → ℕ → Option (List ℕ)
  | 0, _ => some []
  | n + 1, i => do
    let x ← enc[i]?
    let rest ← readN enc n (i + 1)
    return x :: rest

/-- Reading the neighbours of a vertex out of the encoded graph (lines 380-392). -/
def neighborsOf (enc : List ℕ) (v : ℕ) : Option (List ℕ) := do
  let s ← enc[v]?
  let n ← enc[s]?
  readN enc n (s + 1)

/-- `make_edge`, lines 369-372. -/
def makeEdge (a b : ℕ) : ℕ × ℕ := if a > b then (b, a) else (a, b)

/-- The keys of `per_edge_face_count` after lines 374-393, with the connectivity test. -/
def vertexEdges (enc : List ℕ) : List ℕ → Option (List (ℕ × ℕ) × Bool)
  | [] => some ([], true)
  | v :: vs => do
    let nb ← neighborsOf enc v
    let r ← vertexEdges enc vs
    return (nb.map (makeEdge v) ++ r.1, decide (nb.length ≠ 0) && r.2)

/-- `ValidateTopology`, lines 359-435: is the mesh free of errors? An edge is counted once for every face that
has it; every key must be counted twice. -/
def topologyOk (vc nf : ℕ) (faces enc : List ℕ) : Option Bool := do
  let keys ← vertexEdges enc (List.range vc)
  let es ← allEdges faces nf 0
  let cnt := es.map (fun e => makeEdge e.1 e.2)
  return keys.2 && (keys.1 ++ cnt).all (fun e => cnt.count e = 2)

/-- The object after construction. -/
structure Mesh (K : Type) where
  vertices : List (V3 K)
  neighbors : List ℕ
  viaNeighbors : Bool

/-- What the constructor does: undefined behaviour, an exception, or an object. -/
inductive Built (K : Type)
  | undefined
  | throws
  | ok (m : Mesh K)

/-- The constructor, lines 59-83 (without the interior point). `kMinVertCountForEdgeWalking` is 32
(`convex.h:272`). -/
def construct {K : Type} (vertices : List (V3 K)) (nf : ℕ) (faces : List ℕ) (throwIfInvalid : Bool) : Built K :=
  match findVertexNeighbors vertices.length nf faces with
  | none => .undefined
  | some enc =>
    match topologyOk vertices.length nf faces enc with
    | none => .undefined
    | some good =>
      if !good && throwIfInvalid then .throws
      else .ok ⟨vertices, enc, decide (32 < vertices.length) && good⟩

section
variable {K : Type} [Field K] [LinearOrder K]

/-- The state of the walk: `visited`, `extreme_index`, `extreme_value`, `keep_searching`. -/
structure Walk (K : Type) where
  visited : List Bool
  ext : ℕ
  val : K
  keep : Bool

/-- The inner loop, lines 284-301: the indices `n_index` from `i` on, `n` of them. -/
def walkInner (m : Mesh K) (d : V3 K) : ℕ → ℕ → Walk K → Option (Walk K)
  | 0, _, w => some w
  | n + 1, i, w => do
    let j ← m.neighbors[i]?
    let seen ← w.visited[j]?
    if seen then walkInner m d n (i + 1) w
    else
      let p ← m.vertices[j]?
      let x := d.dot p
      let vis := w.visited.set j true
      if x ≥ w.val then walkInner m d n (i + 1) ⟨vis, j, x, true⟩
      else walkInner m d n (i + 1) { w with visited := vis }

/-- The outer loop, lines 279-302; `none` also when it does not end within the fuel. -/
def walk (m : Mesh K) (d : V3 K) : ℕ → Walk K → Option (Walk K)
  | 0, _ => none
  | fuel + 1, w => do
    let s ← m.neighbors[w.ext]?
    let n ← m.neighbors[s]?
    let w' ← walkInner m d n (s + 1) { w with keep := false }
    if w'.keep then walk m d fuel w' else return w'

/-- The linear search, lines 304-311. -/
def linear (d : V3 K) : List (V3 K) → ℕ → ℕ → K → ℕ
  | [], _, ext, _ => ext
  | p :: ps, i, ext, val => if d.dot p > val then linear d ps (i + 1) i (d.dot p) else linear d ps (i + 1) ext val

/-- `findExtremeVertex(v_C)`, lines 265-314: the index of the vertex returned. -/
def findExtreme (fuel : ℕ) (m : Mesh K) (d : V3 K) : Option ℕ := do
  let p ← m.vertices[0]?
  if m.viaNeighbors then
    let w ← walk m d fuel ⟨List.replicate m.vertices.length false, 0, d.dot p, false⟩
    return w.ext
  else return linear d m.vertices.tail 1 0 (d.dot p)

/-- The vertex returned. -/
def findExtremeVertex (fuel : ℕ) (m : Mesh K) (d : V3 K) : Option (V3 K) :=
  (findExtreme fuel m d).bind (fun i => m.vertices[i]?)

end
end Convex
end Fcl
