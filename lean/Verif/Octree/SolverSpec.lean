import Verif.Octree.Solver
import Verif.Props.ConvertBV
import Verif.BVH.Spec

/-!
# Vocabulary for the queries of octrees
-/

namespace Fcl
namespace Octree
open ConvertBV

/-- The log odds of the leaf at the end of a way from a node, `none` if there is no leaf. -/
def Node.leafAt : Node → Path → Option ℝ
  | .leaf v, [] => some v
  | .inner _ c, i :: p => (c i).leafAt p
  | _, _ => none

/-- The log odds of a node. -/
def Node.logOdds : Node → Option ℝ
  | .null => none
  | .leaf v => some v
  | .inner v _ => some v

/-- What octomap ensures (`updateInnerOccupancy`): the log odds of an inner node are not below those of its children. -/
def Node.Consistent : Node → Prop
  | .inner v c => ∀ i, (c i).Consistent ∧ ∀ w, (c i).logOdds = some w → w ≤ v
  | _ => True

/-- The leaf at the end of this way exists and is occupied. -/
def Tree.Occupied (t : Tree) (p : Path) : Prop := ∃ v, t.root.leafAt p = some v ∧ t.thr.isOccupied v

/-- The cell at the end of a way, in the octree placed at `X`. -/
noncomputable def Tree.cellAt (t : Tree) (X : Pose ℝ) (p : Path) : Set (V3 ℝ) := PlacedAt X (cell t.bv (p.map Fin.val)).pts

/-- All that is occupied. -/
noncomputable def Tree.solid (t : Tree) (X : Pose ℝ) : Set (V3 ℝ) := {x | ∃ p, t.Occupied p ∧ x ∈ t.cellAt X p}

/-- No node is both free and occupied: always so if the threshold for free is below that for occupied. For the default
thresholds, which are both the log odds 0, it says that no node has the log odds 0. -/
def Node.Clear (thr : Thresholds) : Node → Prop
  | .null => True
  | .leaf v => ¬ (thr.isFree v ∧ thr.isOccupied v)
  | .inner v c => ¬ (thr.isFree v ∧ thr.isOccupied v) ∧ ∀ i, (c i).Clear thr

/-- A tree as it is used: octomap's invariant and a positive resolution. -/
structure Tree.WF (t : Tree) : Prop where
  consistent : t.root.Consistent
  resolution : 0 < t.resolution

/-- A box with sides of positive length at a rigid pose. -/
def PBox.Ok (b : PBox) : Prop := b.2.Rigid ∧ 0 < b.1.x ∧ 0 < b.1.y ∧ 0 < b.1.z

/-- `std::partial_sort` as it is called: the contacts chosen are some of those given, as many as asked for, and none that is
left out is deeper. -/
def LawfulPick (pick : ℕ → List CPoint → List CPoint) : Prop :=
  ∀ k cs, k < cs.length → (pick k cs).length = k ∧ ∃ rest, (pick k cs ++ rest).Perm cs ∧
    ∀ a ∈ pick k cs, ∀ b ∈ rest, b.depth ≤ a.depth

/-- What a collision query has to do to a result. `Must b1 b2` are the pairs of primitives to be reported, `May c` are the
contacts that may be reported. The old contacts stay; the limit is kept; and if there is space left, everything that must
be reported is. -/
structure Reports {I : Type*} (numMax : ℕ) (Must : Path → I → Prop) (May : OContact I → Prop) (r r' : OResult I) : Prop where
  sound : ∃ new, r'.contacts = r.contacts ++ new ∧ (∀ c ∈ new, May c) ∧
    (r'.contacts.length < numMax → ∀ b1 b2, Must b1 b2 → ∃ c ∈ new, c.b1 = b1 ∧ c.b2 = b2)
  bound : r'.contacts.length ≤ max r.contacts.length numMax

/-- The solver decides exactly whether a box touches the set `B`, and gives contacts if it does. -/
structure ShapeSide.Exact (s : ShapeSide) (B : Set (V3 ℝ)) : Prop where
  hit : ∀ b : PBox, b.Ok → (s.hit b = true ↔ Touch (BoxPts b) B)
  hitC : ∀ b : PBox, b.Ok → ((s.hitC b).isSome = true ↔ Touch (BoxPts b) B)
  some : ∀ (b : PBox) cs, b.Ok → s.hitC b = some cs → cs ≠ []

/-- A contact between an octree, object `o1`, and a shape, object `o2`: the cell is occupied and touches the shape, and if
contacts are asked for the point is one that the solver gave for the two. -/
def shapeMay (q : MeshRequest) (t : Tree) (s : ShapeSide) (tf1 : Pose ℝ) (B : Set (V3 ℝ)) (o1 o2 : ℕ) (c : OContact Unit) : Prop :=
  c.o1 = o1 ∧ c.o2 = o2 ∧ t.Occupied c.b1 ∧ Touch (t.cellAt tf1 c.b1) B ∧
    if q.enableContact then ∃ cs k, s.hitC (ConstructBox.aabbAt (cell t.bv (c.b1.map Fin.val)) tf1) = some cs ∧ k ∈ cs ∧ c.point = some k
    else c.point = none

/-- The solver decides exactly whether a box touches the triangle `k`, which is the set `T k`. -/
structure MeshSide.Exact {V : Type*} (m : MeshSide V) (T : ℕ → Set (V3 ℝ)) : Prop where
  hit : ∀ (b : PBox) k, b.Ok → (m.hit b k = true ↔ Touch (BoxPts b) (T k))
  hitC : ∀ (b : PBox) k, b.Ok → ((m.hitC b k).isSome = true ↔ Touch (BoxPts b) (T k))

/-- The oriented boxes that the hierarchy's volumes are converted to enclose what is below them. -/
def MeshSide.Encloses {V : Type*} (m : MeshSide V) (T : ℕ → Set (V3 ℝ)) (h : BT V ℕ) : Prop :=
  Enclosing (fun w k => (m.toOBB w).WF ∧ T k ⊆ (m.toOBB w).pts) h

/-- A contact between an octree, object `o1`, and a mesh, object `o2`. -/
def meshMay {V : Type*} (q : MeshRequest) (t : Tree) (m : MeshSide V) (tf1 : Pose ℝ) (h : BT V ℕ) (T : ℕ → Set (V3 ℝ)) (o1 o2 : ℕ)
    (c : OContact ℕ) : Prop :=
  c.o1 = o1 ∧ c.o2 = o2 ∧ t.Occupied c.b1 ∧ c.b2 ∈ h.prims ∧ Touch (t.cellAt tf1 c.b1) (T c.b2) ∧
    if q.enableContact then ∃ k, m.hitC (ConstructBox.aabbAt (cell t.bv (c.b1.map Fin.val)) tf1) c.b2 = some k ∧ c.point = some k
    else c.point = none

/-- The solver decides exactly whether two boxes touch, and gives contacts if they do. -/
structure PairSide.Exact (s : PairSide) : Prop where
  hitC : ∀ b c : PBox, b.Ok → c.Ok → ((s.hitC b c).isSome = true ↔ Touch (BoxPts b) (BoxPts c))
  some : ∀ (b c : PBox) cs, b.Ok → c.Ok → s.hitC b c = some cs → cs ≠ []

/-- A contact between two octrees. With contacts the two cells touch; without, the test of the oriented boxes (C45) does not
find them apart. -/
def pairMay (q : MeshRequest) (t1 t2 : Tree) (s : PairSide) (tf1 tf2 : Pose ℝ) (o1 o2 : ℕ) (c : OContact Path) : Prop :=
  c.o1 = o1 ∧ c.o2 = o2 ∧ t1.Occupied c.b1 ∧ t2.Occupied c.b2 ∧
    if q.enableContact then Touch (t1.cellAt tf1 c.b1) (t2.cellAt tf2 c.b2) ∧
      ∃ cs k, s.hitC (ConstructBox.aabbAt (cell t1.bv (c.b1.map Fin.val)) tf1) (ConstructBox.aabbAt (cell t2.bv (c.b2.map Fin.val)) tf2) = some cs ∧
        k ∈ cs ∧ c.point = some k
    else (aabbOBB (cell t1.bv (c.b1.map Fin.val)) tf1).overlap (aabbOBB (cell t2.bv (c.b2.map Fin.val)) tf2) = true ∧ c.point = none

/-- The solver gives the distance of a box and the set `B`, with two points, or `-1` if they touch. -/
def DistExact (dist : PBox → ℝ × V3 ℝ × V3 ℝ) (B : Set (V3 ℝ)) : Prop :=
  ∀ b : PBox, b.Ok → (Touch (BoxPts b) B → (dist b).1 = -1) ∧
    (¬ Touch (BoxPts b) B → 0 < (dist b).1 ∧ IsDist (BoxPts b) B (dist b).1 (dist b).2.1 (dist b).2.2)

/-- The same for two boxes. -/
def PairSide.DistExact (s : PairSide) : Prop := ∀ c : PBox, c.Ok → Octree.DistExact (fun b => s.dist b c) (BoxPts c)

/-- The axis-aligned boxes that the hierarchy's volumes are converted to enclose what is below them. -/
def MeshSide.EnclosesAABB {V : Type*} (m : MeshSide V) (T : ℕ → Set (V3 ℝ)) (h : BT V ℕ) : Prop :=
  Enclosing (fun w k => T k ⊆ (m.toAABB w).pts) h

/-- What a distance query has to do to a result `r`, when the pairs of primitives it has to consider are those with `Cand`,
with the point sets `A` and `B`: a distance `-1` and a pair that touches, if there is one; otherwise the smallest distance
of a pair, with the pair and points at that distance, unless the result already had a distance that is not greater. -/
structure Measures {I : Type*} (o1 o2 : ℕ) (Cand : Path → I → Prop) (A : Path → Set (V3 ℝ)) (B : I → Set (V3 ℝ)) (r r' : ODist I) : Prop where
  touching : (∃ p i, Cand p i ∧ Touch (A p) (B i)) → r'.minDist = -1 ∧
    ∃ b, r'.best = some b ∧ b.o1 = o1 ∧ b.o2 = o2 ∧ Cand b.b1 b.b2 ∧ Touch (A b.b1) (B b.b2)
  apart : ¬ (∃ p i, Cand p i ∧ Touch (A p) (B i)) →
    (∀ p i, Cand p i → ∀ x ∈ A p, ∀ y ∈ B i, r'.minDist ≤ x.dist y) ∧
    (r' = r ∨ r'.minDist < r.minDist ∧ 0 < r'.minDist ∧
      ∃ b, r'.best = some b ∧ b.o1 = o1 ∧ b.o2 = o2 ∧ Cand b.b1 b.b2 ∧ IsDist (A b.b1) (B b.b2) r'.minDist b.nearest.1 b.nearest.2)

end Octree
end Fcl
