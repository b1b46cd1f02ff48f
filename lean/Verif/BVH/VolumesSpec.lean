import Verif.BVH.Volumes
import Verif.BVH.MeshDistSpec
import Verif.Props.TriTest

/-!
# What is asked of the queries of meshes with oriented volumes
-/

namespace Fcl
namespace OVol
variable {V : Type*}

/-- The eigenvalue iteration succeeds on every set of primitives the construction can ask for. -/
def FitsAll (vol : OVol V) (g : Geom ℝ) : Prop :=
  ∀ l : List ℕ, l ≠ [] → l.Nodup → (∀ p ∈ l, p < g.numPrims) → ∃ b, vol.fit (l.flatMap g.primVerts) = some b

/-- From the arrays of two meshes to the answer of `collide` at two poses: whatever splitters are used and whatever is in
the arrays before, the hierarchies are built and the query finds a collision if and only if the meshes, each at its pose,
have a point in common; it reports no pair of triangles without one, and all pairs with one if it was not told to stop
before. -/
def CollidesExactly (vol : OVol V) (g1 g2 : Geom ℝ) : Prop :=
  ∀ (junk : V) (right1 right2 : V → List ℕ → ℕ → Bool) (bvs1 bvs2 : List (BVNode V)) (prims1 prims2 : List ℕ),
    2 * g1.numPrims - 1 ≤ bvs1.length → 2 * g2.numPrims - 1 ≤ bvs2.length → g1.numPrims ≤ prims1.length → g2.numPrims ≤ prims2.length →
    ∃ s1 s2 t1 t2 ids1 ids2,
      buildTree (vol.builder junk g1 right1) g1.numPrims g1.numPrims bvs1 prims1 = some s1 ∧
      buildTree (vol.builder junk g2 right2) g2.numPrims g2.numPrims bvs2 prims2 = some s2 ∧
      IsTree s1.bvs s1.prims 0 0 g1.numPrims ids1 t1 ∧ IsTree s2.bvs s2.prims 0 0 g2.numPrims ids2 t2 ∧
      ∀ (tf1 tf2 : Pose ℝ), tf1.Rigid → tf2.Rigid → ∀ (larger : V → V → Bool) (big : ℝ), 0 < big →
        ∀ (junk : Option ℕ) (free : Bool) (cost : ℕ → ℕ → CostSource ℝ) (q : MeshRequest), 0 < q.req.numMax →
        ∃ r : CollResult (ℕ × ℕ) ℝ,
          vol.meshCollide larger (g1.numPrims + g2.numPrims) g1 t1 tf1 g2 t2 tf2
            (orientedPair big junk g1 tf1 g2 tf2 true free cost) q CollResult.empty = .result r ∧
          (r.isCollision = true ↔ ∃ i < g1.numPrims, ∃ j < g2.numPrims, MeshTouch g1 tf1 g2 tf2 i j) ∧
          (∀ c ∈ r.contacts, c.1 < g1.numPrims ∧ c.2 < g2.numPrims ∧ MeshTouch g1 tf1 g2 tf2 c.1 c.2) ∧
          r.contacts.length ≤ q.req.numMax ∧
          (r.contacts.length < q.req.numMax → ∀ i < g1.numPrims, ∀ j < g2.numPrims, MeshTouch g1 tf1 g2 tf2 i j → (i, j) ∈ r.contacts)

/-- From the arrays of two meshes to the result of `distance` at two poses: it holds the distance of the meshes, each at
its pose, and two triangles and points at that distance (`MeshFound`), unless the result already names the same two
meshes and nearest points are asked for (`C84_violated_reuse`). `thin` is the bound below which `triDistance` takes a
normal for zero. -/
def DistancesExactly (vol : OVol V) (thin : ℝ) (g1 g2 : Geom ℝ) : Prop :=
  ∀ (junk : V) (right1 right2 : V → List ℕ → ℕ → Bool) (bvs1 bvs2 : List (BVNode V)) (prims1 prims2 : List ℕ),
    2 * g1.numPrims - 1 ≤ bvs1.length → 2 * g2.numPrims - 1 ≤ bvs2.length → g1.numPrims ≤ prims1.length → g2.numPrims ≤ prims2.length →
    ∃ s1 s2 t1 t2 ids1 ids2,
      buildTree (vol.builder junk g1 right1) g1.numPrims g1.numPrims bvs1 prims1 = some s1 ∧
      buildTree (vol.builder junk g2 right2) g2.numPrims g2.numPrims bvs2 prims2 = some s2 ∧
      IsTree s1.bvs s1.prims 0 0 g1.numPrims ids1 t1 ∧ IsTree s2.bvs s2.prims 0 0 g2.numPrims ids2 t2 ∧
      ∀ (tf1 tf2 : Pose ℝ), tf1.Rigid → tf2.Rigid → ∃ d p q,
        IsDist (unionOf g1.numPrims (g1.placed tf1)) (unionOf g2.numPrims (g2.placed tf2)) d p q ∧
        ∀ (larger : V → V → Bool) (points : Bool) (o1 o2 : ℕ) (r : MeshDistResult ℕ), 0 < r.minDist →
          ¬(points = true ∧ r.o1 = some o1 ∧ r.o2 = some o2) →
          ∃ r', orientedMeshDistance vol.distAt larger thin (g1.numPrims + g2.numPrims) points o1 g1 t1 tf1 o2 g2 t2 tf2 r = .result r' ∧
            MeshFound g1.numPrims g2.numPrims (g1.placed tf1) (g2.placed tf2) points o1 o2 d r r'

end OVol
end Fcl
