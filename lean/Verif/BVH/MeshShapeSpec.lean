import Verif.BVH.MeshShape
import Verif.BVH.VolumesSpec
import Verif.Flat.Spec
import Verif.Geom.BoundVertices
import Verif.Props.SphereTriangle

/-!
# What is asked of the collision of a mesh with a shape
-/

namespace Fcl

/-- What the contacts of a query have to be. `touch i`: triangle `i` touches the shape; `near i`: it does so up to the
tolerance of the triangle test; `good i k`: `k` is a right contact of triangle `i`, first, and the shape, second. -/
structure ShapeFound (ptr : MeshPtr) (n : ℕ) (touch near : ℕ → Prop) (good : ℕ → CPoint → Prop) (q : MeshRequest)
    (r : CollResult MSContact ℝ) : Prop where
  /-- Every contact names the mesh and one of its triangles near the shape. -/
  sound : ∀ c ∈ r.contacts, c.o1 = ptr ∧ c.b1 < n ∧ near c.b1
  /-- Contact information is given if it is asked for. -/
  info : q.enableContact = true → ∀ c ∈ r.contacts, ∃ k, c.info = some k ∧ good c.b1 k
  /-- No more contacts than were asked for. -/
  bound : r.contacts.length ≤ q.req.numMax
  /-- No triangle is reported twice. -/
  once : (r.contacts.map MSContact.b1).Nodup
  /-- If there are fewer, all triangles that touch the shape are among them. -/
  complete : r.contacts.length < q.req.numMax → ∀ i < n, touch i → ∃ c ∈ r.contacts, c.b1 = i
  /-- The answer is yes if the mesh touches the shape, and only if it is near. -/
  yes : 0 < q.req.numMax → (∃ i < n, touch i) → r.isCollision = true
  no : r.isCollision = true → ∃ i < n, near i

namespace OVol
variable {V : Type*}

/-- From the arrays of a mesh to the result of `collide` with a shape: whatever splitter is used and whatever is in the
arrays before, the hierarchy is built, and `then_` holds for it. -/
def Built (vol : OVol V) (g : Geom ℝ) (then_ : BT V ℕ → Prop) : Prop :=
  ∀ (junk : V) (right : V → List ℕ → ℕ → Bool) (bvs : List (BVNode V)) (prims : List ℕ),
    2 * g.numPrims - 1 ≤ bvs.length → g.numPrims ≤ prims.length →
    ∃ s t ids, buildTree (vol.builder junk g right) g.numPrims g.numPrims bvs prims = some s ∧
      IsTree s.bvs s.prims 0 0 g.numPrims ids t ∧ then_ t

/-- `collide` with a half-space, at all poses at which no point of the mesh is further from the origin than the greatest
number: the triangles reported are those that have a point in the half-space, and the contacts are exact. `bv` is the
volume of the half-space. -/
def CollidesHalfspace (vol : OVol V) (big : ℝ) (bv : V3 ℝ → ℝ → Pose ℝ → Option V) (g : Geom ℝ) : Prop :=
  vol.Built g fun t => ∀ (tf1 tf2 : Pose ℝ), tf1.Rigid → tf2.Rigid → (∀ i < g.numPrims, ∀ x ∈ g.placed tf1 i, x.nrm ≤ big) →
    ∀ (n : V3 ℝ) (d : ℝ), (Geo.halfspace n d).WF → ∀ (H : Set (V3 ℝ)), H = Placed tf2.R tf2.t (Geo.halfspace n d).pts →
    ∀ (o1 : ℕ) (free1 free2 : Bool) (cost : ℕ → CostSource ℝ) (q : MeshRequest) (approx : Option (Option (CostSource ℝ))),
    ∃ bv2 r, bv n d tf2 = some bv2 ∧
      vol.shapeCollide g.numPrims g t tf1 bv2 (halfspaceMesh (.caller o1) n d tf2 g tf1 true free1 free2 cost) q approx CollResult.empty = .result r ∧
      ShapeFound (.caller o1) g.numPrims (fun i => Touch (g.placed tf1 i) H) (fun i => Touch (g.placed tf1 i) H)
        (fun i k => HalfspaceContact (g.placed tf1 i) H k) q r

/-- A triangle has points on both sides of a plane. -/
def Crosses (n : V3 ℝ) (d : ℝ) (tf2 : Pose ℝ) (T : Set (V3 ℝ)) : Prop :=
  (∃ x ∈ T, (tf2.R.mulVec n).dot (x - tf2.t) < d) ∧ ∃ x ∈ T, d < (tf2.R.mulVec n).dot (x - tf2.t)

/-- `collide` with a plane: the triangles reported are those with points on both sides of it, and the contacts are exact.
The points of the mesh are close enough for the volume `bv` of the plane. -/
def CollidesPlane (vol : OVol V) (big : ℝ) (bv : V3 ℝ → ℝ → Pose ℝ → Option V) (g : Geom ℝ) : Prop :=
  vol.Built g fun t => ∀ (tf1 tf2 : Pose ℝ), tf1.Rigid → tf2.Rigid → ∀ (n : V3 ℝ) (d : ℝ), (Geo.plane n d).WF →
    (∀ i < g.numPrims, ∀ x ∈ g.placed tf1 i, x.nrm ≤ big ∧ x.dist (tf2.apply (d • n)) ≤ big) →
    ∀ (H : Set (V3 ℝ)), H = Placed tf2.R tf2.t (Geo.plane n d).pts →
    ∀ (o1 : ℕ) (free1 free2 : Bool) (cost : ℕ → CostSource ℝ) (q : MeshRequest) (approx : Option (Option (CostSource ℝ))),
    ∃ bv2 r, bv n d tf2 = some bv2 ∧
      vol.shapeCollide g.numPrims g t tf1 bv2 (planeMesh (.caller o1) n d tf2 g tf1 true free1 free2 cost) q approx CollResult.empty = .result r ∧
      ShapeFound (.caller o1) g.numPrims (fun i => Crosses n d tf2 (g.placed tf1 i)) (fun i => Crosses n d tf2 (g.placed tf1 i))
        (fun i k => PlaneContact (g.placed tf1 i) H k ∧ k.pos ∈ g.placed tf1 i) q r

/-- What is asked of a contact of a triangle with a sphere of radius `rad` and centre `o`: a point of the triangle, nearer to
the centre than `rad + eps`, the unit normal from it towards the centre, and (see `C93_violated_depth`) the depth with the
sign reversed. -/
structure SphereContact (eps rad : ℝ) (o : V3 ℝ) (T : Set (V3 ℝ)) (k : CPoint) : Prop where
  mem : k.pos ∈ T
  near : k.pos.dist o < rad + eps
  unit : k.normal.nrm = 1
  along : o = k.pos + (k.pos.dist o) • k.normal
  depth : -k.depth = rad - k.pos.dist o

/-- `collide` with a sphere whose volume `bv` could be computed: every triangle that touches the sphere is found, and every
triangle reported is less than the machine epsilon away from it. -/
def CollidesSphere (vol : OVol V) (eps : ℝ) (bv : ℝ → Pose ℝ → Option V) (g : Geom ℝ) : Prop :=
  vol.Built g fun t => ∀ (tf1 tf2 : Pose ℝ), tf1.Rigid → tf2.Rigid → ∀ (rad : ℝ), 0 ≤ rad → ∀ (bv2 : V), bv rad tf2 = some bv2 →
    ∀ (B : Set (V3 ℝ)), B = Placed tf2.R tf2.t (Geo.sphere rad).pts →
    ∀ (o1 : ℕ) (free1 free2 : Bool) (cost : ℕ → CostSource ℝ) (q : MeshRequest) (approx : Option (Option (CostSource ℝ))),
    ∃ r, vol.shapeCollide g.numPrims g t tf1 bv2 (sphereMesh (.caller o1) eps rad tf2 g tf1 true free1 free2 cost) q approx CollResult.empty = .result r ∧
      ShapeFound (.caller o1) g.numPrims (fun i => Touch (g.placed tf1 i) B) (fun i => ∃ x ∈ g.placed tf1 i, ∃ y ∈ B, x.dist y < eps)
        (fun i k => SphereContact eps rad tf2.t (g.placed tf1 i) k) q r

end OVol
end Fcl
