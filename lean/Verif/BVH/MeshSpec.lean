import Verif.BVH.Mesh
import Verif.BVH.Spec
import Verif.Base.Vec
import Mathlib.Data.Set.Basic

/-!
# Vocabulary for meshes
-/

namespace Fcl
variable {K V : Type*}

section
variable [Field K] [LinearOrder K]

/-- The least convex set that contains the points of the list. -/
inductive HullOf (l : List (V3 K)) : V3 K → Prop
  | pt {p} : p ∈ l → HullOf l p
  | seg {p q} (t : K) : 0 ≤ t → t ≤ 1 → HullOf l p → HullOf l q → HullOf l ((1 - t) • p + t • q)

/-- All indices are in range, and the previous vertices are as many as the current ones. -/
structure Geom.WF (g : Geom K) : Prop where
  tris : ∀ t ∈ g.tris, t.1 < g.verts.length ∧ t.2.1 < g.verts.length ∧ t.2.2 < g.verts.length
  prev : ∀ old, g.prev = some old → old.length = g.verts.length

/-- The points of primitive `p`: the triangle, or the one point. -/
def Geom.solid (g : Geom K) (p : ℕ) : Set (V3 K) := {x | HullOf ((g.primIdx p).filterMap (g.verts[·]?)) x}

/-- The vertex array at time `t` of the motion from the previous to the current vertices, in which every vertex moves
along a straight line at constant speed. -/
def Geom.vertsAt (g : Geom K) (t : K) : List (V3 K) :=
  match g.prev with
  | none => g.verts
  | some old => List.zipWith (fun u v => (1 - t) • u + t • v) old g.verts

/-- The points of primitive `p` at time `t` of that motion. -/
def Geom.solidAt (g : Geom K) (t : K) (p : ℕ) : Set (V3 K) := {x | HullOf ((g.primIdx p).filterMap ((g.vertsAt t)[·]?)) x}

/-- The laws of a bounding volume type whose volumes stand for the sets `pts`: it encloses what was added, the sum
encloses both, the sets are convex, and volumes with a common point overlap. -/
structure BVOps.Sound (o : BVOps V K) (pts : V → Set (V3 K)) : Prop where
  add_mem : ∀ v p, p ∈ pts (o.add v p)
  add_mono : ∀ v p, pts v ⊆ pts (o.add v p)
  merge_left : ∀ u v, pts u ⊆ pts (o.merge u v)
  merge_right : ∀ u v, pts v ⊆ pts (o.merge u v)
  convex : ∀ v p q, p ∈ pts v → q ∈ pts v → ∀ t : K, 0 ≤ t → t ≤ 1 → (1 - t) • p + t • q ∈ pts v
  overlap : ∀ u v p, p ∈ pts u → p ∈ pts v → o.overlap u v = true

/-- The volume encloses the primitive at all times of the motion. -/
def Encloses (pts : V → Set (V3 K)) (g : Geom K) (v : V) (p : ℕ) : Prop :=
  ∀ t, 0 ≤ t → t ≤ 1 → g.solidAt t p ⊆ pts v

end

/-- The triangle test reports the pair: it answers yes, and with contact information it gives at least one contact. -/
def MeshPair.Reports (M : MeshPair K) (q : MeshRequest) (i j : ℕ) : Prop :=
  if q.enableContact then ∃ n, M.hitC i j = some (n + 1) else M.hit i j = true

end Fcl
