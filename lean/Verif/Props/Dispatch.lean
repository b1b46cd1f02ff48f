import Verif.Dispatch.Model
import Mathlib.Tactic.Linarith
import Mathlib.Tactic.NormNum
import Mathlib.Data.Rat.Cast.Order

/-!
# C47 and C48: dispatch of `collide` and `distance`

Specification: which pairs of kinds are supported.
-/

namespace Fcl
namespace Dispatch

/-- A basic shape other than a triangle. -/
def Node.IsShape (a : Node) : Prop := a.kind = .geom ∧ a ≠ .triangle
/-- A mesh (of any bounding volume type). -/
def Node.IsMesh (a : Node) : Prop := a.kind = .bvh

instance (a : Node) : Decidable a.IsShape := inferInstanceAs (Decidable (_ ∧ _))
instance (a : Node) : Decidable a.IsMesh := inferInstanceAs (Decidable (_ = _))

/-- The pairs for which there are collision routines: shapes, octrees, meshes with each other, but two meshes
only with the same bounding volume type. -/
def SupportedC (a b : Node) : Prop :=
  (a.IsShape ∨ a.IsMesh ∨ a = .octree) ∧ (b.IsShape ∨ b.IsMesh ∨ b = .octree) ∧ (a.IsMesh → b.IsMesh → a = b)

/-- The pairs for which there are distance routines: as for collision, but two meshes only of AABBs, RSSs, kIOSs or
OBBRSSs, and not a half-space with an ellipsoid, in this order. -/
def SupportedD (a b : Node) : Prop :=
  SupportedC a b ∧ (a.IsMesh → b.IsMesh → a ∈ [Node.aabb, .rss, .kios, .obbrss]) ∧ ¬ (a = .halfspace ∧ b = .ellipsoid)

instance (a b : Node) : Decidable (SupportedC a b) := inferInstanceAs (Decidable (_ ∧ _ ∧ (_ → _)))
instance (a b : Node) : Decidable (SupportedD a b) := inferInstanceAs (Decidable (_ ∧ (_ → _ → _) ∧ _))

/-- The arguments of a routine are of the right kind. -/
def Routine.WellTyped : Routine → Prop
  | .shapeShape a b => a.IsShape ∧ b.IsShape
  | .bvhShape bv s => bv.IsMesh ∧ s.IsShape
  | .bvh bv => bv.IsMesh
  | .octreeShape s => s.IsShape
  | .shapeOctree s => s.IsShape
  | .octree => True
  | .octreeBvh bv => bv.IsMesh
  | .bvhOctree bv => bv.IsMesh

instance : (f : Routine) → Decidable f.WellTyped
  | .shapeShape _ _ => inferInstanceAs (Decidable (_ ∧ _))
  | .bvhShape _ _ => inferInstanceAs (Decidable (_ ∧ _))
  | .bvh _ => inferInstanceAs (Decidable (Node.IsMesh _))
  | .octreeShape _ => inferInstanceAs (Decidable (Node.IsShape _))
  | .shapeOctree _ => inferInstanceAs (Decidable (Node.IsShape _))
  | .octree => inferInstanceAs (Decidable True)
  | .octreeBvh _ => inferInstanceAs (Decidable (Node.IsMesh _))
  | .bvhOctree _ => inferInstanceAs (Decidable (Node.IsMesh _))

def allNodes : List Node := [.unknown, .aabb, .obb, .rss, .kios, .obbrss, .kdop16, .kdop18, .kdop24, .box, .sphere,
  .ellipsoid, .capsule, .cone, .cylinder, .convex, .plane, .halfspace, .triangle, .octree]

theorem mem_allNodes (a : Node) : a ∈ allNodes := by cases a <;> decide

/-- What a table is to contain for a pair. -/
def goodEntry (sup : Node → Node → Prop) [∀ a b, Decidable (sup a b)] (es : List (Node × Node × Routine)) (a b : Node) : Bool :=
  match lookup es a b with
  | none => decide (¬ sup a b ∨ (a.kind = .geom ∧ b.kind = .bvh))
  | some f => decide (sup a b ∧ f.casts = (a, b) ∧ f.WellTyped ∧ ¬ (a.kind = .geom ∧ b.kind = .bvh))

theorem collision_table (a b : Node) : goodEntry SupportedC collisionEntries a b = true := by
  have h : ∀ a ∈ allNodes, ∀ b ∈ allNodes, goodEntry SupportedC collisionEntries a b = true := by decide +kernel
  exact h a (mem_allNodes a) b (mem_allNodes b)

theorem distance_table (a b : Node) : goodEntry SupportedD distanceEntries a b = true := by
  have h : ∀ a ∈ allNodes, ∀ b ∈ allNodes, goodEntry SupportedD distanceEntries a b = true := by decide +kernel
  exact h a (mem_allNodes a) b (mem_allNodes b)

theorem good_some {sup : Node → Node → Prop} [∀ a b, Decidable (sup a b)] {es : List (Node × Node × Routine)} {a b : Node}
    (h : goodEntry sup es a b = true) (hs : sup a b) (hk : ¬ (a.kind = .geom ∧ b.kind = .bvh)) :
    ∃ f, lookup es a b = some f ∧ f.casts = (a, b) ∧ f.WellTyped := by
  unfold goodEntry at h
  split at h
  · rw [decide_eq_true_eq] at h
    rcases h with h | h
    · exact absurd hs h
    · exact absurd h hk
  · rename_i f hf
    rw [decide_eq_true_eq] at h
    exact ⟨f, hf, h.2.1, h.2.2.1⟩

theorem good_none {sup : Node → Node → Prop} [∀ a b, Decidable (sup a b)] {es : List (Node × Node × Routine)} {a b : Node}
    (h : goodEntry sup es a b = true) (hs : ¬ sup a b) : lookup es a b = none := by
  unfold goodEntry at h
  split at h
  · assumption
  · rw [decide_eq_true_eq] at h
    exact absurd h.1 hs

theorem supportedC_symm {a b : Node} : SupportedC a b ↔ SupportedC b a := by
  constructor <;> rintro ⟨h1, h2, h3⟩ <;> exact ⟨h2, h1, fun hb ha => (h3 ha hb).symm⟩

theorem supportedD_swap {a b : Node} (ha : a.kind = .geom) (hb : b.kind = .bvh) : SupportedD a b ↔ SupportedD b a := by
  have h1 : ¬ a.IsMesh := fun h => by rw [Node.IsMesh, ha] at h; simp at h
  unfold SupportedD
  rw [supportedC_symm]
  refine and_congr Iff.rfl (and_congr ?_ ?_)
  · exact ⟨fun _ _ h => absurd h h1, fun _ h => absurd h h1⟩
  · constructor
    · rintro - ⟨rfl, -⟩; simp [Node.kind] at hb
    · rintro - ⟨-, rfl⟩; simp [Node.kind] at hb

end Dispatch
open Dispatch

section
variable {O T C X P : Type*}

/-- C47: with no contacts wanted, `collide` returns 0 and leaves the result as it is. -/
theorem C47_no_contacts (node : O → Node) (trav : Traverse O T C X) (o1 o2 : O) (t1 t2 : T) (q : CRequest) (r : CResult C X)
    (h : q.numMaxContacts = 0) : collide node trav o1 t1 o2 t2 q r = (0, r) := by
  unfold collide; rw [if_pos h]

/-- C47: for a pair of kinds that is not supported, `collide` returns 0 and leaves the result as it is. -/
theorem C47_unsupported (node : O → Node) (trav : Traverse O T C X) (o1 o2 : O) (t1 t2 : T) (q : CRequest) (r : CResult C X)
    (h : ¬ SupportedC (node o1) (node o2)) : collide node trav o1 t1 o2 t2 q r = (0, r) := by
  unfold collide
  split_ifs
  · rfl
  · rw [good_none (collision_table _ _) (fun h' => h (supportedC_symm.1 h'))]
  · rw [good_none (collision_table _ _) h]

/-- C47: for every supported pair there is a routine for exactly the kinds of the two objects, which is run on
them, each with its own transform: the mesh first for a shape and a mesh, otherwise in the order given.
Nothing is done when the request is satisfied already. The number returned is the number of contacts in the
result. -/
theorem C47_supported (node : O → Node) (trav : Traverse O T C X) (o1 o2 : O) (t1 t2 : T) (q : CRequest) (r : CResult C X)
    (hq : q.numMaxContacts ≠ 0) (h : SupportedC (node o1) (node o2)) :
    ∃ f : Routine, f.WellTyped ∧
      (collide node trav o1 t1 o2 t2 q r).1 = (collide node trav o1 t1 o2 t2 q r).2.contacts.length ∧
      (((node o1).IsShape ∧ (node o2).IsMesh ∧ f.casts = (node o2, node o1) ∧
        (collide node trav o1 t1 o2 t2 q r).2 = if q.isSatisfied r then r else trav f o2 t2 o1 t1 q r) ∨
       (¬ ((node o1).IsShape ∧ (node o2).IsMesh) ∧ f.casts = (node o1, node o2) ∧
        (collide node trav o1 t1 o2 t2 q r).2 = if q.isSatisfied r then r else trav f o1 t1 o2 t2 q r)) := by
  by_cases hk : (node o1).kind = .geom ∧ (node o2).kind = .bvh
  · have hsh : (node o1).IsShape := by
      rcases h.1 with h | h | h
      · exact h
      · rw [Node.IsMesh, hk.1] at h; simp at h
      · rw [h] at hk; simp [Node.kind] at hk
    obtain ⟨f, hf, hc, hw⟩ := good_some (collision_table (node o2) (node o1)) (supportedC_symm.1 h)
      (fun h' => by rw [hk.1] at h'; simp at h')
    have he : collide node trav o1 t1 o2 t2 q r = runC trav f o2 t2 o1 t1 q r := by
      unfold collide; rw [if_neg hq, if_pos hk, hf]
    rw [he]
    refine ⟨f, hw, ?_, Or.inl ⟨hsh, hk.2, hc, ?_⟩⟩ <;> unfold runC <;> split_ifs <;> rfl
  · obtain ⟨f, hf, hc, hw⟩ := good_some (collision_table (node o1) (node o2)) h hk
    have he : collide node trav o1 t1 o2 t2 q r = runC trav f o1 t1 o2 t2 q r := by
      unfold collide; rw [if_neg hq, if_neg hk, hf]
    rw [he]
    refine ⟨f, hw, ?_, Or.inr ⟨fun h' => hk ⟨h'.1.1, h'.2⟩, hc, ?_⟩⟩ <;> unfold runC <;> split_ifs <;> rfl

/-- C47: a shape and a mesh may be given in either order. -/
theorem C47_swap (node : O → Node) (trav : Traverse O T C X) (o1 o2 : O) (t1 t2 : T) (q : CRequest) (r : CResult C X)
    (h1 : (node o1).kind = .geom) (h2 : (node o2).kind = .bvh) :
    collide node trav o1 t1 o2 t2 q r = collide node trav o2 t2 o1 t1 q r := by
  unfold collide
  rw [if_pos (And.intro h1 h2), if_neg (show ¬ ((node o2).kind = .geom ∧ (node o1).kind = .bvh) from fun h => by rw [h2] at h; simp at h)]

/-- C47: which pairs are supported does not depend on the order. -/
theorem C47_symmetric (a b : Node) : SupportedC a b ↔ SupportedC b a := supportedC_symm

/-- Two meshes with different bounding volumes, and triangles, are not supported. -/
example : ¬ SupportedC .aabb .obb ∧ ¬ SupportedC .triangle .box ∧ SupportedC .obb .obb ∧ SupportedC .box .octree := by
  decide

variable {K : Type*} [Field K] [LinearOrder K]

/-- C47 for distances: an unsupported pair leaves the result as it is (when it holds no negative distance and
with `enable_signed_distance` unset or set), and the largest number is returned. -/
theorem C47_distance_unsupported (node : O → Node) (big tiny : K) (libccd : Bool) (trav : TraverseD O T K P X)
    (travC : Traverse O T C X) (x0 : X) (depth : C → K) (pos : C → P) (o1 o2 : O) (t1 t2 : T) (q : DRequest) (r : DResult K P X)
    (h : ¬ SupportedD (node o1) (node o2)) (hr : 0 ≤ r.minDistance ∨ q.signedDistance = false) :
    distance node big tiny libccd trav travC x0 depth pos o1 t1 o2 t2 q r = some (big, r) := by
  have hcond : ∀ b : K, ¬ (b ≠ 0 ∧ r.minDistance < 0 ∧ q.signedDistance = true) := by
    rintro b ⟨_, h1, h2⟩
    rcases hr with hr | hr
    · exact absurd h1 (not_lt.2 hr)
    · rw [h2] at hr; simp at hr
  unfold distance distanceBase
  by_cases hk : (node o1).kind = .geom ∧ (node o2).kind = .bvh
  · simp only [if_pos hk, good_none (distance_table _ _) (fun h' => h ((supportedD_swap hk.1 hk.2).2 h'))]
    rw [if_neg (hcond big)]
  · simp only [if_neg hk, good_none (distance_table _ _) h]
    rw [if_neg (hcond big)]

/-- C47 for distances is violated: the distance of an ellipsoid and a half-space is computed, that of a
half-space and an ellipsoid is not. -/
theorem C47_violated_distance : (lookup distanceEntries .ellipsoid .halfspace = some (.shapeShape .ellipsoid .halfspace)) ∧
    lookup distanceEntries .halfspace .ellipsoid = none := by decide +kernel

/-- Where the distance routine runs: `distance` without the signed fallback. -/
theorem Dispatch.distance_base {node : O → Node} {big : K} {trav : TraverseD O T K P X} {o1 o2 : O} {t1 t2 : T} {q : DRequest}
    {r : DResult K P X} (h : SupportedD (node o1) (node o2)) :
    ∃ f : Routine, f.WellTyped ∧ ∃ r' : DResult K P X,
      distanceBase node big trav o1 t1 o2 t2 q r = (r'.minDistance, r') ∧
      (((node o1).kind = .geom ∧ (node o2).kind = .bvh ∧ f.casts = (node o2, node o1) ∧
        r' = if r.satisfied then r else trav f o2 t2 o1 t1 q r) ∨
       (¬ ((node o1).kind = .geom ∧ (node o2).kind = .bvh) ∧ f.casts = (node o1, node o2) ∧
        r' = if r.satisfied then r else trav f o1 t1 o2 t2 q r)) := by
  by_cases hk : (node o1).kind = .geom ∧ (node o2).kind = .bvh
  · obtain ⟨f, hf, hc, hw⟩ := good_some (distance_table (node o2) (node o1)) ((supportedD_swap hk.1 hk.2).1 h)
      (fun h' => by rw [hk.1] at h'; simp at h')
    refine ⟨f, hw, if r.satisfied then r else trav f o2 t2 o1 t1 q r, ?_, Or.inl ⟨hk.1, hk.2, hc, rfl⟩⟩
    rw [distanceBase, if_pos hk, hf]
    simp only [runD]
    split_ifs <;> rfl
  · obtain ⟨f, hf, hc, hw⟩ := good_some (distance_table (node o1) (node o2)) h hk
    refine ⟨f, hw, if r.satisfied then r else trav f o1 t1 o2 t2 q r, ?_, Or.inr ⟨hk, hc, rfl⟩⟩
    rw [distanceBase, if_neg hk, hf]
    simp only [runD]
    split_ifs <;> rfl

/-- C48 (and C47 for distances) without signed distances, or with a result that is not negative, or for two shapes
with libccd: the routine for the kinds of the objects is run on them with their own transforms, and the
value returned is the distance in the result. -/
theorem C48_plain_partial (node : O → Node) (big tiny : K) (libccd : Bool) (trav : TraverseD O T K P X)
    (travC : Traverse O T C X) (x0 : X) (depth : C → K) (pos : C → P) (o1 o2 : O) (t1 t2 : T) (q : DRequest) (r : DResult K P X)
    (h : SupportedD (node o1) (node o2)) :
    ∃ f : Routine, f.WellTyped ∧ ∃ r' : DResult K P X,
      (((node o1).kind = .geom ∧ (node o2).kind = .bvh ∧ f.casts = (node o2, node o1) ∧
        r' = if r.satisfied then r else trav f o2 t2 o1 t1 q r) ∨
       (¬ ((node o1).kind = .geom ∧ (node o2).kind = .bvh) ∧ f.casts = (node o1, node o2) ∧
        r' = if r.satisfied then r else trav f o1 t1 o2 t2 q r)) ∧
      ((0 ≤ r'.minDistance ∨ q.signedDistance = false ∨ (libccd = true ∧ (node o1).kind = .geom ∧ (node o2).kind = .geom)) →
        distance node big tiny libccd trav travC x0 depth pos o1 t1 o2 t2 q r = some (r'.minDistance, r')) := by
  obtain ⟨f, hw, r', he, hr'⟩ := distance_base (big := big) (trav := trav) (t1 := t1) (t2 := t2) (q := q) (r := r) h
  refine ⟨f, hw, r', hr', fun hc => ?_⟩
  unfold distance
  simp only [he]
  rcases hc with hc | hc | hc
  · rw [if_neg (fun h' => absurd h'.2.1 (not_lt.2 hc))]
  · rw [if_neg (fun h' => by rw [hc] at h'; simp at h')]
  · split_ifs <;> rfl

end

namespace Dispatch
section
variable {C K : Type*} [Field K] [LinearOrder K]

theorem deepest_spec (depth : C → K) : ∀ (cs : List C) (m : K) (b : Option C),
    m ≤ (deepest depth cs m b).1 ∧ (∀ c ∈ cs, depth c ≤ (deepest depth cs m b).1) ∧
    ((deepest depth cs m b = (m, b) ∧ ∀ c ∈ cs, depth c ≤ m) ∨
      ∃ c ∈ cs, deepest depth cs m b = (depth c, some c))
  | [], m, b => ⟨le_refl _, by simp, Or.inl ⟨rfl, by simp⟩⟩
  | c :: cs, m, b => by
    rw [deepest]
    split_ifs with h
    · obtain ⟨h1, h2, h3⟩ := deepest_spec depth cs (depth c) (some c)
      refine ⟨le_trans h.le h1, ?_, ?_⟩
      · intro x hx
        rcases List.mem_cons.1 hx with rfl | hx
        · exact h1
        · exact h2 x hx
      · right
        rcases h3 with ⟨h3, _⟩ | ⟨x, hx, h3⟩
        · exact ⟨c, List.mem_cons_self .., h3⟩
        · exact ⟨x, List.mem_cons_of_mem _ hx, h3⟩
    · obtain ⟨h1, h2, h3⟩ := deepest_spec depth cs m b
      refine ⟨h1, ?_, ?_⟩
      · intro x hx
        rcases List.mem_cons.1 hx with rfl | hx
        · exact le_trans (not_lt.1 h) h1
        · exact h2 x hx
      · rcases h3 with ⟨h3, h4⟩ | ⟨x, hx, h3⟩
        · left
          refine ⟨h3, fun x hx => ?_⟩
          rcases List.mem_cons.1 hx with rfl | hx
          · exact not_lt.1 h
          · exact h4 x hx
        · exact Or.inr ⟨x, List.mem_cons_of_mem _ hx, h3⟩

end
end Dispatch

section
variable {O T C X P : Type*} {K : Type*} [Field K] [LinearOrder K]

/-- C48, signed distances by the fallback: when the distance found is negative, and some contact of a collision
query *for one contact* penetrates by more than `tiny`, the distance in the result is the negative of the
greatest depth of its contacts, and the nearest points are the position of such a contact. The value returned is
the first distance. Missing: they differ (`C48_violated_return`), and there is only one contact
(`C48_violated_depth`). -/
theorem C48_signed_partial (node : O → Node) (big tiny : K) (libccd : Bool) (trav : TraverseD O T K P X)
    (travC : Traverse O T C X) (x0 : X) (depth : C → K) (pos : C → P) (o1 o2 : O) (t1 t2 : T) (q : DRequest) (r : DResult K P X)
    (h : SupportedD (node o1) (node o2)) (hs : q.signedDistance = true)
    (hl : ¬ (libccd = true ∧ (node o1).kind = .geom ∧ (node o2).kind = .geom)) :
    ∃ r' : DResult K P X, (∃ f, r' = r ∨ r' = trav f o1 t1 o2 t2 q r ∨ r' = trav f o2 t2 o1 t1 q r) ∧
      (r'.minDistance < 0 →
        ∀ cs, cs = (collide node travC o1 t1 o2 t2 ⟨1, true, false⟩ ⟨[], x0⟩).2.contacts → (∃ c ∈ cs, tiny < depth c) →
        ∃ r'' : DResult K P X, distance node big tiny libccd trav travC x0 depth pos o1 t1 o2 t2 q r = some (r'.minDistance, r'') ∧
          ∃ c ∈ cs, r''.minDistance = -depth c ∧ (∀ c' ∈ cs, depth c' ≤ depth c) ∧
            r''.nearest = (if q.nearestPoints then (pos c, pos c) else r'.nearest) ∧ r''.rest = r'.rest) := by
  obtain ⟨f, hw, r', he, hr'⟩ := distance_base (big := big) (trav := trav) (t1 := t1) (t2 := t2) (q := q) (r := r) h
  refine ⟨r', ⟨f, ?_⟩, ?_⟩
  · rcases hr' with ⟨_, _, _, h⟩ | ⟨_, _, h⟩ <;> rw [h] <;> split_ifs <;> simp
  · rintro hneg cs rfl ⟨c0, hc0, hd0⟩
    unfold distance
    simp only [he]
    rw [if_pos ⟨hneg.ne, hneg, hs⟩, if_neg hl]
    simp only [CRequest.default]
    set cs := (collide node travC o1 t1 o2 t2 ⟨1, true, false⟩ ⟨[], x0⟩).2.contacts
    obtain ⟨h1, h2, h3⟩ := deepest_spec depth cs tiny none
    rcases h3 with ⟨_, h4⟩ | ⟨c, hc, h3⟩
    · exact absurd hd0 (not_lt.2 (h4 c0 hc0))
    · rw [h3] at h2
      rw [h3]
      by_cases hn : q.nearestPoints = true
      · simp only [hn, if_true, Option.orElse_some]
        exact ⟨_, rfl, c, hc, rfl, h2, rfl, rfl⟩
      · simp only [hn, Bool.false_eq_true, if_false]
        exact ⟨_, rfl, c, hc, rfl, h2, rfl, rfl⟩

end

/-- Two meshes (0 and 1) in contact, as a routine sees them: contacts, given by their depths, are added as
long as fewer than the number wanted are there. -/
def exTraverse (all : List ℚ) : Traverse (Fin 2) Unit ℚ Unit := fun _ _ _ _ _ q r =>
  { r with contacts := r.contacts ++ all.take (q.numMaxContacts - r.contacts.length) }
/-- ... and the distance routine, which finds the value -1. -/
def exTraverseD : TraverseD (Fin 2) Unit ℚ ℚ Unit := fun _ _ _ _ _ _ r => { r with minDistance := -1 }

/-- C48 is violated by the value returned: it stays -1 while the distance in the result is -5. -/
theorem C48_violated_return :
    (distance (fun _ => .obbrss) 1000 (1 / 1000) true exTraverseD (exTraverse [5]) () id id 0 () 1 () ⟨false, true⟩
      ⟨1000, (0, 0), ()⟩).map (fun x => (x.1, x.2.minDistance)) = some (-1, -5) := by decide +kernel

/-- C48 is violated by the number of contacts: the objects have contacts of depths 1 and 2, but the collision query
asks for one contact only, and the distance in the result is -1. -/
theorem C48_violated_depth :
    (distance (fun _ => .obbrss) 1000 (1 / 1000) true exTraverseD (exTraverse [1, 2]) () id id 0 () 1 () ⟨false, true⟩
      ⟨1000, (0, 0), ()⟩).map (fun x => x.2.minDistance) = some (-1) ∧
    (collide (fun _ => .obbrss) (exTraverse [1, 2]) (0 : Fin 2) () 1 () ⟨10, true, false⟩ ⟨[], ()⟩).2.contacts = [1, 2] := by
  decide +kernel

/-- The hypotheses of `C48_signed_partial` hold in this case. -/
example : SupportedD Node.obbrss Node.obbrss ∧
    ∃ c ∈ (collide (fun _ => .obbrss) (exTraverse [5]) (0 : Fin 2) () 1 () ⟨1, true, false⟩ ⟨[], ()⟩).2.contacts, (1 / 1000 : ℚ) < id c := by
  decide +kernel

/-- C48: without contacts (or when none is deeper than `tiny`) the distance in the result is `-tiny`, and with nearest
points asked for and no contacts the code reads a contact that is not there. -/
theorem C48_no_contact :
    distance (fun _ => .obbrss) 1000 (1 / 1000) true exTraverseD (exTraverse []) () id id (0 : Fin 2) () 1 () ⟨true, true⟩
      ⟨1000, (0, 0), ()⟩ = none := by
  simp only [distance]
  decide +kernel

end Fcl
