import Verif.BVH.Mesh

/-!
# Model of the expansion of a hierarchy of uncertain points (include/fcl/geometry/bvh/BVH_utility-inl.h 59-171)
-/

namespace Fcl
variable {V K : Type*}

/-- The members `sigma` and `axis` (its columns) of `Variance3<S>`, math/variance3.h 48-75, which the expansion reads.
How `init` computes them from the matrix (math/variance3-inl.h 65-69) is not modelled. -/
structure Variance3 (K : Type*) where
  sigma : Fin 3 → K
  axis : Fin 3 → V3 K

section
variable [Field K]

/-- The six points made for one vertex, in this order: 76-80, 110-118, 154-158. -/
def Variance3.points (u : Variance3 K) (r : K) (v : V3 K) : List (V3 K) :=
  [v + (r * u.sigma 0) • u.axis 0, v - (r * u.sigma 0) • u.axis 0,
   v + (r * u.sigma 1) • u.axis 1, v - (r * u.sigma 1) • u.axis 1,
   v + (r * u.sigma 2) • u.axis 2, v - (r * u.sigma 2) • u.axis 2]

/-- The loop over `j`, 69-81, 103-119, 147-159: `k` iterations left, `id` is `first_primitive + j`. An access outside of
one of the two arrays gives `none`. -/
def expandPoints (verts : List (V3 K)) (ucs : List (Variance3 K)) (r : K) : ℕ → ℕ → Option (List (V3 K))
  | 0, _ => some []
  | k + 1, id =>
    match verts[id]?, ucs[id]?, expandPoints verts ucs r k (id + 1) with
    | some v, some u, some l => some (u.points r v ++ l)
    | _, _, _ => none

/-- `BVHExpand`: the loop from node `i` on, `k` iterations left. `fit` is `fit(vs, 6 * num_primitives, bv)` in the
versions for `OBB`, 87-128, and `RSS`, 130-171; `none` when it leaves the volume unset. In the version for the other
volumes, 59-85, it is the repeated `+=` on a default volume; that version names the private member `num_bvs` of the
model and so cannot be instantiated. -/
def bvhExpand (fit : List (V3 K) → Option V) (verts : List (V3 K)) (ucs : List (Variance3 K)) (r : K) :
    ℕ → ℕ → List (BVNode V) → Option (List (BVNode V))
  | 0, _, bvs => some bvs
  | k + 1, i, bvs =>
    match bvs[i]? with
    | none => none
    | some n =>
      match expandPoints verts ucs r n.numPrimitives n.firstPrimitive with
      | none => none
      | some vs =>
        match fit vs with
        | none => none
        | some bv => bvhExpand fit verts ucs r k (i + 1) (bvs.set i { n with bv := bv })

end
end Fcl
