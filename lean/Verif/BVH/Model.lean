import Verif.Traversal.Model

/-!
# Model of the construction of hierarchies (include/fcl/geometry/bvh/BVH_model-inl.h 833-1076)

Arrays are lists; an access outside of the allocated length gives `none`. The recursion carries a bound, and gives
`none` when the bound is reached, so that a result is a run that ends and stays inside of the arrays.
-/

namespace Fcl

/-- `BVNode<BV>`, geometry/bvh/BV_node_base.h 50-76 and BV_node.h 52-90. -/
structure BVNode (V : Type*) where
  bv : V
  firstPrimitive : ℕ
  numPrimitives : ℕ
  firstChild : ℤ
deriving DecidableEq, Repr

namespace BVNode
variable {V : Type*}
/-- `isLeaf`, src/geometry/bvh/BV_node_base.cpp 44-47. -/
def isLeaf (n : BVNode V) : Bool := n.firstChild < 0
/-- `primitiveId`, 50-53. -/
def primitiveId (n : BVNode V) : ℤ := -(n.firstChild + 1)
/-- `leftChild`, 56-59. -/
def leftChild (n : BVNode V) : ℤ := n.firstChild
/-- `rightChild`, 62-65. -/
def rightChild (n : BVNode V) : ℤ := n.firstChild + 1
end BVNode

/-- The arrays `bvs` and `primitive_indices` and the counter `num_bvs` of a `BVHModel` (BVH_model.h 290-320). -/
structure Built (V : Type*) where
  bvs : List (BVNode V)
  numBvs : ℕ
  prims : List ℕ
deriving DecidableEq, Repr

/-- The fitter and the splitter. `fit` is `bv_fitter->fit(indices, n)`; `right bv indices p` is the answer of
`bv_splitter->apply` on the point of primitive `p` after `computeRule(bv, indices, n)`. All the fitters and the three
split methods (mean, median, centre of the volume; BV_splitter-inl.h) are of this form, and nothing else is assumed
of them. -/
structure Builder (V : Type*) where
  fit : List ℕ → V
  right : V → List ℕ → ℕ → Bool

variable {V : Type*}

/-- The loop over the primitives of a node, BVH_model-inl.h 893-926: `base` is `first_primitive`, the first argument
the number of iterations left. `std::swap` of two elements. -/
def partLoop (right : ℕ → Bool) (base : ℕ) : ℕ → ℕ → ℕ → List ℕ → Option (List ℕ × ℕ)
  | 0, _, c1, l => some (l, c1)
  | k + 1, i, c1, l =>
    match l[base + i]? with
    | none => none
    | some p =>
      if right p then partLoop right base k (i + 1) c1 l
      else
        match l[base + c1]? with
        | none => none
        | some q => partLoop right base k (i + 1) (c1 + 1) ((l.set (base + i) q).set (base + c1) p)

/-- `recursiveBuildTree(bv_id, first_primitive, num_primitives)`, 868-938. The children are read back from the node
in lines 933-934; here the value stored in line 890 is used. -/
def recursiveBuildTree (B : Builder V) : ℕ → ℕ → ℕ → ℕ → Built V → Option (Built V)
  | 0, _, _, _, _ => none
  | fuel + 1, id, first, num, s =>
    let cur := (s.prims.drop first).take num
    if cur.length ≠ num then none
    else if id ≥ s.bvs.length then none
    else
      let bv := B.fit cur
      if num = 1 then
        match s.prims[first]? with
        | none => none
        | some p => some { s with bvs := s.bvs.set id ⟨bv, first, num, -((p : ℤ) + 1)⟩ }
      else
        match partLoop (B.right bv cur) first num 0 0 s.prims with
        | none => none
        | some (prims, c) =>
          let c1 := if c = 0 ∨ c = num then num / 2 else c
          match recursiveBuildTree B fuel s.numBvs first c1
            ⟨s.bvs.set id ⟨bv, first, num, s.numBvs⟩, s.numBvs + 2, prims⟩ with
          | none => none
          | some s' => recursiveBuildTree B fuel (s.numBvs + 1) (first + c1) (num - c1) s'

/-- `buildTree`, 833-864: `n` is the number of primitives, `bvs` and `prims` are the allocated arrays with whatever
is in them. -/
def buildTree (B : Builder V) (fuel n : ℕ) (bvs : List (BVNode V)) (prims : List ℕ) : Option (Built V) :=
  if prims.length < n then none
  else recursiveBuildTree B fuel 0 0 n ⟨bvs, 1, List.range n ++ prims.drop n⟩

/-- `recursiveRefitTree_bottomup`, 961-1027. `leafFit p` is the result of `fit` on the vertices of primitive `p`
(976-1014), `merge` the operator `+` of the volumes. -/
def refitBottomUp (leafFit : ℕ → V) (merge : V → V → V) : ℕ → ℕ → List (BVNode V) → Option (List (BVNode V))
  | 0, _, _ => none
  | fuel + 1, id, bvs =>
    match bvs[id]? with
    | none => none
    | some n =>
      if n.isLeaf then some (bvs.set id { n with bv := leafFit n.primitiveId.toNat })
      else
        match refitBottomUp leafFit merge fuel n.leftChild.toNat bvs with
        | none => none
        | some bvs =>
          match refitBottomUp leafFit merge fuel n.rightChild.toNat bvs with
          | none => none
          | some bvs =>
            match bvs[n.leftChild.toNat]?, bvs[n.rightChild.toNat]? with
            | some l, some r => some (bvs.set id { n with bv := merge l.bv r.bv })
            | _, _ => none

/-- `refitTree_topdown`, 1064-1076: the loop from node `i` on, `k` iterations left. -/
def refitTopDown (fit : List ℕ → V) (prims : List ℕ) : ℕ → ℕ → List (BVNode V) → Option (List (BVNode V))
  | 0, _, bvs => some bvs
  | k + 1, i, bvs =>
    match bvs[i]? with
    | none => none
    | some n =>
      let cur := (prims.drop n.firstPrimitive).take n.numPrimitives
      if cur.length ≠ n.numPrimitives then none
      else refitTopDown fit prims k (i + 1) (bvs.set i { n with bv := fit cur })

end Fcl
