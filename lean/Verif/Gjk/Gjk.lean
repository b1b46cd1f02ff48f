import Verif.Gjk.Project

/-!
# GJK

Models include/fcl/narrowphase/detail/convexity_based_algorithm/gjk.h and gjk-inl.h: `GJK::evaluate`. Exact real arithmetic.
The shapes enter by the support function `sup` of their Minkowski difference.
-/

namespace Fcl.Gjk
open V3

/-- `GJK::SimplexV`, gjk.h 55-61: a direction and the support point for it. -/
structure SV where
  d : V3 ℝ
  w : V3 ℝ

/-- `GJK::Status`, gjk.h 75. -/
inductive Status | valid | inside | failed
deriving DecidableEq

/-- The line at which `evaluate` leaves its loop. Not in the code: it only serves to state theorems. -/
inductive Stop
  /-- Line 118: the ray is shorter than the tolerance. -/
  | near
  /-- Line 137: the new support point is close to one of the last four. -/
  | same
  /-- Line 150: the new support point brings no progress. -/
  | progress
  /-- Line 185: the simplex is degenerate. -/
  | degenerate
  /-- Line 180: the origin is in the tetrahedron. -/
  | enclosed
  /-- Line 188: too many iterations. -/
  | iterations
deriving DecidableEq

/-- The variables of `evaluate`: the current simplex with its weights, `ray`, `lastw`, `clastw` and `alpha`. Simplification:
the two simplices, the store of four vertices and its list of free ones are given by the list of the vertices in use. -/
structure St where
  simplex : List (SV × ℝ)
  ray : V3 ℝ
  lastw : ℕ → V3 ℝ
  clastw : ℕ
  alpha : ℝ

/-- What `evaluate` leaves: the status, `distance`, the simplex and `ray`. -/
structure Res where
  status : Status
  stop : Stop
  distance : ℝ
  simplex : List (SV × ℝ)
  ray : V3 ℝ

/-- `getSupport`, lines 205-209. -/
noncomputable def vertex (sup : V3 ℝ → V3 ℝ) (v : V3 ℝ) : SV := ⟨v.normalized, sup v.normalized⟩

/-- Lines 84-107: the start. -/
noncomputable def start (sup : V3 ℝ → V3 ℝ) (guess : V3 ℝ) : St :=
  let c := vertex sup (if guess.dot guess > 0 then -guess else ⟨1, 0, 0⟩)
  ⟨[(c, 1)], c.w, fun _ => c.w, 0, 0⟩

/-- Lines 154-163: the projection of the origin on the simplex. -/
noncomputable def project : List (V3 ℝ) → Proj
  | [a, b] => Proj.lineO a b
  | [a, b, c] => Proj.triangleO a b c
  | [a, b, c, d] => Proj.tetrahedronO a b c d
  | _ => Proj.none

/-- Lines 168-179: the vertices in the code, with their weights. -/
def keep (l : List (SV × ℝ)) (r : Proj) : List (SV × ℝ) :=
  (l.zipIdx.filter fun x => r.bit x.2).map fun x => (x.1.1, r.par x.2)

/-- Line 176: the sum of the weighted support points. -/
noncomputable def weighted : List (SV × ℝ) → V3 ℝ
  | [] => 0
  | v :: l => v.2 • v.1.w + weighted l

/-- Lines 109-187, one round: leaves the loop, or goes on with a new state and says whether the origin is in the tetrahedron. -/
noncomputable def round (sup : V3 ℝ → V3 ℝ) (tol : ℝ) (s : St) : Res ⊕ (St × Bool) :=
  let rl := s.ray.nrm
  if rl < tol then .inl ⟨.inside, .near, 0, s.simplex, s.ray⟩
  else
    let c := vertex sup (-s.ray)
    if (∃ i < 4, (c.w - s.lastw i).dot (c.w - s.lastw i) < tol) then .inl ⟨.valid, .same, rl, s.simplex, s.ray⟩
    else
      let k := (s.clastw + 1) % 4
      let alpha := max s.alpha (s.ray.dot c.w / rl)
      if (rl - alpha) - tol * rl ≤ 0 then .inl ⟨.valid, .progress, rl, s.simplex, s.ray⟩
      else
        let l := s.simplex ++ [(c, 0)]
        let r := project (l.map (·.1.w))
        if r.dist ≥ 0 then
          .inr (⟨keep l r, weighted (keep l r), fun i => if i = k then c.w else s.lastw i, k, alpha⟩,
            (r.bit 0 && r.bit 1 && r.bit 2 && r.bit 3))
        else .inl ⟨.valid, .degenerate, rl, s.simplex, s.ray⟩

/-- Lines 109-200: the loop, with at most `n` more rounds after this one, and what is set after it. -/
noncomputable def loop (sup : V3 ℝ → V3 ℝ) (tol : ℝ) : ℕ → St → Res
  | n, s => match round sup tol s with
    | .inl r => r
    | .inr (s', enclosed) =>
      match n with
      | 0 => ⟨.failed, .iterations, 0, s'.simplex, s'.ray⟩
      | n + 1 => if enclosed then ⟨.inside, .enclosed, 0, s'.simplex, s'.ray⟩ else loop sup tol n s'

/-- `evaluate`, lines 82-200. -/
noncomputable def evaluate (sup : V3 ℝ → V3 ℝ) (tol : ℝ) (maxIter : ℕ) (guess : V3 ℝ) : Res :=
  loop sup tol (maxIter - 1) (start sup guess)

end Fcl.Gjk
