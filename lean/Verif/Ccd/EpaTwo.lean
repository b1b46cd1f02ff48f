import Verif.Ccd.Epa

/-!
# The first polytope from two points

`simplexToPolytope2`, `gjk_libccd-inl.h`, 619-723.
-/

namespace Fcl
namespace Pt

open V3 Ccd

/-- The search for a support point that is not one of the two, lines 643-652. `dirs` is the table `ccd_points_on_sphere` of libccd. The outer `none` is
for NaNs, the inner one for a search that finds nothing. -/
def otherPoint (l : Lib) (sup : V3 ℝ → Option SP) (a b : SP) : List (V3 ℝ) → Option (Option SP)
  | [] => some none
  | d :: ds =>
    match sup d with
    | none => none
    | some p => if !l.eq a.v p.v && !l.eq b.v p.v then some (some p) else otherPoint l sup a b ds

/-- The polytope with one edge, lines 679-686. -/
def oneEdge (a b : SP) : Poly SP := ⟨[a, b], fun e => [(⟨0, 1, none, none⟩ : Edge)][e]?, fun _ => none, 1, 0⟩

/-- The edges of the octahedron, lines 697-710, with the faces in the order in which they are added. -/
def octaE : List Edge :=
  [⟨0, 1, some 0, some 4⟩, ⟨1, 2, some 1, some 5⟩, ⟨2, 3, some 2, some 6⟩, ⟨3, 0, some 3, some 7⟩,
   ⟨4, 0, some 0, some 3⟩, ⟨4, 1, some 0, some 1⟩, ⟨4, 2, some 1, some 2⟩, ⟨4, 3, some 2, some 3⟩,
   ⟨5, 0, some 4, some 7⟩, ⟨5, 1, some 4, some 5⟩, ⟨5, 2, some 5, some 6⟩, ⟨5, 3, some 6, some 7⟩]

/-- Its faces, lines 712-720. -/
def octaF : List Face := [⟨4, 5, 0⟩, ⟨5, 6, 1⟩, ⟨6, 7, 2⟩, ⟨7, 4, 3⟩, ⟨8, 9, 0⟩, ⟨9, 10, 1⟩, ⟨10, 11, 2⟩, ⟨11, 8, 3⟩]

/-- The octahedron, lines 688-720. -/
def octa (a s0 b s1 s2 s3 : SP) : Poly SP := ⟨[a, s0, b, s1, s2, s3], fun e => octaE[e]?, fun f => octaF[f]?, 12, 8⟩

/-- `ccdVec3Eq(&a->v, &p.v) || ccdVec3Eq(&b->v, &p.v)`. -/
def oneOf (l : Lib) (a b p : SP) : Bool := l.eq a.v p.v || l.eq b.v p.v

/-- `simplexToPolytope2`, lines 619-723. -/
noncomputable def start2 (l : Lib) (sup : V3 ℝ → Option SP) (dirs : List (V3 ℝ)) (a b : SP) : Option Start :=
  let touch := some (Start.touching (oneEdge a b) (.edge 0))
  match otherPoint l sup a b dirs with
  | none => none
  | some none => touch
  | some (some s0) =>
    match sup (-s0.v) with
    | none => none
    | some s1 =>
      if oneOf l a b s1 then touch
      else
        let dir := (s0.v - a.v).cross (s1.v - a.v)
        match sup dir with
        | none => none
        | some s2 =>
          if oneOf l a b s2 then touch
          else
            match sup (-dir) with
            | none => none
            | some s3 => if oneOf l a b s3 then touch else some (.ok (octa a s0 b s1 s2 s3))

end Pt
end Fcl
