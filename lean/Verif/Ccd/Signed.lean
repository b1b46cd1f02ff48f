import Verif.Ccd.Epa

/-!
# The signed distance of the default solver

`gjk_libccd-inl.h`, 2217-2264 and 2676-2745, and `gjk_solver_libccd-inl.h`, 545-600.
-/

namespace Fcl
namespace Pt

open V3 Ccd

/-- How the query ends: an answer, with the points as in `Ccd.shapeDistance`; an exception or NaNs; it is not over within the iterations that the
expansion of the polytope is given. -/
inductive Signed
  | answer (separated : Bool) (dist : ℝ) (pts : Option (V3 ℝ × V3 ℝ))
  | failed
  | fuel

/-- The truth value of `GJKDistanceImpl`, 2702-2708. -/
noncomputable def answered (d : ℝ) (pts : Option (V3 ℝ × V3 ℝ)) : Signed := .answer (!decide (d < 0)) d pts

/-- The depth and the points of the nearest element, `ccdGJKSignedDist`, 2230-2240. -/
noncomputable def answerOf (l : Lib) (c : Cfg) (P : Poly SP) (el : El) : Signed :=
  match depthOf l c P el with
  | some (d, q) => answered d (some q)
  | none => .failed

/-- `__ccdEPA` after the search for a common point, 1785-1830 and 2226-2240, with `n` iterations. The tolerance `epa_tolerance` is `dist_tolerance`
(2687-2688). Simplification: failures of allocation, which give the depth -1, are left out. -/
noncomputable def penetration (l : Lib) (c : Cfg) (sup : V3 ℝ → Option SP) (two : SP → SP → Option Start) (nearest : Poly SP → El)
    (order : Finset ℕ → List ℕ) (n : ℕ) (s : List SP) : Signed :=
  match firstPoly l c sup two s with
  | none => .failed
  | some (.touching P el) => answerOf l c P el
  | some (.ok P) =>
    match epaLoop l c c.tol sup nearest order n P with
    | .done Q el => answerOf l c Q el
    | .failed => .failed
    | .fuel => .fuel

/-- The refinement of `_ccdDist` for shapes without a common point, 2258-2261. The points are (0, 0) when they are not written, 2696-2698. -/
noncomputable def separation (l : Lib) (c : Cfg) (sup : V3 ℝ → Option SP) (s : List SP) : Signed :=
  match Ccd.dist l c sup s with
  | .ret d pts => answered d pts
  | .minus => answered (-1) (some (0, 0))
  | .undef => .failed

/-- `ccdGJKSignedDist` through `GJKDistanceImpl`, 2217-2264 and 2676-2708. -/
noncomputable def signedDist (l : Lib) (c : Cfg) (sup : V3 ℝ → Option SP) (two : SP → SP → Option Start) (nearest : Poly SP → El)
    (order : Finset ℕ → List ℕ) (n : ℕ) : Signed :=
  match gjk l c sup with
  | .hit s => penetration l c sup two nearest order n s
  | .apart s _ => separation l c sup s
  | .stuck s => separation l c sup s
  | .undef => .failed

/-- `GJKSolver_libccd::shapeSignedDistance` for a pair without a function of its own, `gjk_solver_libccd-inl.h`, 545-600. -/
noncomputable def shapeSigned (l : Lib) (c : Cfg) (extreme1 extreme2 : V3 ℝ → Option (V3 ℝ)) (g1 : Geo ℝ) (tf1 : Pose ℝ) (g2 : Geo ℝ) (tf2 : Pose ℝ)
    (two : SP → SP → Option Start) (nearest : Poly SP → El) (order : Finset ℕ → List ℕ) (n : ℕ) : Signed :=
  signedDist l c (shapesSupport c extreme1 extreme2 g1 tf1 g2 tf2) two nearest order n

end Pt
end Fcl
