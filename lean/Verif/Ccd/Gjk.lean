import Verif.Narrow.Support
import Verif.Geom.QuerySpec

/-!
# The GJK of the default solver (libccd)

`/repo/include/fcl/narrowphase/detail/convexity_based_algorithm/gjk_libccd-inl.h`: the search for the origin in the
Minkowski difference (lines 354-602 and 1626-1682), the refinement of the simplex to the nearest point (231-253 and
2067-2146), the points of the shapes (943-998, 1832-2050), the distance queries (2280-2291, 2676-2718), and the shape
queries of `gjk_solver_libccd-inl.h` (550-650).

Over the reals. The functions of libccd that are not in /repo are parameters (`Lib`): the distance of a point to a
triangle and to a segment with the nearest point, and the comparison of points. A division by zero in a support function
or a normalisation of the zero vector gives NaNs in the code, the outcome `undef` here. The expanding polytope algorithm
(`__ccdEPA`, 1560-1620) is a parameter.
-/

namespace Fcl.Ccd

/-- `ccd_support_t`: a point of the Minkowski difference, and the points of the two shapes it comes from. -/
structure SP where
  v : V3 ℝ
  v1 : V3 ℝ
  v2 : V3 ℝ

/-- The functions of libccd that are called: `ccdVec3PointTriDist2` and `ccdVec3PointSegmentDist2` (the squared
distance, the nearest point), `ccdVec3Eq`. -/
structure Lib where
  tri : V3 ℝ → V3 ℝ → V3 ℝ → V3 ℝ → ℝ × V3 ℝ
  seg : V3 ℝ → V3 ℝ → V3 ℝ → ℝ × V3 ℝ
  eq : V3 ℝ → V3 ℝ → Bool

/-- The numbers the code depends on: machine epsilon, libccd's `CCD_EPS` and `CCD_REAL_MAX`, `ccd->dist_tolerance`,
`ccd->max_iterations`. -/
structure Cfg where
  eps : ℝ
  ceps : ℝ
  big : ℝ
  tol : ℝ
  maxIter : ℕ

/-- What `doSimplex` gives: 1 (the origin is in the simplex), -1 (it cannot be expanded), or 0, the simplex and the next
direction. The first two have the simplex too, which the distance query goes on with. -/
inductive Step
  | inside (s : List SP)
  | stuck (s : List SP)
  | go (s : List SP) (dir : V3 ℝ)

/-- How `__ccdGJK` ends: `hit` is the return value 0. The return value -1 is `apart` after the test of line 1656 found all
of the difference behind the origin, and `stuck` in the other cases. -/
inductive Out
  | hit (s : List SP)
  | apart (s : List SP) (dir : V3 ℝ)
  | stuck (s : List SP)
  | undef

/-- `ccdIsZero(x) || x > CCD_ZERO`. -/
noncomputable def upZero (c : Cfg) (x : ℝ) : Bool := isZero c.ceps x || decide (x > 0)

/-- `isAbsValueLessThanEpsSquared`, lines 420-423. -/
noncomputable def tiny (c : Cfg) (x : ℝ) : Bool := decide (|x| < c.eps * c.eps)

/-- `tripleCross`, lines 264-270. -/
noncomputable def tripleCross (a b c : V3 ℝ) : V3 ℝ := (a.cross b).cross c

/-- `doSimplex2`, lines 354-412: the simplex is `[B, A]` with `A` the last point. -/
noncomputable def doSimplex2 (c : Cfg) (B A : SP) : Step :=
  let AB := B.v - A.v
  let n := B.v.cross AB
  if n.dot n < AB.dot AB * B.v.dot B.v * c.eps * c.eps then .inside [B, A]
  else .go [B, A] (n.normalized.cross AB)

/-- The part of `doSimplex3` after the label `ccd_do_simplex3_45`, lines 479-489. -/
noncomputable def simplex3Edge (c : Cfg) (B A : SP) : Step :=
  let AO := -A.v
  let AB := B.v - A.v
  if upZero c (AB.dot AO) then .go [B, A] (tripleCross AB AO AB)
  else .go [A] AO

/-- `doSimplex3`, lines 429-513: the simplex is `[C, B, A]` with `A` the last point. -/
noncomputable def doSimplex3 (l : Lib) (c : Cfg) (C B A : SP) : Step :=
  if tiny c (l.tri 0 A.v B.v C.v).1 then .inside [C, B, A]
  else if l.eq A.v B.v || l.eq A.v C.v then .stuck [C, B, A]
  else
    let AO := -A.v
    let AB := B.v - A.v
    let AC := C.v - A.v
    let ABC := AB.cross AC
    if upZero c ((ABC.cross AC).dot AO) then
      if upZero c (AC.dot AO) then .go [C, A] (tripleCross AC AO AC)
      else simplex3Edge c B A
    else if upZero c ((AB.cross ABC).dot AO) then simplex3Edge c B A
    else if upZero c (ABC.dot AO) then .go [C, B, A] ABC
    else .go [B, C, A] (-ABC)

/-- `doSimplex4`, lines 515-588: the simplex is `[D, C, B, A]` with `A` the last point. -/
noncomputable def doSimplex4 (l : Lib) (c : Cfg) (D C B A : SP) : Step :=
  if tiny c (l.tri A.v B.v C.v D.v).1 then .stuck [D, C, B, A]
  else if tiny c (l.tri 0 A.v B.v C.v).1 then .inside [D, C, B, A]
  else if tiny c (l.tri 0 A.v C.v D.v).1 then .inside [D, C, B, A]
  else if tiny c (l.tri 0 A.v B.v D.v).1 then .inside [D, C, B, A]
  else if tiny c (l.tri 0 B.v C.v D.v).1 then .inside [D, C, B, A]
  else
    let AO := -A.v
    let AB := B.v - A.v
    let AC := C.v - A.v
    let AD := D.v - A.v
    let ABC := AB.cross AC
    let ACD := AC.cross AD
    let ADB := AD.cross AB
    let AB_O := decide (sign c.ceps (ACD.dot AO) = sign c.ceps (ACD.dot AB))
    let AC_O := decide (sign c.ceps (ADB.dot AO) = sign c.ceps (ADB.dot AC))
    let AD_O := decide (sign c.ceps (ABC.dot AO) = sign c.ceps (ABC.dot AD))
    if AB_O && AC_O && AD_O then .inside [D, C, B, A]
    else if !AB_O then doSimplex3 l c D C A
    else if !AC_O then doSimplex3 l c B D A
    else doSimplex3 l c C B A

/-- `doSimplex`, lines 590-602. Simplices have two, three or four points here; others are not passed. -/
noncomputable def doSimplex (l : Lib) (c : Cfg) : List SP → Step
  | [B, A] => doSimplex2 c B A
  | [C, B, A] => doSimplex3 l c C B A
  | [D, C, B, A] => doSimplex4 l c D C B A
  | s => .stuck s

/-- The loop of `__ccdGJK`, lines 1648-1678, with `n` iterations left. -/
noncomputable def gjkLoop (l : Lib) (c : Cfg) (sup : V3 ℝ → Option SP) : ℕ → List SP → V3 ℝ → Out
  | 0, s, _ => .stuck s
  | n + 1, s, dir =>
    match sup dir with
    | none => .undef
    | some last =>
      if last.v.dot dir < 0 then .apart s dir
      else
        match doSimplex l c (s ++ [last]) with
        | .inside s' => .hit s'
        | .stuck s' => .stuck s'
        | .go s' dir' => if isZero c.ceps (dir'.dot dir') then .stuck s' else gjkLoop l c sup n s' dir'

/-- `__ccdGJK`, lines 1626-1682. The first direction is the one of `ccdFirstDirDefault`, which `CCD_INIT` sets
(line 2684). -/
noncomputable def gjk (l : Lib) (c : Cfg) (sup : V3 ℝ → Option SP) : Out :=
  match sup ⟨1, 0, 0⟩ with
  | none => .undef
  | some last => gjkLoop l c sup c.maxIter [last] (-last.v)

/-- `simplexReduceToTriangle`, lines 242-245: the triangle with the fourth point in position `i`. -/
noncomputable def reduceTry (l : Lib) (s0 s1 s2 s3 : SP) (i : ℕ) : ℝ × V3 ℝ :=
  l.tri 0 (if i = 0 then s3 else s0).v (if i = 1 then s3 else s1).v (if i = 2 then s3 else s2).v

/-- `simplexReduceToTriangle`, lines 241-254, the loop over the three positions: the best distance, position and
nearest point so far. The point is `none` until it is written. -/
noncomputable def reduceStep (l : Lib) (s0 s1 s2 s3 : SP) (b : ℝ × ℕ × Option (V3 ℝ)) (i : ℕ) : ℝ × ℕ × Option (V3 ℝ) :=
  if Real.sqrt (reduceTry l s0 s1 s2 s3 i).1 < b.1 then
    (Real.sqrt (reduceTry l s0 s1 s2 s3 i).1, i, some (reduceTry l s0 s1 s2 s3 i).2)
  else b

/-- `simplexReduceToTriangle`, lines 231-262: the simplex, the distance and the nearest point. The position 3 stands
for `best == -1`. -/
noncomputable def reduce (l : Lib) (s0 s1 s2 s3 : SP) (dist : ℝ) : List SP × ℝ × Option (V3 ℝ) :=
  let b := [0, 1, 2].foldl (reduceStep l s0 s1 s2 s3) (dist, 3, none)
  ([if b.2.1 = 0 then s3 else s0, if b.2.1 = 1 then s3 else s1, if b.2.1 = 2 then s3 else s2], b.1, b.2.2)

/-- One component of the segment `AB`, of `A` and of `p`: the one in which the segment is longest, lines 1873-1891. -/
noncomputable def widest (AB : V3 ℝ) : V3 ℝ → ℝ :=
  if |AB.x| ≥ |AB.y| ∧ |AB.x| ≥ |AB.z| then V3.x
  else if |AB.y| ≥ |AB.z| then V3.y else V3.z

/-- `extractObjectPointsFromSegment`, lines 1850-1918. -/
noncomputable def segmentPoints (c : Cfg) (a b : SP) (p : V3 ℝ) : V3 ℝ × V3 ℝ :=
  let AB := b.v - a.v
  let i := widest AB
  if |i AB| < c.eps then (a.v1, a.v2)
  else
    let s := (i p - i a.v) / i AB
    (a.v1 + s • (b.v1 - a.v1), a.v2 + s • (b.v2 - a.v2))

/-- `are_coincident`, lines 943-966. -/
noncomputable def coincident (c : Cfg) (p q : V3 ℝ) : Bool :=
  decide (|p.x - q.x| ≤ max 1 (max |p.x| |q.x|) * c.eps) && decide (|p.y - q.y| ≤ max 1 (max |p.y| |q.y|) * c.eps) &&
    decide (|p.z - q.z| ≤ max 1 (max |p.z| |q.z|) * c.eps)

/-- `triangle_area_is_zero`, lines 974-998. -/
noncomputable def flatTri (c : Cfg) (a b d : V3 ℝ) : Bool :=
  if coincident c a b || coincident c a d then true
  else
    let n := (b - a).normalized.cross (d - a).normalized
    decide (n.dot n < c.eps * c.eps)

/-- The ends of the longest side, lines 1944-1962. -/
noncomputable def longest (a b d : SP) : SP × SP :=
  let AB := (b.v - a.v).dot (b.v - a.v)
  let AC := (d.v - a.v).dot (d.v - a.v)
  let BC := (d.v - b.v).dot (d.v - b.v)
  if AB ≥ AC ∧ AB ≥ BC then (a, b) else if AC ≥ AB ∧ AC ≥ BC then (a, d) else (b, d)

/-- The barycentric part of `extractClosestPoints`, lines 2000-2048. -/
noncomputable def trianglePoints (a b d : SP) (p : V3 ℝ) : V3 ℝ × V3 ℝ :=
  let AB := b.v - a.v
  let AC := d.v - a.v
  let n := AB.cross AC
  let Ap := p - a.v
  let beta := n.dot (Ap.cross AC) / n.dot n
  let gamma := n.dot (AB.cross Ap) / n.dot n
  (a.v1 + beta • (b.v1 - a.v1) + gamma • (d.v1 - a.v1), a.v2 + beta • (b.v2 - a.v2) + gamma • (d.v2 - a.v2))

/-- `extractClosestPoints`, lines 1926-2050. `none` when the point it is given was never written and it reads it. -/
noncomputable def closestPoints (c : Cfg) (s : List SP) (p : Option (V3 ℝ)) : Option (V3 ℝ × V3 ℝ) :=
  match s with
  | [a] => some (a.v1, a.v2)
  | [a, b] => p.map (segmentPoints c a b)
  | [a, b, d] => p.map (fun p =>
      if flatTri c a.v b.v d.v then segmentPoints c (longest a b d).1 (longest a b d).2 p
      else trianglePoints a b d p)
  | _ => none

/-- What `_ccdDist` gives: the distance and the points, with `none` for points computed from a variable that was never
written; -1 after the last iteration; NaNs. -/
inductive DOut
  | ret (dist : ℝ) (pts : Option (V3 ℝ × V3 ℝ))
  | minus
  | undef

/-- The nearest point of the simplex, lines 2084-2112: the simplex, the distance, the point. -/
noncomputable def nearest (l : Lib) (s : List SP) (last : ℝ) : List SP × ℝ × Option (V3 ℝ) :=
  match s with
  | [a] => (s, Real.sqrt (a.v.dot a.v), some a.v)
  | [a, b] => (s, Real.sqrt (l.seg 0 a.v b.v).1, some (l.seg 0 a.v b.v).2)
  | [a, b, d] => (s, Real.sqrt (l.tri 0 a.v b.v d.v).1, some (l.tri 0 a.v b.v d.v).2)
  | [a, b, d, e] => reduce l a b d e last
  | s => (s, last, none)

/-- The loop of `_ccdDist`, lines 2074-2143, with `n` iterations left. The points are computed (`closestPoints`) when it
returns. -/
noncomputable def distLoop (l : Lib) (c : Cfg) (sup : V3 ℝ → Option SP) : ℕ → List SP → ℝ → DOut
  | 0, _, _ => .minus
  | n + 1, s, lastDist =>
    let r := nearest l s lastDist
    if lastDist - r.2.1 < c.tol then .ret r.2.1 (closestPoints c r.1 r.2.2)
    else
      match r.2.2 with
      | none => .undef
      | some p =>
        if p = 0 then .undef
        else
          match sup (-p).normalized with
          | none => .undef
          | some last =>
            if |r.2.1 - Real.sqrt (last.v.dot last.v)| < c.tol then .ret r.2.1 (closestPoints c r.1 (some p))
            else distLoop l c sup n (r.1 ++ [last]) r.2.1

/-- `_ccdDist`, lines 2067-2146. -/
noncomputable def dist (l : Lib) (c : Cfg) (sup : V3 ℝ → Option SP) (s : List SP) : DOut :=
  distLoop l c sup c.maxIter s c.big

/-- `ccdGJKDist2`, lines 2280-2291. -/
noncomputable def gjkDist (l : Lib) (c : Cfg) (sup : V3 ℝ → Option SP) : DOut :=
  match gjk l c sup with
  | .hit _ => .minus
  | .apart s _ => dist l c sup s
  | .stuck s => dist l c sup s
  | .undef => .undef

/-- `__ccdSupport` of libccd: the support points of the two shapes. -/
noncomputable def pairSupport (f1 f2 : V3 ℝ → Option (V3 ℝ)) (d : V3 ℝ) : Option SP :=
  (f1 d).bind (fun v1 => (f2 (-d)).map (fun v2 => ⟨v1 - v2, v1, v2⟩))

/-- The support function of a pair of shapes, as `ShapeDistanceLibccdImpl::run` sets it up
(`gjk_solver_libccd-inl.h`, lines 618-627). -/
noncomputable def shapesSupport (c : Cfg) (extreme1 extreme2 : V3 ℝ → Option (V3 ℝ)) (g1 : Geo ℝ) (tf1 : Pose ℝ)
    (g2 : Geo ℝ) (tf2 : Pose ℝ) : V3 ℝ → Option SP :=
  pairSupport (support c.ceps c.big extreme1 g1 tf1) (support c.ceps c.big extreme2 g2 tf2)

/-- `GJKSolver_libccd::shapeDistance` for a pair without a function of its own, lines 605-650 of
`gjk_solver_libccd-inl.h`, through `GJKDistance` and `GJKDistanceImpl` (2676-2718): `none` for NaNs, else the truth
value, the distance and the points. They are (0, 0) when they are not written, and `none` when they are computed from a
variable that was never written. -/
noncomputable def shapeDistance (l : Lib) (c : Cfg) (extreme1 extreme2 : V3 ℝ → Option (V3 ℝ)) (g1 : Geo ℝ) (tf1 : Pose ℝ)
    (g2 : Geo ℝ) (tf2 : Pose ℝ) : Option (Bool × ℝ × Option (V3 ℝ × V3 ℝ)) :=
  match gjkDist l c (shapesSupport c extreme1 extreme2 g1 tf1 g2 tf2) with
  | .ret d pts => some (!decide (d < 0), d, pts)
  | .minus => some (!decide ((-1 : ℝ) < 0), -1, some (0, 0))
  | .undef => none

end Fcl.Ccd
