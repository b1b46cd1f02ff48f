import Verif.RSS.Model

/-!
# OBBRSS and kIOS

The pair of an oriented box and a rectangle swept sphere (`math/bv/OBBRSS-inl.h`), and the intersection of up to five
spheres with an oriented box (`math/bv/kIOS-inl.h`). The fitters are those of `math/bv/utility-inl.h` and
`geometry/bvh/detail/BV_fitter-inl.h`, which for a mesh read the vertices of the triangles of the list.
-/

namespace Fcl

/-- `OBBRSS`, math/bv/OBBRSS.h 52-109. -/
structure OBBRSS (K : Type*) where
  obb : OBB K
  rss : RSS K

namespace OBBRSS

/-- `OBBRSS::overlap`, OBBRSS-inl.h 55-67. -/
def overlap {K : Type*} [Field K] [LinearOrder K] (b1 b2 : OBBRSS K) : Bool := b1.obb.overlap b2.obb

/-- `overlap(R0, T0, b1, b2)`, 154-160. -/
def overlapAt {K : Type*} [Field K] [LinearOrder K] (R0 : M3 K) (T0 : V3 K) (b1 b2 : OBBRSS K) : Bool := OBB.overlapAt R0 T0 b1.obb b2.obb

/-- `OBBRSS::contain`, 70-74. -/
def contain {K : Type*} [Field K] [LinearOrder K] (b : OBBRSS K) (p : V3 K) : Bool := b.obb.contain p

/-- `OBBRSS::distance`, 145-150. -/
noncomputable def distance (eps : ℝ) (b1 b2 : OBBRSS ℝ) : ℝ := b1.rss.distance eps b2.rss

/-- `distance(R0, T0, b1, b2)`, 164-172. -/
noncomputable def distanceAt (eps : ℝ) (R0 : M3 ℝ) (T0 : V3 ℝ) (b1 b2 : OBBRSS ℝ) : ℝ := RSS.distanceAt eps R0 T0 b1.rss b2.rss

/-- `operator +`, 94-101. -/
noncomputable def add (big : ℝ) (eig : OBB.EigenFn ℝ) (b1 b2 : OBBRSS ℝ) : Option (OBBRSS ℝ) :=
  match OBB.add big eig b1.obb b2.obb, RSS.add eig b1.rss b2.rss with
  | some o, some r => some ⟨o, r⟩
  | _, _ => none

/-- `operator += point`, 77-83. -/
noncomputable def addPoint (big : ℝ) (eig : OBB.EigenFn ℝ) (b : OBBRSS ℝ) (p : V3 ℝ) : Option (OBBRSS ℝ) :=
  match OBB.addPoint big eig b.obb p with
  | some o => some ⟨o, b.rss.addPoint p⟩
  | none => none

/-- `translate`, 176-182. -/
def translate {K : Type*} [Field K] (b : OBBRSS K) (t : V3 K) : OBBRSS K := ⟨{ b.obb with To := b.obb.To + t }, { b.rss with To := b.rss.To + t }⟩

/-- `OBBRSS_fit_functions::fitn`, utility-inl.h 515-520, and `FitImpl<S, OBBRSS<S>>::run`, BV_fitter-inl.h 462-493. -/
noncomputable def fitn (big : ℝ) (eig : OBB.EigenFn ℝ) (p0 : V3 ℝ) (ps : List (V3 ℝ)) : Option (OBBRSS ℝ) :=
  match eig (OBB.covariance (p0 :: ps)) with
  | none => none
  | some (s, E) => some ⟨OBB.fitAxis big (OBB.axisFromEigen E s) (p0 :: ps), RSS.fitAxis (OBB.axisFromEigen E s) p0 ps⟩

/-- `Fitter<S, OBBRSS<S>>::fit`, utility-inl.h 627-648. -/
noncomputable def fit (big prec : ℝ) (eig : OBB.EigenFn ℝ) : List (V3 ℝ) → Option (OBBRSS ℝ)
  | [] => none
  | [p1] => some ⟨OBB.fit1 p1, RSS.fit1 p1⟩
  | [p1, p2] => match OBB.fit2 prec p1 p2, RSS.fit2 prec p1 p2 with
    | some o, some r => some ⟨o, r⟩
    | _, _ => none
  | [p1, p2, p3] => some ⟨OBB.fit3 big p1 p2 p3, RSS.fit3 p1 p2 p3⟩
  | p0 :: ps => fitn big eig p0 ps

end OBBRSS

/-- `kIOS::kIOS_Sphere`, math/bv/kIOS.h 56-60. -/
structure Ball (K : Type*) where
  o : V3 K
  r : K

/-- `kIOS`, math/bv/kIOS.h 54-122. `spheres` is the list of the first `num_spheres` elements of the array. -/
structure KIOS (K : Type*) where
  spheres : List (Ball K)
  obb : OBB K

namespace KIOS

/-- `kIOS::encloseSphere`, kIOS-inl.h 50-75. (`dist` is a `float` in the code; it is exact here.) -/
noncomputable def encloseSphere (s0 s1 : Ball ℝ) : Ball ℝ :=
  let d := s1.o - s0.o
  let dist2 := d.dot d
  let diff := s1.r - s0.r
  if diff * diff ≥ dist2 then (if s1.r > s0.r then s1 else s0)
  else
    let dist := Real.sqrt dist2
    let r := dist + s0.r + s1.r
    ⟨if dist > 0 then s0.o + ((r - s0.r) / dist) • d else s0.o, r⟩

section
variable {K : Type*} [Field K] [LinearOrder K]

/-- `kIOS::overlap`, 79-95. -/
def overlap (b1 b2 : KIOS K) : Bool :=
  if b1.spheres.any fun s => b2.spheres.any fun t => decide ((s.o - t.o).dot (s.o - t.o) > (s.r + t.r) * (s.r + t.r)) then false
  else b1.obb.overlap b2.obb

/-- `kIOS::contain`, 107-117. -/
def contain (b : KIOS K) (p : V3 K) : Bool :=
  b.spheres.all fun s => !decide ((s.o - p).dot (s.o - p) > s.r * s.r)

/-- `overlap(R0, T0, b1, b2)`, 247-261. -/
def overlapAt (R0 : M3 K) (T0 : V3 K) (b1 b2 : KIOS K) : Bool :=
  b1.overlap ⟨b2.spheres.map fun s => ⟨R0.mulVec s.o + T0, s.r⟩, { b2.obb with To := R0.mulVec b2.obb.To + T0, axis := R0.mul b2.obb.axis }⟩

/-- `translate`, 297-316: the result of `translate(res.obb, t)` is thrown away. -/
def translate (b : KIOS K) (t : V3 K) : KIOS K := { b with spheres := b.spheres.map fun s => ⟨s.o + t, s.r⟩ }

/-- `kIOS::center`, 165-169: `none` if there is no sphere. -/
def center (b : KIOS K) : Option (V3 K) := b.spheres.head?.map Ball.o

end

/-- `operator += point`, 121-136. -/
noncomputable def addPoint (big : ℝ) (eig : OBB.EigenFn ℝ) (b : KIOS ℝ) (p : V3 ℝ) : Option (KIOS ℝ) :=
  match OBB.addPoint big eig b.obb p with
  | none => none
  | some o => some ⟨b.spheres.map fun s =>
      if (p - s.o).dot (p - s.o) > s.r * s.r then ⟨s.o, Real.sqrt ((p - s.o).dot (p - s.o))⟩ else s, o⟩

/-- `operator +`, 147-161. -/
noncomputable def add (big : ℝ) (eig : OBB.EigenFn ℝ) (b1 b2 : KIOS ℝ) : Option (KIOS ℝ) :=
  match OBB.add big eig b1.obb b2.obb with
  | none => none
  | some o => some ⟨List.zipWith encloseSphere b1.spheres b2.spheres, o⟩

/-- The loop of `kIOS::distance`, 212-226: `d_max` and, if it was set, the indices of the spheres. -/
noncomputable def widest (b1 b2 : KIOS ℝ) : ℝ × Option (ℕ × ℕ) :=
  (b1.spheres.zipIdx.flatMap fun s => b2.spheres.zipIdx.map fun t => (s, t)).foldl
    (fun m st => if m.1 < (st.1.1.o - st.2.1.o).nrm - (st.1.1.r + st.2.1.r) then
      ((st.1.1.o - st.2.1.o).nrm - (st.1.1.r + st.2.1.r), some (st.1.2, st.2.2)) else m) (0, none)

/-- `kIOS::distance`, 207-244, the value. -/
noncomputable def distance (b1 b2 : KIOS ℝ) : ℝ := (widest b1 b2).1

/-- The points written through `P` and `Q`, 228-241: both spheres are read from `*this`. `none`: nothing is written, a
sphere that was never set is read, or the code divides by a length of zero. -/
noncomputable def distancePoints (b1 b2 : KIOS ℝ) : Option (V3 ℝ × V3 ℝ) :=
  match (widest b1 b2).2 with
  | none => none
  | some (i, j) =>
    match b1.spheres[i]?, b1.spheres[j]? with
    | some s, some t =>
      let v := s.o - t.o
      let len := v.nrm
      if len = 0 then none else some (s.o - (s.r / len) • v, t.o + (t.r / len) • v)
    | _, _ => none

/-- `distance(R0, T0, b1, b2)`, 264-276, and `distance(tf, b1, b2)`, 280-293. -/
noncomputable def distanceAt (R0 : M3 ℝ) (T0 : V3 ℝ) (b1 b2 : KIOS ℝ) : ℝ :=
  b1.distance { b2 with spheres := b2.spheres.map fun s => ⟨R0.mulVec s.o + T0, s.r⟩ }

/-! ### Fitting -/

/-- `maximumDistance`, geometry-inl.h 1303-1316 with 149-188 and 193-221. -/
noncomputable def maximumDistance (ps : List (V3 ℝ)) (q : V3 ℝ) : ℝ :=
  Real.sqrt (ps.foldl (fun m p => if (p - q).dot (p - q) > m then (p - q).dot (p - q) else m) 0)

/-- `circumCircleComputation`, geometry-inl.h 1278-1296: centre and radius. -/
noncomputable def circumCircle (a b c : V3 ℝ) : V3 ℝ × ℝ :=
  let e1 := a - c
  let e2 := b - c
  let l1 := e1.dot e1
  let l2 := e2.dot e2
  let e3 := e1.cross e2
  let l3 := e3.dot e3
  (c + ((1 / 2) * 1 / l3) • ((l1 • e2 - l2 • e1).cross e3), Real.sqrt (l1 * l2 * (e1 - e2).dot (e1 - e2) / l3) * (1 / 2))

/-- `kIOS::cosA`, kIOS.h 121. (`ratio` is 3/2 and `invSinA` is 2.) -/
noncomputable def cosA : ℝ := Real.sqrt 3 / 2

/-- `kIOS_fit_functions::fit1`, utility-inl.h 296-306. -/
noncomputable def fit1 (p : V3 ℝ) : KIOS ℝ := ⟨[⟨p, 0⟩], ⟨M3.one, p, 0⟩⟩

/-- `fit2`, 310-343. -/
noncomputable def fit2 (prec : ℝ) (p1 p2 : V3 ℝ) : Option (KIOS ℝ) :=
  match OBB.coordinateSystem prec (p1 - p2) with
  | none => none
  | some axis =>
    let r0 := (p1 - p2).nrm * (1 / 2)
    let To := (1 / 2 : ℝ) • (p1 + p2)
    let r1 := r0 * 2
    let k := r1 * cosA
    some ⟨[⟨To, r0⟩, ⟨To - k • axis.col 1, r1⟩, ⟨To + k • axis.col 1, r1⟩, ⟨To - k • axis.col 2, r1⟩, ⟨To + k • axis.col 2, r1⟩],
      ⟨axis, To, ⟨r0, 0, 0⟩⟩⟩

/-- `fit3`, 346-388. -/
noncomputable def fit3 (big : ℝ) (p1 p2 p3 : V3 ℝ) : KIOS ℝ :=
  let obb := OBB.fitAxis big (OBB.axes3 p1 p2 p3) [p1, p2, p3]
  let c := circumCircle p1 p2 p3
  let r1 := c.2 * 2
  let delta := (r1 * cosA) • obb.axis.col 2
  ⟨[⟨c.1, c.2⟩, ⟨c.1 - delta, r1⟩, ⟨c.1 + delta, r1⟩], obb⟩

/-- The number of spheres, 410-416. -/
noncomputable def count (extent : V3 ℝ) : ℕ :=
  if extent.x > (3 / 2) * extent.z then (if extent.x > (3 / 2) * extent.y then 5 else 3) else 1

/-- Two spheres of radius `r10` on the line through the centre along `u`, moved so far that the points are just inside,
424-434 and 443-452: `k` is the first offset. -/
noncomputable def pair (ps : List (V3 ℝ)) (c u : V3 ℝ) (k r10 : ℝ) : List (Ball ℝ) :=
  let o1 := c - k • u
  let o2 := c + k • u
  [⟨o1 + (-r10 + maximumDistance ps o1) • u, r10⟩, ⟨o2 + (r10 - maximumDistance ps o2) • u, r10⟩]

/-- The spheres around the points `ps` with the box `obb`, 405-456 and BV_fitter-inl.h 380-456. -/
noncomputable def spheresOf (ps : List (V3 ℝ)) (obb : OBB ℝ) : List (Ball ℝ) :=
  let e := obb.extent
  let r0 := maximumDistance ps obb.To
  let r10 := Real.sqrt (r0 * r0 - e.z * e.z) * 2
  let s0 : Ball ℝ := ⟨obb.To, r0⟩
  let s12 := pair ps obb.To (obb.axis.col 2) (r10 * cosA - e.z) r10
  let s34 := pair ps obb.To (obb.axis.col 1) (Real.sqrt (r10 * r10 - e.x * e.x - e.z * e.z) - e.y) r10
  if count e = 5 then s0 :: s12 ++ s34 else if count e = 3 then s0 :: s12 else [s0]

/-- `fitn`, utility-inl.h 392-457, and `FitImpl<S, kIOS<S>>::run`, BV_fitter-inl.h 359-457. -/
noncomputable def fitn (big : ℝ) (eig : OBB.EigenFn ℝ) (ps : List (V3 ℝ)) : Option (KIOS ℝ) :=
  match OBB.fitn big eig ps with
  | none => none
  | some obb => some ⟨spheresOf ps obb, obb⟩

/-- `Fitter<S, kIOS<S>>::fit`, utility-inl.h 604-625. -/
noncomputable def fit (big prec : ℝ) (eig : OBB.EigenFn ℝ) : List (V3 ℝ) → Option (KIOS ℝ)
  | [p1] => some (fit1 p1)
  | [p1, p2] => fit2 prec p1 p2
  | [p1, p2, p3] => some (fit3 big p1 p2 p3)
  | ps => fitn big eig ps

end KIOS
end Fcl
