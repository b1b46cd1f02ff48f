import Verif.Base.Vec

/-!
# Model of `KDOP<S, N>` (include/fcl/math/bv/kDOP.h, kDOP-inl.h)

Exact arithmetic over an ordered field. The array `dist_` is kept as its two halves: `lo i` is `dist_[i]` and
`hi i` is `dist_[i + N / 2]`, for `i < N / 2`.
-/

namespace Fcl

/-- The three values of `N` allowed by the `static_assert`, kDOP-inl.h 85. -/
inductive KDopN
  | n16
  | n18
  | n24
deriving DecidableEq, Repr

/-- `N / 2`. -/
def KDopN.half : KDopN → ℕ
  | .n16 => 8
  | .n18 => 9
  | .n24 => 12

/-- `KDOP<S, N>`, kDOP.h 84-166. -/
structure KDOP (n : KDopN) (K : Type*) where
  lo : ℕ → K
  hi : ℕ → K

/-- `getDistances<S, 5>`, kDOP-inl.h 361-365. -/
def getDistances5 {K : Type*} [Field K] (p : V3 K) : List K :=
  [p.x + p.y, p.x + p.z, p.y + p.z, p.x - p.y, p.x - p.z]
/-- `getDistances<S, 6>`, 375-380. -/
def getDistances6 {K : Type*} [Field K] (p : V3 K) : List K :=
  [p.x + p.y, p.x + p.z, p.y + p.z, p.x - p.y, p.x - p.z, p.y - p.z]
/-- `getDistances<S, 9>`, 390-398. -/
def getDistances9 {K : Type*} [Field K] (p : V3 K) : List K :=
  [p.x + p.y, p.x + p.z, p.y + p.z, p.x - p.y, p.x - p.z, p.y - p.z, p.x + p.y - p.z, p.x + p.z - p.y,
    p.y + p.z - p.x]

/-- `getDistances<S, (N - 6) / 2>`. -/
def getDistances {K : Type*} [Field K] (n : KDopN) (p : V3 K) : List K :=
  match n with
  | .n16 => getDistances5 p
  | .n18 => getDistances6 p
  | .n24 => getDistances9 p

/-- The three coordinates followed by `getDistances`: the value used for slab `i` by all the loops over slabs
(100-110, 118-129, 151-163, 173-183, 294-306). -/
def slabValue {K : Type*} [Field K] (n : KDopN) (p : V3 K) (i : ℕ) : K :=
  ([p.x, p.y, p.z] ++ getDistances n p).getD i 0

namespace KDOP
variable {K : Type*} [Field K] [LinearOrder K] {n : KDopN}

/-- `KDOP()`, 83-93; `M` is `numeric_limits<S>::max()`. -/
def default (M : K) : KDOP n K := ⟨fun _ => M, fun _ => -M⟩
/-- `KDOP(v)`, 98-111. -/
def ofPoint (v : V3 K) : KDOP n K := ⟨slabValue n v, slabValue n v⟩
/-- `KDOP(a, b)`, 116-130, with `minmax(a, b, minv, maxv)`, 314-326. -/
def ofPoints (a b : V3 K) : KDOP n K :=
  ⟨fun i => if slabValue n a i > slabValue n b i then slabValue n b i else slabValue n a i,
   fun i => if slabValue n a i > slabValue n b i then slabValue n a i else slabValue n b i⟩
/-- `overlap`, 135-144. -/
def overlap (a b : KDOP n K) : Bool :=
  (List.range n.half).all fun i => if a.lo i > b.hi i then false else if a.hi i < b.lo i then false else true
/-- `inside`, 149-166. -/
def inside (a : KDOP n K) (p : V3 K) : Bool :=
  (List.range n.half).all fun i => if slabValue n p i < a.lo i ∨ slabValue n p i > a.hi i then false else true
/-- `operator +=(Vector3)`, 171-186, with `minmax(p, minv, maxv)`, 331-335. -/
def addPoint (a : KDOP n K) (p : V3 K) : KDOP n K :=
  ⟨fun i => if slabValue n p i < a.lo i then slabValue n p i else a.lo i,
   fun i => if slabValue n p i > a.hi i then slabValue n p i else a.hi i⟩
/-- `operator +=(KDOP)`, 191-199, and `operator +`, 204-208. `std::min(x, y)` is `y < x ? y : x`. -/
def merge (a b : KDOP n K) : KDOP n K :=
  ⟨fun i => if a.lo i < b.lo i then a.lo i else b.lo i, fun i => if b.hi i < a.hi i then a.hi i else b.hi i⟩
/-- `width`, 213-216. -/
def width (a : KDOP n K) : K := a.hi 0 - a.lo 0
/-- `height`, 221-224. -/
def height (a : KDOP n K) : K := a.hi 1 - a.lo 1
/-- `depth`, 229-232. -/
def depth (a : KDOP n K) : K := a.hi 2 - a.lo 2
/-- `volume`, 237-240. -/
def volume (a : KDOP n K) : K := a.width * a.height * a.depth
/-- `size`, 245-248. -/
def size (a : KDOP n K) : K := a.width * a.width + a.height * a.height + a.depth * a.depth
/-- `center`, 253-256. -/
def center (a : KDOP n K) : V3 K :=
  ⟨(a.lo 0 + a.hi 0) * (1 / 2), (a.lo 1 + a.hi 1) * (1 / 2), (a.lo 2 + a.hi 2) * (1 / 2)⟩
/-- `distance`, 261-269: a stub. -/
def distance (_ _ : KDOP n K) : K := 0
/-- `translate`, 290-309. -/
def translate (a : KDOP n K) (t : V3 K) : KDOP n K :=
  ⟨fun i => a.lo i + slabValue n t i, fun i => a.hi i + slabValue n t i⟩

end KDOP
end Fcl
