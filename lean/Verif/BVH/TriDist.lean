import Verif.BVH.TriTest

/-!
# Model of the distance of two triangles

`TriangleDistance::segPoints` and `TriangleDistance::triDistance`,
narrowphase/detail/primitive_shape_algorithm/triangle_distance-inl.h.
-/

namespace Fcl

namespace Tri

section
variable {K : Type*} [Field K] [LinearOrder K]

/-- The result of a division in floating point arithmetic. -/
inductive Quo (K : Type*)
  | val (x : K)
  | inf (positive : Bool)
  | nan

/-- Division: by zero it gives an infinity or no number. (A zero divisor is taken to be positive; the divisors of the
code are never negative.) -/
def quo (a b : K) : Quo K :=
  if b ≠ 0 then .val (a / b) else if 0 < a then .inf true else if a < 0 then .inf false else .nan

/-- `if((t < 0) || std::isnan(t)) t = 0; else if(t > 1) t = 1;`, triangle_distance-inl.h 83. -/
def Quo.clamp : Quo K → K
  | .val t => if t < 0 then 0 else if t > 1 then 1 else t
  | .inf true => 1
  | .inf false => 0
  | .nan => 0

/-- The three cases of the code for a parameter `x`: `(x <= 0) || isnan(x)`, `x >= 1`, and the rest. -/
inductive Place (K : Type*)
  | low
  | high
  | mid (x : K)

/-- The tests of lines 93, 99, 104, 116, 122, 127, 144 and 150. -/
def Quo.place : Quo K → Place K
  | .val x => if x ≤ 0 then .low else if x ≥ 1 then .high else .mid x
  | .inf true => .high
  | .inf false => .low
  | .nan => .low

/-- The result of `segPoints`: `VEC`, `X`, `Y`. -/
structure Seg (K : Type*) where
  vec : V3 K
  X : V3 K
  Y : V3 K

/-- `segPoints`, 55-167: the nearest points of the segments from `P` to `P + A` and from `Q` to `Q + B`, and a vector
between them. -/
def segPoints (P A Q B : V3 K) : Seg K :=
  let T := Q - P
  let AA := A.dot A
  let BB := B.dot B
  let AB := A.dot B
  let AT := A.dot T
  let BT := B.dot T
  let denom := AA * BB - AB * AB
  let t := (quo (AT * BB - BT * AB) denom).clamp
  match (quo (t * AB - BT) BB).place with
  | .low =>
    match (quo AT AA).place with
    | .low => ⟨Q - P, P, Q⟩
    | .high => ⟨Q - (P + A), P + A, Q⟩
    | .mid t => ⟨A.cross (T.cross A), P + t • A, Q⟩
  | .high =>
    let Y := Q + B
    match (quo (AB + AT) AA).place with
    | .low => ⟨Y - P, P, Y⟩
    | .high => ⟨Y - (P + A), P + A, Y⟩
    | .mid t => ⟨A.cross ((Y - P).cross A), P + t • A, Y⟩
  | .mid u =>
    let Y := Q + u • B
    match (Quo.val t).place with
    | .low => ⟨B.cross (T.cross B), P, Y⟩
    | .high => ⟨B.cross ((Q - (P + A)).cross B), P + A, Y⟩
    | .mid t =>
      let v := A.cross B
      ⟨if v.dot T < 0 then -v else v, P + t • A, Y⟩

/-- The sides of a triangle: the start, the vector along the side, and the vertex opposite, `T1[(i+2)%3]`. -/
def sides (p : Tri K) : List (V3 K × V3 K × V3 K) := [(p.a, p.e1, p.c), (p.b, p.e2, p.a), (p.c, p.e3, p.b)]

/-- The variables of `triDistance` in the loop, 195-202; `P` and `Q` are the output arguments. -/
structure DState (K : Type*) where
  minP : V3 K
  minQ : V3 K
  mindd : K
  shown : Bool
  P : V3 K
  Q : V3 K

/-- What a distance query comes to: the square of the distance and the two points. -/
structure DRes (K : Type*) where
  dd : K
  P : V3 K
  Q : V3 K

/-- One round of the loop over pairs of sides, 208-236: a result, or the new state. -/
def dstep (s1 s2 : V3 K × V3 K × V3 K) (st : DState K) : DRes K ⊕ DState K :=
  let r := segPoints s1.1 s1.2.1 s2.1 s2.2.1
  let V := r.Y - r.X
  let dd := V.dot V
  if dd ≤ st.mindd then
    let a := (s1.2.2 - r.X).dot r.vec
    let b := (s2.2.2 - r.Y).dot r.vec
    if a ≤ 0 ∧ b ≥ 0 then .inl ⟨dd, r.X, r.Y⟩
    else
      let p := V.dot r.vec
      let a := if a < 0 then 0 else a
      let b := if b > 0 then 0 else b
      .inr ⟨r.X, r.Y, dd, st.shown || decide (p - a + b > 0), r.X, r.Y⟩
  else .inr { st with P := r.X, Q := r.Y }

/-- The loop, 204-238. -/
def dloop : List ((V3 K × V3 K × V3 K) × (V3 K × V3 K × V3 K)) → DState K → DRes K ⊕ DState K
  | [], st => .inr st
  | (s1, s2) :: l, st =>
    match dstep s1 s2 st with
    | .inl r => .inl r
    | .inr st => dloop l st

/-- The vertex of `W` nearest to the plane of `U` if the plane separates, 266-292 and 334-355. -/
def pick (U W : Tri K) : Option (V3 K) :=
  let n := U.nor
  let t := fun w : V3 K => (U.a - w).dot n
  if t W.a > 0 ∧ t W.b > 0 ∧ t W.c > 0 then
    let m := if t W.a < t W.b then W.a else W.b
    some (if t W.c < t m then W.c else m)
  else if t W.a < 0 ∧ t W.b < 0 ∧ t W.c < 0 then
    let m := if t W.a > t W.b then W.a else W.b
    some (if t W.c > t m then W.c else m)
  else none

/-- The three tests whether the projection of `y` lies within the face, 303-313 and 361-371. -/
def over (U : Tri K) (y : V3 K) : Bool :=
  (y - U.a).dot (U.nor.cross U.e1) > 0 && (y - U.b).dot (U.nor.cross U.e2) > 0 && (y - U.c).dot (U.nor.cross U.e3) > 0

/-- One of the two parts for a vertex and a face, 256-324 and 326-380. The first component is whether the plane
separates the triangles, the second the point of the face and the vertex. `thin` is `1e-15`. -/
def face (thin : K) (U W : Tri K) : Bool × Option (V3 K × V3 K) :=
  let n := U.nor
  let nl := n.dot n
  if nl > thin then
    match pick U W with
    | some y => (true, if over U y then some (y + ((U.a - y).dot n / nl) • n, y) else none)
    | none => (false, none)
  else (false, none)

/-- `triDistance`, 171-394, with the square of the distance: `sqrt(dd)`, 229, and `(P - Q).norm()`, 319 and 375, and
`sqrt(mindd)`, 391, are its root. -/
def triDist2 (thin : K) (T1 T2 : Tri K) : DRes K :=
  let st : DState K := ⟨0, 0, (T1.a - T2.a).dot (T1.a - T2.a) + 1, false, 0, 0⟩
  match dloop (T1.sides ×ˢ T2.sides) st with
  | .inl r => r
  | .inr st =>
    match face thin T1 T2 with
    | (_, some (f, y)) => ⟨(f - y).dot (f - y), f, y⟩
    | (s1, none) =>
      match face thin T2 T1 with
      | (_, some (f, y)) => ⟨(y - f).dot (y - f), y, f⟩
      | (s2, none) => if st.shown || s1 || s2 then ⟨st.mindd, st.minP, st.minQ⟩ else ⟨0, st.P, st.Q⟩

end

/-- `triDistance`, 171-394: the distance and the two points. -/
noncomputable def triDist (thin : ℝ) (T1 T2 : Tri ℝ) : ℝ × V3 ℝ × V3 ℝ :=
  let r := triDist2 thin T1 T2
  (Real.sqrt r.dd, r.P, r.Q)

end Tri
end Fcl
