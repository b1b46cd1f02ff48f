import Verif.Tree.Manager
import Verif.Base.DistCallback

/-!
# Model of `SSaPCollisionManager` (`include/fcl/broadphase/broadphase_SSaP-inl.h`)

Boxes are read live through `w : O → AABB K`. `srt` stands for `std::sort` with the given key: any
function may be plugged in, and the theorems only ask that it returns a sorted permutation.
-/

namespace Fcl

/-- Members `objs_x`, `objs_y`, `objs_z`, `setup_` (`broadphase_SSaP.h:118-127`). -/
structure SSaP (O : Type*) where
  x : List O
  y : List O
  z : List O
  ready : Bool

namespace SSaP
variable {K O σ : Type*} [LinearOrder K] [DecidableEq O]

/-- `objs_x`, `objs_y`, `objs_z` by axis number. -/
def axisList (m : SSaP O) : Fin 3 → List O
  | 0 => m.x
  | 1 => m.y
  | 2 => m.z

/-- Constructor, lines 149-152. -/
def empty : SSaP O := ⟨[], [], [], false⟩

/-- The key of `SortByXLow`, `SortByYLow`, `SortByZLow` (lines 50-85): `min_[axis]`. -/
def key (w : O → AABB K) (i : Fin 3) (o : O) : K := (w o).lo.get i

/-- `std::upper_bound(begin, end, &dummy, SortBy?Low)` for a point box `dummy` at coordinate `v`, as the
prefix before the returned position. On a sorted range this is the longest prefix of elements with
`min_[axis] <= v`. (On an unsorted range the C++ result is unspecified; this is then just one of the
possible results. The theorems below use it on sorted ranges only.) -/
def upTo (w : O → AABB K) (i : Fin 3) (v : K) (l : List O) : List O :=
  l.takeWhile (fun o => decide (key w i o ≤ v))

/-- `setup()`, lines 166-175. -/
def setup (srt : (O → K) → List O → List O) (w : O → AABB K) (m : SSaP O) : SSaP O :=
  if m.ready then m
  else ⟨srt (key w 0) m.x, srt (key w 1) m.y, srt (key w 2) m.z, true⟩

/-- `registerObject`, lines 156-162. -/
def register (m : SSaP O) (o : O) : SSaP O := ⟨m.x ++ [o], m.y ++ [o], m.z ++ [o], false⟩

/-- Lines 107-118 for one axis: look for the object in the prefix found by `upper_bound` and erase its
first occurrence. -/
def dropAxis (w : O → AABB K) (i : Fin 3) (o : O) (l : List O) : List O :=
  if o ∈ upTo w i ((w o).hi.get i) l then l.erase o else l

/-- `unregisterObject`, lines 101-145. -/
def unregister (srt : (O → K) → List O → List O) (w : O → AABB K) (m : SSaP O) (o : O) : SSaP O :=
  let m := m.setup srt w
  { m with x := dropAxis w 0 o m.x, y := dropAxis w 1 o m.y, z := dropAxis w 2 o m.z }

/-- `update()`, lines 179-183. -/
def update (srt : (O → K) → List O → List O) (w : O → AABB K) (m : SSaP O) : SSaP O :=
  setup srt w { m with ready := false }

/-- `clear()`, lines 187-193. -/
def clear (_ : SSaP O) : SSaP O := ⟨[], [], [], false⟩

/-- One public call. `registerObjects`, `update(obj)`, `update(objs)` are those of the base class
(`broadphase_collision_manager-inl.h:68-92`). -/
def step (srt : (O → K) → List O → List O) (w : O → AABB K) (m : SSaP O) : MgrOp O → SSaP O
  | .register o => m.register o
  | .registerMany os => os.foldl register m
  | .unregister o => m.unregister srt w o
  | .setup => m.setup srt w
  | .update => m.update srt w
  | .updateObj _ => m.update srt w
  | .updateObjs _ => m.update srt w
  | .clear => m.clear

/-- `getObjects`, lines 197-201. -/
def getObjects (m : SSaP O) : List O := m.x
/-- `size()`, lines 588-591. -/
def size (m : SSaP O) : Nat := m.x.length
/-- `empty()`, lines 581-584. -/
def isEmpty (m : SSaP O) : Bool := m.x.isEmpty

/-- The choice of the range to scan for a point box at `v`, lines 261-296 and 336-372: with at most
`CUTOFF = 100` candidates on an axis take it, otherwise try the next axis, finally the smallest. -/
def cands (w : O → AABB K) (m : SSaP O) (v : V3 K) : List O :=
  let r1 := upTo w 0 v.x m.x
  let d1 := r1.length
  if d1 > 100 then
    let r2 := upTo w 1 v.y m.y
    let d2 := r2.length
    if d2 > 100 then
      let r3 := upTo w 2 v.z m.z
      let d3 := r3.length
      if d3 > 100 then
        if d3 ≤ d2 ∧ d3 ≤ d1 then r3
        else if d2 ≤ d3 ∧ d2 ≤ d1 then r2 else r1
      else r3
    else r2
  else r1

/-- `checkColl`, lines 205-221. -/
def checkColl (w : O → AABB K) (cb : CB σ O) (q : O) : List O → σ → σ × Bool
  | [], s => (s, false)
  | o :: os, s =>
    if o ≠ q then
      if (w o).overlap (w q) then
        let r := cb s o q
        if r.2 then (r.1, true) else checkColl w cb q os r.1
      else checkColl w cb q os s
    else checkColl w cb q os s

/-- `collide_(obj)`, lines 254-299. -/
def collideQ (w : O → AABB K) (m : SSaP O) (cb : CB σ O) (q : O) (s : σ) : σ × Bool :=
  checkColl w cb q (cands w m (w q).hi) s

/-- `collide(obj, cdata, callback)`, lines 245-250. -/
def collideObj (w : O → AABB K) (m : SSaP O) (cb : CB σ O) (q : O) (s : σ) : σ :=
  if m.size = 0 then s else (collideQ w m cb q s).1

/-- The inner `while(1)` of the sweep, lines 467-480: advance `run_pos` past the objects that start
before `v`, and one further. Lists are the ranges from the iterator to the end. -/
def skipLow (w : O → AABB K) (i : Fin 3) (v : K) : List O → List O
  | [] => []
  | r :: rs => if key w i r < v then skipLow w i v rs else rs

/-- Lines 484-501: the loop over `run_pos2`. `axis2` is `i + 1` and `axis3` is `i + 2`, cyclically
(lines 458-459). -/
def scan (w : O → AABB K) (i : Fin 3) (cb : CB σ O) (o : O) : List O → σ → σ × Bool
  | [], s => (s, false)
  | p :: ps, s =>
    if key w i p ≤ (w o).hi.get i then
      if (w o).hi.get (i + 1) ≥ (w p).lo.get (i + 1) ∧ (w p).hi.get (i + 1) ≥ (w o).lo.get (i + 1) then
        if (w o).hi.get (i + 2) ≥ (w p).lo.get (i + 2) ∧ (w p).hi.get (i + 2) ≥ (w o).lo.get (i + 2) then
          let r := cb s o p
          if r.2 then (r.1, true) else scan w i cb o ps r.1
        else scan w i cb o ps s
      else scan w i cb o ps s
    else (s, false)

/-- The sweep, lines 463-503; the two lists are the ranges from `pos` and from `run_pos` to `pos_end`. -/
def sweep (w : O → AABB K) (i : Fin 3) (cb : CB σ O) : List O → List O → σ → σ × Bool
  | [], _, s => (s, false)
  | _ :: _, [], s => (s, false)
  | o :: ps, r :: rs, s =>
    let run := skipLow w i (key w i o) (r :: rs)
    andThen (scan w i cb o run s) (sweep w i cb ps run)

/-- `collide(cdata, callback)`, lines 451-504. `axis` is the value computed by `selectOptimalAxis`
(lines 412-447, a heuristic comparison of extents); the theorems hold for every choice. -/
def collideSelf (w : O → AABB K) (axis : Fin 3) (m : SSaP O) (cb : CB σ O) (s : σ) : σ :=
  if m.size = 0 then s else (sweep w axis cb (m.axisList axis) (m.axisList axis) s).1

/-- The loops of `collide(other_manager)`, lines 541-542 and 546-547: each object of the list against
the manager's `collide_`. -/
def collideEach (w : O → AABB K) (m : SSaP O) (cb : CB σ O) : List O → σ → σ × Bool
  | [], s => (s, false)
  | o :: os, s => andThen (collideQ w m cb o s) (collideEach w m cb os)

/-- `collide(other_manager, cdata, callback)` for a different manager object, lines 525-549; for the same
object it is `collideSelf` (lines 531-535). -/
def collideOther (w : O → AABB K) (m m' : SSaP O) (cb : CB σ O) (s : σ) : σ :=
  if m.size = 0 ∨ m'.size = 0 then s
  else if m.size < m'.size then (collideEach w m' cb m.x s).1
  else (collideEach w m cb m'.x s).1

/-- `checkDis`, lines 225-241. -/
def checkDis (dist : AABB K → AABB K → K) (w : O → AABB K) (cb : DCB σ K O) (q : O) :
    List O → σ → K → σ × K × Bool
  | [], s, md => (s, md, false)
  | o :: os, s, md =>
    if o ≠ q then
      if dist (w o) (w q) < md then
        let r := cb s md o q
        if r.2.2 then (r.1, r.2.1, true) else checkDis dist w cb q os r.1 r.2.1
      else checkDis dist w cb q os s md
    else checkDis dist w cb q os s md

end SSaP

namespace SSaP
variable {K O σ : Type*} [LinearOrder K] [Field K] [DecidableEq O]

/-- Componentwise sum with a scalar on each axis (`Vector3(min_dist, min_dist, min_dist)`). -/
def shift (v : V3 K) (t : K) : V3 K := ⟨v.x + t, v.y + t, v.z + t⟩

/-- Lines 391-394: the next, larger, search position when nothing has been found yet.
`approx` is Eigen's `isApprox` with the given precision. -/
def widen (approx : V3 K → V3 K → Bool) (b : AABB K) (v : V3 K) : V3 K :=
  if approx v b.hi then
    ⟨v.x + (b.hi.x - b.lo.x) * (1 / 2), v.y + (b.hi.y - b.lo.y) * (1 / 2), v.z + (b.hi.z - b.lo.z) * (1 / 2)⟩
  else ⟨v.x * 2 - b.hi.x, v.y * 2 - b.hi.y, v.z * 2 - b.hi.z⟩

/-- The loop of `distance_`, lines 331-405, with `status` (here `last = true` for `status == 0`) and the
search position. `none` means that the given number of iterations is not enough. -/
def distLoop (dist : AABB K → AABB K → K) (approx : V3 K → V3 K → Bool) (big : K) (w : O → AABB K)
    (m : SSaP O) (cb : DCB σ K O) (q : O) : Nat → Bool → V3 K → σ → K → Option (σ × K × Bool)
  | 0, _, _, _, _ => none
  | fuel + 1, last, v, s, md =>
    let r := checkDis dist w cb q (cands w m v) s md
    if r.2.2 then some (r.1, r.2.1, true)
    else if last then some (r.1, r.2.1, false)
    else if md < big then some (r.1, r.2.1, false)
    else if r.2.1 < md then
      distLoop dist approx big w m cb q fuel true (shift (w q).hi r.2.1) r.1 r.2.1
    else distLoop dist approx big w m cb q fuel false (widen approx (w q) v) r.1 r.2.1

/-- `distance_(obj, ..., min_dist)`, lines 313-408. -/
def distQ (dist : AABB K → AABB K → K) (approx : V3 K → V3 K → Bool) (big : K) (w : O → AABB K)
    (m : SSaP O) (cb : DCB σ K O) (fuel : Nat) (q : O) (s : σ) (md : K) : Option (σ × K × Bool) :=
  distLoop dist approx big w m cb q fuel false (if md < big then shift (w q).hi md else (w q).hi) s md

/-- `distance(obj, cdata, callback)`, lines 303-309. -/
def distanceObj (dist : AABB K → AABB K → K) (approx : V3 K → V3 K → Bool) (big : K) (w : O → AABB K)
    (m : SSaP O) (cb : DCB σ K O) (fuel : Nat) (q : O) (s : σ) : Option (σ × K × Bool) :=
  if m.size = 0 then some (s, big, false) else distQ dist approx big w m cb fuel q s big

/-- The loops over `distance_`, lines 516-520, 569-570, 574-575. -/
def distEach (dist : AABB K → AABB K → K) (approx : V3 K → V3 K → Bool) (big : K) (w : O → AABB K)
    (m : SSaP O) (cb : DCB σ K O) (fuel : Nat) : List O → σ → K → Option (σ × K × Bool)
  | [], s, md => some (s, md, false)
  | o :: os, s, md =>
    match distQ dist approx big w m cb fuel o s md with
    | none => none
    | some r => if r.2.2 then some r else distEach dist approx big w m cb fuel os r.1 r.2.1

/-- `distance(cdata, callback)`, lines 508-521. -/
def distanceSelf (dist : AABB K → AABB K → K) (approx : V3 K → V3 K → Bool) (big : K) (w : O → AABB K)
    (axis : Fin 3) (m : SSaP O) (cb : DCB σ K O) (fuel : Nat) (s : σ) : Option (σ × K × Bool) :=
  if m.size = 0 then some (s, big, false)
  else distEach dist approx big w m cb fuel (m.axisList axis) s big

/-- `distance(other_manager, cdata, callback)` for a different manager object, lines 553-577. -/
def distanceOther (dist : AABB K → AABB K → K) (approx : V3 K → V3 K → Bool) (big : K) (w : O → AABB K)
    (m m' : SSaP O) (cb : DCB σ K O) (fuel : Nat) (s : σ) : Option (σ × K × Bool) :=
  if m.size = 0 ∨ m'.size = 0 then some (s, big, false)
  else if m.size < m'.size then distEach dist approx big w m' cb fuel m.x s big
  else distEach dist approx big w m cb fuel m'.x s big

end SSaP
end Fcl
