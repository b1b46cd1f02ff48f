import Verif.Tree.Manager
import Verif.Base.DistCallback
import Mathlib.Logic.Function.Basic

/-!
# Model of `SaPCollisionManager` (`include/fcl/broadphase/broadphase_SaP.h`, `broadphase_SaP-inl.h`)

The doubly linked end point list of each axis (`elist`) is a list in the order of the `next` pointers.
A `SaPAABB` is identified with its object (`obj_aabb_map` is keyed by it), its member `cached` is the map
`cached`. Undefined behaviour of the C++ code, a corrupted list (an end point linked to itself) included,
is the result `none`.
-/

namespace Fcl

/-- `EndPoint` (`broadphase_SaP.h:176-202`): the object of the back pointer and `minmax`. -/
structure EP (O : Type*) where
  obj : O
  hi : Bool
deriving DecidableEq

/-- The members (`broadphase_SaP.h:131-145`). `fresh` says that `velist` has been rebuilt
(`updateVelist`) since end points were last deleted: it is then a copy of `elist`; when it is `false`,
`velist` holds pointers to deleted end points. -/
structure SaP (K O : Type*) where
  elist : Fin 3 → List (EP O)
  cached : O → AABB K
  arr : List O
  pairs : List (O × O)
  axis : Fin 3
  fresh : Bool

namespace SaP
variable {K O σ : Type*} [LinearOrder K] [LinearOrder O]

/-- Constructor, lines 98-106. `b` stands for the content of boxes not allocated yet. -/
def empty (b : AABB K) : SaP K O := ⟨fun _ => [], fun _ => b, [], [], 0, true⟩

/-- `EndPoint::getVal(i)`, lines 905-922. -/
def val (cached : O → AABB K) (c : Fin 3) (e : EP O) : K :=
  if e.hi then (cached e.obj).hi.get c else (cached e.obj).lo.get c

/-- `SaPPair(a, b)`, lines 925-938: the smaller address first. -/
def mkPair (a b : O) : O × O := if a < b then (a, b) else (b, a)

/-- `addToOverlapPairs`, lines 604-620. -/
def addPair (P : List (O × O)) (p : O × O) : List (O × O) := if p ∈ P then P else P ++ [p]

/-- `removeFromOverlapPairs`, lines 623-638: erase the first equal pair. -/
def removePair (P : List (O × O)) (p : O × O) : List (O × O) := P.erase p

/-- `size()`, lines 880-883. -/
def size (m : SaP K O) : Nat := m.arr.length

/-- `empty()`, lines 873-876: returns `AABB_arr.size()` converted to `bool`. -/
def isEmpty (m : SaP K O) : Bool := decide (m.arr.length ≠ 0)

/-- `getObjects`, lines 549-557. -/
def getObjects (m : SaP K O) : List O := m.arr

/-- Lines 224-257: insert the end point `e` with value `v` before the first end point whose value is at
least `v`, at the end when there is none. -/
def insertAt (f : EP O → K) (v : K) (e : EP O) (l : List (EP O)) : List (EP O) :=
  l.takeWhile (fun x => decide (f x < v)) ++ e :: l.dropWhile (fun x => decide (f x < v))

/-- Lines 265-272: the end points passed by the loop that looks for the place of the upper end point, from
the lower end point on. The body does not run for the last end point of the list. -/
def walked (f : EP O → K) (v : K) : List (EP O) → List (EP O)
  | [] => []
  | [_] => []
  | e :: e' :: l => if f e < v then e :: walked f v (e' :: l) else []

/-- The list of one axis after lines 220-296. -/
def insertBoth (f : EP O → K) (o : O) (l : List (EP O)) : List (EP O) :=
  let lo : EP O := ⟨o, false⟩
  let hi : EP O := ⟨o, true⟩
  let vl := f lo
  l.takeWhile (fun x => decide (f x < vl)) ++
    insertAt f (f hi) hi (lo :: l.dropWhile (fun x => decide (f x < vl)))

/-- `registerObject`, lines 206-302. The pairs are found on axis 0 only (lines 263-273). -/
def register (w : O → AABB K) (m : SaP K O) (o : O) : SaP K O :=
  let cached := Function.update m.cached o (w o)
  let f := val cached
  let lo : EP O := ⟨o, false⟩
  let passed := walked (f 0) (f 0 ⟨o, true⟩)
    (lo :: (m.elist 0).dropWhile (fun x => decide (f 0 x < f 0 lo)))
  let found := passed.filter (fun e => decide (e ≠ lo) && (cached e.obj).overlap (w o))
  { m with
    elist := fun c => insertBoth (f c) o (m.elist c)
    cached := cached
    arr := m.arr ++ [o]
    pairs := m.pairs ++ found.map (fun e => mkPair e.obj o)
    fresh := true }

/-- The inner loop of the sweep in `registerObjects`, lines 176-191: from `pos_it` on, with `pos_next` so
far; returns `pos_next` (as the rest of the list from it) and the pairs pushed. -/
def scan (cached : O → AABB K) (a : O) :
    Option (List (EP O)) → List (EP O) → Option (List (EP O)) × List (O × O)
  | nxt, [] => (nxt, [])
  | nxt, e :: l =>
    if e.obj = a then (nxt.orElse (fun _ => some (e :: l)), [])
    else if e.hi = false then
      let r := scan cached a (nxt.orElse (fun _ => some (e :: l))) l
      (r.1, if (cached e.obj).overlap (cached a) then mkPair e.obj a :: r.2 else r.2)
    else scan cached a nxt l

/-- The outer loop, lines 170-194. The first argument bounds the number of iterations; `pos_next` lies
strictly behind `pos`, so the length of the list is enough (`sweep_mem`). -/
def sweep (cached : O → AABB K) : Nat → List (EP O) → List (O × O)
  | 0, _ => []
  | _ + 1, [] => []
  | fuel + 1, e :: l =>
    let r := scan cached e.obj none l
    r.2 ++ (match r.1 with | none => [] | some l' => sweep cached fuel l')

/-- `registerObjects`, lines 117-202. `srt` stands for `std::sort` with the given key; the range is sorted
for axis 0, then again for axis 1, then for axis 2. `ax` is the axis chosen from the extents (lines
160-165). A batch on a manager that is not empty is registered one by one
(`broadphase_collision_manager-inl.h:68-72`). -/
def registerMany (srt : (EP O → K) → List (EP O) → List (EP O)) (ax : Fin 3) (w : O → AABB K)
    (m : SaP K O) (os : List O) : SaP K O :=
  if os = [] then m
  else if m.size > 0 then os.foldl (register w) m
  else
    let cached : O → AABB K := fun o => if o ∈ os then w o else m.cached o
    let eps : List (EP O) := os.flatMap (fun o => [⟨o, false⟩, ⟨o, true⟩])
    let l0 := srt (val cached 0) eps
    let l1 := srt (val cached 1) l0
    let l2 := srt (val cached 2) l1
    let elist : Fin 3 → List (EP O) := fun c => match c with | 0 => l0 | 1 => l1 | 2 => l2
    { m with
      elist := elist
      cached := cached
      arr := m.arr ++ os
      pairs := m.pairs ++ sweep cached (elist ax).length (elist ax)
      fresh := true }

/-- `unregisterObject`, lines 52-95. `AABB_arr.erase(it)` is undefined when the object is not found; when
it is found the iterator is used after the erasure (lines 62-69), and what follows happens only if the
freed node is still intact (`intact`). The lower end point is unlinked through its successor without a
test (line 80), which is undefined when it has none. `velist` is not rebuilt. -/
def unregister (intact : Bool) (m : SaP K O) (o : O) : Option (SaP K O) :=
  if o ∉ m.arr ∨ intact = false then none
  else if ∃ c : Fin 3, (m.elist c).getLast? = some ⟨o, false⟩ then none
  else some { m with
    elist := fun c => (m.elist c).filter (fun e => decide (e.obj ≠ o))
    arr := m.arr.erase o
    pairs := m.pairs.filter (fun p => decide (p.1 ≠ o ∧ p.2 ≠ o))
    fresh := false }

/-- `setup()`, lines 306-320. `ax` is the axis chosen from the extents, which are read through
`velist`. -/
def setup (ax : Fin 3) (m : SaP K O) : Option (SaP K O) :=
  if m.size = 0 then some m
  else if m.fresh then some { m with axis := ax } else none

/-- `updateVelist`, lines 466-481. -/
def updateVelist (m : SaP K O) : SaP K O := { m with fresh := true }

/-- The end points before `e` in the list. -/
def before (e : EP O) (l : List (EP O)) : List (EP O) := l.takeWhile (fun x => decide (x ≠ e))
/-- The end points behind `e` in the list. -/
def after (e : EP O) (l : List (EP O)) : List (EP O) := (l.dropWhile (fun x => decide (x ≠ e))).tail

/-- Replace coordinate `c` of a vector. -/
def setC (v : V3 K) (c : Fin 3) (x : K) : V3 K :=
  match c with
  | 0 => { v with x := x }
  | 1 => { v with y := x }
  | 2 => { v with z := x }

/-- `current->lo->getVal(coord) = x`. -/
def setLo (cached : O → AABB K) (o : O) (c : Fin 3) (x : K) : O → AABB K :=
  Function.update cached o { cached o with lo := setC (cached o).lo c x }
/-- `current->hi->getVal(coord) = x`. -/
def setHi (cached : O → AABB K) (o : O) (c : Fin 3) (x : K) : O → AABB K :=
  Function.update cached o { cached o with hi := setC (cached o).hi c x }

/-- Moving an end point towards the front: the end points before it that are greater than `v`, nearest
first, and the remaining ones in list order. -/
def sink (f : EP O → K) (v : K) (pre : List (EP O)) : List (EP O) × List (EP O) :=
  (pre.reverse.takeWhile (fun x => decide (f x > v)),
   (pre.reverse.dropWhile (fun x => decide (f x > v))).reverse)

/-- The pairs after passing end points of kind `kind` whose boxes overlap `b`, each time `add`ed to or
removed from the list. -/
def passPairs (op : List (O × O) → O × O → List (O × O)) (cached : O → AABB K) (kind : Bool) (b : AABB K)
    (o : O) (passed : List (EP O)) (P : List (O × O)) : List (O × O) :=
  passed.foldl (fun P e => if e.hi = kind ∧ (cached e.obj).overlap b = true then op P (mkPair e.obj o) else P) P

/-- What `update_` changes on one axis: the list, the boxes and the pairs. -/
structure Axis (K O : Type*) where
  l : List (EP O)
  cached : O → AABB K
  pairs : List (O × O)

/-- Lines 351-380: the lower end point moves towards the front. -/
def downLo (c : Fin 3) (o : O) (nb : AABB K) (s : Axis K O) : Option (Axis K O) :=
  let lo : EP O := ⟨o, false⟩
  let f := val s.cached c
  let pre := before lo s.l
  let post := after lo s.l
  let s' : Option (Axis K O) :=
    if pre = [] then some s
    else if post = [] then none
    else
      let r := sink f (nb.lo.get c) pre
      some { s with
        l := r.2 ++ lo :: (r.1.reverse ++ post)
        pairs := passPairs addPair s.cached true nb o r.1 s.pairs }
  s'.map (fun s => { s with cached := setLo s.cached o c (nb.lo.get c) })

/-- Lines 382-400: the upper end point moves towards the front. It is linked to itself when its value does
not decrease; the loop runs off the list when nothing before it is small enough. -/
def downHi (c : Fin 3) (o : O) (nb : AABB K) (s : Axis K O) : Option (Axis K O) :=
  let hi : EP O := ⟨o, true⟩
  let f := val s.cached c
  let r := sink f (nb.hi.get c) (before hi s.l)
  if ¬ f hi > nb.hi.get c then none
  else if r.2 = [] then none
  else some
    { l := r.2 ++ hi :: (r.1.reverse ++ after hi s.l)
      pairs := passPairs removePair s.cached false (s.cached o) o r.1 s.pairs
      cached := setHi s.cached o c (nb.hi.get c) }

/-- Lines 404-433: the upper end point moves towards the back. The last end point of the list is not
examined for a new pair. The end point is linked to itself when its value does not increase and it is not
the last one. -/
def upHi (c : Fin 3) (o : O) (nb : AABB K) (s : Axis K O) : Option (Axis K O) :=
  let hi : EP O := ⟨o, true⟩
  let f := val s.cached c
  let pre := before hi s.l
  let post := after hi s.l
  let passed := post.takeWhile (fun x => decide (f x < nb.hi.get c))
  let rest := post.dropWhile (fun x => decide (f x < nb.hi.get c))
  let s' : Option (Axis K O) :=
    if post = [] then some s
    else if ¬ f hi < nb.hi.get c then none
    else if pre = [] then none
    else some { s with
      l := pre ++ (passed ++ hi :: rest)
      pairs := passPairs addPair s.cached false nb o (if rest = [] then passed.dropLast else passed) s.pairs }
  s'.map (fun s => { s with cached := setHi s.cached o c (nb.hi.get c) })

/-- Lines 435-458: the lower end point moves towards the back. The loop runs off the list when nothing
behind it is large enough. -/
def upLo (c : Fin 3) (o : O) (nb : AABB K) (s : Axis K O) : Option (Axis K O) :=
  let lo : EP O := ⟨o, false⟩
  let f := val s.cached c
  let post := after lo s.l
  let passed := post.takeWhile (fun x => decide (f x < nb.lo.get c))
  let rest := post.dropWhile (fun x => decide (f x < nb.lo.get c))
  if rest = [] then none
  else some
    { l := before lo s.l ++ (passed ++ lo :: rest)
      pairs := passPairs removePair s.cached true (s.cached o) o passed s.pairs
      cached := setLo s.cached o c (nb.lo.get c) }

/-- One turn of the loop of `update_`, lines 336-460. When the lower value does not change nothing is
done. -/
def updateAxis (c : Fin 3) (o : O) (nb : AABB K) (s : Axis K O) : Option (Axis K O) :=
  if (s.cached o).lo.get c > nb.lo.get c then (downLo c o nb s).bind (downHi c o nb)
  else if (s.cached o).lo.get c < nb.lo.get c then (upHi c o nb s).bind (upLo c o nb)
  else some s

/-- One turn of the loop on the manager. -/
def updateCoord (o : O) (nb : AABB K) (m : SaP K O) (c : Fin 3) : Option (SaP K O) :=
  (updateAxis c o nb ⟨m.elist c, m.cached, m.pairs⟩).map (fun s =>
    { m with elist := Function.update m.elist c s.l, cached := s.cached, pairs := s.pairs })

/-- `update_`, lines 322-462. `approx` is `AABB::equal` (`AABB-inl.h:318-323`). An object that is not
registered has no `SaPAABB` (`obj_aabb_map[obj]` is a null pointer). -/
def update1 (approx : AABB K → AABB K → Bool) (w : O → AABB K) (m : SaP K O) (o : O) : Option (SaP K O) :=
  if o ∉ m.arr then none
  else if approx (m.cached o) (w o) then some m
  else ([0, 1, 2] : List (Fin 3)).foldlM (updateCoord o (w o)) m

/-- `update(objs)`, lines 494-503; `update(obj)`, lines 484-491, is the case of one object and
`update()`, lines 506-517, the case of all objects. -/
def updateObjs (approx : AABB K → AABB K → Bool) (ax : Fin 3) (w : O → AABB K) (m : SaP K O)
    (os : List O) : Option (SaP K O) :=
  (os.foldlM (update1 approx w) m).bind (fun m => setup ax (updateVelist m))

/-- `clear()`, lines 521-545. The chosen axis is kept. -/
def clear (m : SaP K O) : SaP K O :=
  { m with elist := fun _ => [], arr := [], pairs := [], fresh := true }

/-- The loop of `collide_`, lines 581-594, over the end points before `end_pos`. -/
def checkColl (cached : O → AABB K) (ax : Fin 3) (b : AABB K) (cb : CB σ O) (q : O) :
    List (EP O) → σ → σ × Bool
  | [], s => (s, false)
  | e :: l, s =>
    if e.obj ≠ q then
      if e.hi = false ∧ (cached e.obj).hi.get ax ≥ b.lo.get ax then
        if (cached e.obj).overlap b then
          let r := cb s q e.obj
          if r.2 then (r.1, true) else checkColl cached ax b cb q l r.1
        else checkColl cached ax b cb q l s
      else checkColl cached ax b cb q l s
    else checkColl cached ax b cb q l s

/-- `std::upper_bound` on `velist[axis]` and the end points before the returned one, lines 567-581: on a
sorted list the longest prefix with values at most `v`. (On an unsorted list the C++ result is
unspecified; this is then one of the possible results. The theorems use it on sorted lists only.) -/
def upTo (f : EP O → K) (v : K) (l : List (EP O)) : List (EP O) :=
  l.takeWhile (fun e => decide (f e ≤ v))

/-- `collide_`, lines 559-600; undefined when `velist` holds pointers to deleted end points. -/
def collideQ (w : O → AABB K) (m : SaP K O) (cb : CB σ O) (q : O) (s : σ) : Option (σ × Bool) :=
  if m.fresh then
    some (checkColl m.cached m.axis (w q) cb q
      (upTo (val m.cached m.axis) ((w q).hi.get m.axis) (m.elist m.axis)) s)
  else none

/-- `collide(obj, cdata, callback)`, lines 642-647. -/
def collideObj (w : O → AABB K) (m : SaP K O) (cb : CB σ O) (q : O) (s : σ) : Option σ :=
  if m.size = 0 then some s else (collideQ w m cb q s).map (·.1)

/-- `collide(cdata, callback)`, lines 770-782. -/
def collideSelf (m : SaP K O) (cb : CB σ O) (s : σ) : σ :=
  if m.size = 0 then s else (runUntil cb s m.pairs).1

/-- The loops of `collide(other_manager)`, lines 821-825 and 829-833. -/
def collideEach (w : O → AABB K) (m : SaP K O) (cb : CB σ O) : List O → σ → Option (σ × Bool)
  | [], s => some (s, false)
  | o :: os, s =>
    match collideQ w m cb o s with
    | none => none
    | some r => if r.2 then some r else collideEach w m cb os r.1

/-- `collide(other_manager, cdata, callback)` for a different manager object, lines 807-835; for the same
object it is `collideSelf` (lines 813-817). -/
def collideOther (w : O → AABB K) (m m' : SaP K O) (cb : CB σ O) (s : σ) : Option σ :=
  if m.size = 0 ∨ m'.size = 0 then some s
  else if m.size < m'.size then (collideEach w m' cb m.arr s).map (·.1)
  else (collideEach w m cb m'.arr s).map (·.1)

end SaP

/-- One call: the operation, the boxes of all objects at that time, `std::sort`, the axes chosen by
`registerObjects` and by `setup`, and whether the memory freed in `unregisterObject` is still intact. -/
structure PCall (K O : Type*) where
  op : MgrOp O
  w : O → AABB K
  srt : (EP O → K) → List (EP O) → List (EP O)
  axR : Fin 3
  ax : Fin 3
  intact : Bool

namespace SaP
variable {K O σ : Type*} [LinearOrder K] [LinearOrder O]

/-- One public call. -/
def step (approx : AABB K → AABB K → Bool) (m : SaP K O) (c : PCall K O) : Option (SaP K O) :=
  match c.op with
  | .register o => some (m.register c.w o)
  | .registerMany os => some (m.registerMany c.srt c.axR c.w os)
  | .unregister o => m.unregister c.intact o
  | .setup => m.setup c.ax
  | .update => m.updateObjs approx c.ax c.w m.arr
  | .updateObj o => m.updateObjs approx c.ax c.w [o]
  | .updateObjs os => m.updateObjs approx c.ax c.w os
  | .clear => some m.clear

/-- A history of calls on a new manager, earliest first. -/
def run (approx : AABB K → AABB K → Bool) (b : AABB K) (h : List (PCall K O)) : Option (SaP K O) :=
  h.foldlM (step approx) (empty b)

end SaP
end Fcl
