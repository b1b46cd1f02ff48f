import Verif.ITree.Model
import Verif.Tree.Manager
import Verif.Search.Model
import Mathlib.Data.List.Sort

/-!
# Model of `IntervalTreeCollisionManager` (`include/fcl/broadphase/broadphase_interval_tree-inl.h`)

Boxes are read live through `w : O → AABB K`. An interval (`SAPInterval`) is identified with its object. `bot` is the
least value of the scalar type, the key of the sentinels of the interval trees. `none` is undefined behaviour, or a
call of the interval tree that leaves its model (`Verif/ITree/Model.lean`).
-/

namespace Fcl

/-- `EndPoint` (`broadphase_interval_tree.h`, lines 146-161): the object, `minmax` and `value`. -/
structure IEnd (K O : Type*) where
  obj : O
  hi : Bool
  val : K
deriving DecidableEq

/-- The members (`broadphase_interval_tree.h:133-143`): end points by axis, the three trees or null pointers, the
intervals of `obj_interval_maps` (the three maps always have the same keys), `setup_`. -/
structure IMgr (K O : Type*) where
  ends : Fin 3 → List (IEnd K O)
  trees : Option (Fin 3 → ITree.St K O)
  maps : O → Option (AABB K)
  ready : Bool

namespace IMgr
open ITree (Ivl St)

section
variable {K O σ : Type*} [LinearOrder K] [LinearOrder O]

/-- Constructor, lines 160-164. -/
def empty : IMgr K O := ⟨fun _ => [], none, fun _ => none, false⟩

/-- `getAABB().min_[i]` or `.max_[i]`. -/
def side (b : AABB K) (hi : Bool) (i : Fin 3) : K := if hi then b.hi.get i else b.lo.get i

/-- `registerObject`, lines 175-199. -/
def register (w : O → AABB K) (m : IMgr K O) (o : O) : IMgr K O :=
  { m with
    ends := fun i => m.ends i ++ [⟨o, false, side (w o) false i⟩, ⟨o, true, side (w o) true i⟩]
    ready := false }

/-- `interval_trees[i]->insert` for one object after the other, lines 217-233. -/
def insertAll (bot : K) (w : O → AABB K) (i : Fin 3) : List O → St K O → Option (St K O)
  | [], t => some t
  | o :: os, t => (ITree.insert bot t ⟨o, (w o).lo.get i, (w o).hi.get i⟩).bind (insertAll bot w i os)

/-- Apply a partial function on every axis. -/
def onAxes {α : Type*} (f : Fin 3 → Option α) : Option (Fin 3 → α) :=
  match f 0, f 1, f 2 with
  | some a, some b, some c => some (fun i => if i = 0 then a else if i = 1 then b else c)
  | _, _, _ => none

/-- `setup()`, lines 202-238. `srt` is `std::sort` of a range of end points. -/
def setup (bot : K) (srt : List (IEnd K O) → List (IEnd K O)) (w : O → AABB K) (m : IMgr K O) : Option (IMgr K O) :=
  if m.ready then some m
  else
    let e := fun i => srt (m.ends i)
    let os := ((e 0).filter (fun p => !p.hi)).map (·.obj)
    (onAxes fun i => insertAll bot w i os St.empty).map fun ts =>
      ⟨e, some ts, fun o => if o ∈ os then some (w o) else m.maps o, true⟩

/-- `std::lower_bound` for the value `v`, as a position. Undefined unless the elements below `v` come first. -/
def lowerBound (v : K) (l : List (IEnd K O)) : Option ℕ :=
  let k := (l.takeWhile (fun e => decide (e.val < v))).length
  if (l.drop k).all (fun e => decide (v ≤ e.val)) then some k else none

/-- `std::upper_bound` for the value `v`, likewise. -/
def upperBound (v : K) (l : List (IEnd K O)) : Option ℕ :=
  let k := (l.takeWhile (fun e => decide (e.val ≤ v))).length
  if (l.drop k).all (fun e => decide (v < e.val)) then some k else none

/-- The loop at lines 68-79: `n` rounds from position `i`; the result is `cur_id` and the array. -/
def compact (o : O) : ℕ → ℕ → ℕ → List (IEnd K O) → ℕ × List (IEnd K O)
  | 0, _, cur, a => (cur, a)
  | n + 1, i, cur, a =>
    match a[i]? with
    | none => (cur, a)
    | some e =>
      if e.obj ≠ o then compact o n (i + 1) (cur + 1) (if i = cur then a else a.set cur e)
      else compact o n (i + 1) cur a

/-- Lines 57-82 (and 84-109, 112-137) for one axis. `resize(size() - 2)` of an array of one element fails. -/
def dropAxis (b : AABB K) (o : O) (i : Fin 3) (l : List (IEnd K O)) : Option (List (IEnd K O)) :=
  match lowerBound (b.lo.get i) l with
  | none => none
  | some st =>
    match upperBound (b.hi.get i) (l.drop st) with
    | none => none
    | some n =>
      if 0 < n then
        let r := compact o n st st l
        if r.1 < st + n then (if l.length < 2 then none else some (r.2.take (l.length - 2))) else some r.2
      else some l

/-- `unregisterObject`, lines 52-156. -/
def unregister (bot : K) (srt : List (IEnd K O) → List (IEnd K O)) (w : O → AABB K) (m : IMgr K O) (o : O) :
    Option (IMgr K O) :=
  (m.setup bot srt w).bind fun m =>
  (onAxes fun i => dropAxis (w o) o i (m.ends i)).bind fun e =>
  match m.maps o with
  | none => some { m with ends := e }
  | some _ =>
    match m.trees with
    | none => none
    | some ts =>
      (onAxes fun i => ITree.delete bot (ts i) o).map fun ts' =>
        { m with ends := e, trees := some ts', maps := fun p => if p = o then none else m.maps p }

/-- `update()`, lines 242-272. -/
def update (bot : K) (srt : List (IEnd K O) → List (IEnd K O)) (w : O → AABB K) (m : IMgr K O) : Option (IMgr K O) :=
  setup bot srt w
    { m with ends := fun i => (m.ends i).map (fun e => { e with val := side (w e.obj) e.hi i }), ready := false }

/-- The inner search at lines 298-305 and 309-316: the first end point from position `k` with this object and
`minmax == 0` (both loops test for that) gets the value `v`. -/
def setFrom (o : O) (k : ℕ) (v : K) (l : List (IEnd K O)) : List (IEnd K O) :=
  l.take k ++ go (l.drop k)
where
  /-- The search itself. -/
  go : List (IEnd K O) → List (IEnd K O)
    | [] => []
    | e :: es => if e.obj = o ∧ e.hi = false then { e with val := v } :: es else e :: go es

/-- Lines 296-318 for one axis. -/
def moveEnds (srt : List (IEnd K O) → List (IEnd K O)) (old new : AABB K) (o : O) (i : Fin 3) (l : List (IEnd K O)) :
    Option (List (IEnd K O)) :=
  (lowerBound (old.lo.get i) l).bind fun k =>
  let l1 := setFrom o k (new.lo.get i) l
  (lowerBound (old.hi.get i) l1).map fun k' => srt (setFrom o k' (new.hi.get i) l1)

/-- `update(updated_obj)`, lines 276-319. -/
def updateObj (bot : K) (srt : List (IEnd K O) → List (IEnd K O)) (w : O → AABB K) (m : IMgr K O) (o : O) :
    Option (IMgr K O) :=
  match m.maps o, m.trees with
  | some old, some ts =>
    (onAxes fun i => (ITree.delete bot (ts i) o).bind fun t =>
      ITree.insert bot t ⟨o, (w o).lo.get i, (w o).hi.get i⟩).bind fun ts' =>
    (onAxes fun i => moveEnds srt old (w o) o i (m.ends i)).map fun e =>
      { m with ends := e, trees := some ts', maps := fun p => if p = o then some (w o) else m.maps p }
  | _, _ => none

/-- `update(updated_objs)`, lines 323-327. -/
def updateObjs (bot : K) (srt : List (IEnd K O) → List (IEnd K O)) (w : O → AABB K) :
    List O → IMgr K O → Option (IMgr K O)
  | [], m => some m
  | o :: os, m => (m.updateObj bot srt w o).bind (updateObjs bot srt w os)

/-- `clear()`, lines 331-354. -/
def clear (_ : IMgr K O) : IMgr K O := ⟨fun _ => [], none, fun _ => none, false⟩

/-- One public call; `registerObjects` is that of the base class (`broadphase_collision_manager-inl.h:69-75`). -/
def step (bot : K) (srt : List (IEnd K O) → List (IEnd K O)) (w : O → AABB K) (m : IMgr K O) :
    MgrOp O → Option (IMgr K O)
  | .register o => some (m.register w o)
  | .registerMany os => some (os.foldl (register w) m)
  | .unregister o => m.unregister bot srt w o
  | .setup => m.setup bot srt w
  | .update => m.update bot srt w
  | .updateObj o => m.updateObj bot srt w o
  | .updateObjs os => updateObjs bot srt w os m
  | .clear => some m.clear

/-- `size()`, lines 653-656. -/
def size (m : IMgr K O) : ℕ := (m.ends 0).length / 2

/-- `empty()`, lines 646-649. -/
def isEmpty (m : IMgr K O) : Bool := (m.ends 0).isEmpty

/-- `getObjects`, lines 358-369. Entries not assigned are null; an assignment past the end is undefined. -/
def getObjects (m : IMgr K O) : Option (List (Option O)) :=
  let os := ((m.ends 0).filter (fun p => !p.hi)).map (·.obj)
  let n := (m.ends 0).length / 2
  if os.length ≤ n then some (os.map some ++ List.replicate (n - os.length) none) else none

/-- The choice of the list to look at, lines 387-414 and 452-482: the query on the first axis unless it has more than
`CUTOFF = 100` results, and so on; the longest when all have. -/
def pick (bot : K) (ts : Fin 3 → St K O) (b : AABB K) : Option (List (Ivl K O)) :=
  match ITree.query bot (ts 0) (b.lo.get 0) (b.hi.get 0) with
  | none => none
  | some r0 =>
    if r0.length > 100 then
      match ITree.query bot (ts 1) (b.lo.get 1) (b.hi.get 1) with
      | none => none
      | some r1 =>
        if r1.length > 100 then
          match ITree.query bot (ts 2) (b.lo.get 2) (b.hi.get 2) with
          | none => none
          | some r2 =>
            if r2.length > 100 then
              if r1.length ≤ r0.length ∧ r2.length ≤ r0.length then some r0
              else if r0.length ≤ r1.length ∧ r2.length ≤ r1.length then some r1
              else some r2
            else some r2
        else some r1
    else some r0

/-- The objects looked at for the box `b`; the trees must exist. -/
def cands (bot : K) (m : IMgr K O) (b : AABB K) : Option (List O) :=
  match m.trees with
  | none => none
  | some ts => (pick bot ts b).map (List.map (·.id))

/-- `checkColl`, lines 660-683. -/
def checkColl (w : O → AABB K) (cb : CB σ O) (q : O) : List O → σ → σ × Bool
  | [], s => (s, false)
  | o :: os, s =>
    if o ≠ q then
      if (w o).overlap (w q) then
        let r := cb s o q
        if r.2 then (r.1, true) else checkColl w cb q os r.1
      else checkColl w cb q os s
    else checkColl w cb q os s

/-- `collide_(obj)`, lines 381-415. -/
def collideQ (bot : K) (w : O → AABB K) (m : IMgr K O) (cb : CB σ O) (q : O) (s : σ) : Option (σ × Bool) :=
  match m.cands bot (w q) with
  | none => none
  | some l => some (checkColl w cb q l s)

/-- `collide(obj, cdata, callback)`, lines 373-377. -/
def collideObj (bot : K) (w : O → AABB K) (m : IMgr K O) (cb : CB σ O) (q : O) (s : σ) : Option σ :=
  if m.size = 0 then some s
  else match m.collideQ bot w cb q s with
    | none => none
    | some r => some r.1

/-- A loop of `collide_` over objects, lines 605-606 and 610-611. -/
def collideEach (bot : K) (w : O → AABB K) (m : IMgr K O) (cb : CB σ O) : List O → σ → Option (σ × Bool)
  | [], s => some (s, false)
  | q :: qs, s =>
    match m.collideQ bot w cb q s with
    | none => none
    | some r => if r.2 then some r else collideEach bot w m cb qs r.1

/-- `collide(other_manager, cdata, callback)` for a different manager object, lines 592-614: the loop runs over the
end points, of which every object has two. -/
def collideOther (bot : K) (w : O → AABB K) (m m' : IMgr K O) (cb : CB σ O) (s : σ) : Option σ :=
  if m.size = 0 ∨ m'.size = 0 then some s
  else
    match (if m.size < m'.size then m'.collideEach bot w cb ((m.ends 0).map (·.obj)) s
      else m.collideEach bot w cb ((m'.ends 0).map (·.obj)) s) with
    | none => none
    | some r => some r.1

/-- The key of a pair in `overlap`, lines 552-555. -/
def pairKey (a o : O) : O × O := if a < o then (a, o) else (o, a)

/-- The loop over the active objects at a lower end point, lines 539-562. -/
def meet (w : O → AABB K) (ax : Fin 3) (cb : CB σ O) (o : O) :
    List O → List (O × O) → σ → List (O × O) × σ × Bool
  | [], P, s => (P, s, false)
  | a :: as, P, s =>
    if (w a).axisOverlap (w o) (ax + 1) && (w a).axisOverlap (w o) (ax + 2) then
      if pairKey a o ∈ P then meet w ax cb o as P s
      else
        let r := cb s a o
        if r.2 then (pairKey a o :: P, r.1, true) else meet w ax cb o as (pairKey a o :: P) r.1
    else meet w ax cb o as P s

/-- `active.insert` of a `std::set` ordered by address. -/
def setInsert (o : O) (l : List O) : List O := if o ∈ l then l else l.orderedInsert (· ≤ ·) o

/-- The sweep over the end points, lines 532-568. -/
def sweep (w : O → AABB K) (ax : Fin 3) (cb : CB σ O) : List (IEnd K O) → List O → List (O × O) → σ → σ × Bool
  | [], _, _, s => (s, false)
  | e :: es, act, P, s =>
    if e.hi then sweep w ax cb es (act.erase e.obj) P s
    else
      let r := meet w ax cb e.obj act P s
      if r.2.2 then (r.2.1, true) else sweep w ax cb es (setInsert e.obj act) r.1 r.2.1

/-- `collide(cdata, callback)`, lines 516-571. `ax` is the axis chosen by the heuristic at lines 523-530. The loop
runs to the number of end points of the first axis: undefined when another axis has fewer. -/
def collideSelf (w : O → AABB K) (ax : Fin 3) (m : IMgr K O) (cb : CB σ O) (s : σ) : Option σ :=
  if m.size = 0 then some s
  else if (m.ends ax).length < (m.ends 0).length then none
  else some (sweep w ax cb ((m.ends ax).take (m.ends 0).length) [] [] s).1

end

section
open Search
variable {K O σ : Type*} [Field K] [LinearOrder K] [LinearOrder O]

/-- `distance_(obj)`, lines 428-512. -/
def distQ (bot : K) (dist : AABB K → AABB K → K) (eqv : AABB K → AABB K → Bool) (big : K) (w : O → AABB K)
    (m : IMgr K O) (on : Bool) (cb : DCB σ K O) (fuel : ℕ) (q : O) (t : State σ K O) :
    Except Halt (State σ K O × Bool) :=
  search dist eqv big (m.cands bot) w (w q) on cb q fuel t

/-- `distance(obj, cdata, callback)`, lines 419-424: the callback data and, for the specification, the final
`min_dist`. -/
def distanceObj (bot : K) (dist : AABB K → AABB K → K) (eqv : AABB K → AABB K → Bool) (big : K) (w : O → AABB K)
    (m : IMgr K O) (cb : DCB σ K O) (fuel : ℕ) (q : O) (s : σ) : Except Halt (σ × K) :=
  if m.size = 0 then .ok (s, big)
  else (m.distQ bot dist eqv big w false cb fuel q ⟨s, big, []⟩).map (fun r => (r.1.s, r.1.md))

/-- `distance(cdata, callback)`, lines 575-589: over all end points of the first axis. -/
def distanceSelf (bot : K) (dist : AABB K → AABB K → K) (eqv : AABB K → AABB K → Bool) (big : K) (w : O → AABB K)
    (m : IMgr K O) (cb : DCB σ K O) (fuel : ℕ) (s : σ) : Except Halt (σ × K) :=
  if m.size = 0 then .ok (s, big)
  else (each (m.distQ bot dist eqv big w true cb fuel) ((m.ends 0).map (·.obj)) ⟨s, big, []⟩).map (fun t => (t.s, t.md))

/-- `distance(other_manager, cdata, callback)` for a different manager object, lines 618-642. -/
def distanceOther (bot : K) (dist : AABB K → AABB K → K) (eqv : AABB K → AABB K → Bool) (big : K) (w : O → AABB K)
    (m m' : IMgr K O) (cb : DCB σ K O) (fuel : ℕ) (s : σ) : Except Halt (σ × K) :=
  if m.size = 0 ∨ m'.size = 0 then .ok (s, big)
  else if m.size < m'.size then
    (each (m'.distQ bot dist eqv big w false cb fuel) ((m.ends 0).map (·.obj)) ⟨s, big, []⟩).map (fun t => (t.s, t.md))
  else (each (m.distQ bot dist eqv big w false cb fuel) ((m'.ends 0).map (·.obj)) ⟨s, big, []⟩).map (fun t => (t.s, t.md))

end

end IMgr
end Fcl
