import Verif.Hash.Table
import Verif.Tree.Manager
import Mathlib.Algebra.Order.Floor.Ring
import Mathlib.Algebra.Order.Field.Basic

/-!
# Model of `SpatialHashingCollisionManager` (fcl/broadphase/broadphase_spatialhash-inl.h) and `SpatialHash`
(fcl/broadphase/detail/spatial_hash-inl.h)

Boxes are read live through `w : O → AABB K`. The hash table is the default one, `SimpleHashTable`.
Simplification: cell numbers are unbounded integers (the code converts to `int`); keys wrap modulo `2 ^ 32`
as in the code.
-/

namespace Fcl

open Hash

/-- `SpatialHash`: `cell_size`, `scene_limit` (spatial_hash.h 56-66). -/
structure Grid (K : Type*) where
  scene : AABB K
  cell : K

section
variable {K : Type*} [Field K] [LinearOrder K] [FloorRing K]

/-- `floor((v - lo) / cell)`, spatial_hash-inl.h 64, 66, 68. -/
def Grid.first (g : Grid K) (i : Fin 3) (b : AABB K) : ℤ := ⌊(b.lo.get i - g.scene.lo.get i) / g.cell⌋
/-- `ceil((v - lo) / cell)`, spatial_hash-inl.h 65, 67, 69. -/
def Grid.last (g : Grid K) (i : Fin 3) (b : AABB K) : ℤ := ⌈(b.hi.get i - g.scene.lo.get i) / g.cell⌉

/-- The values of a loop `for(int x = a; x < b; ++x)`. -/
def loopVals (a b : ℤ) : List ℤ := (List.range (b - a).toNat).map (fun (n : ℕ) => a + (n : ℤ))

/-- `width[0]`, `width[1]`, spatial_hash-inl.h 55-56. -/
def Grid.width0 (g : Grid K) : ℤ := ⌈g.scene.width / g.cell⌉
@[inherit_doc Grid.width0] def Grid.width1 (g : Grid K) : ℤ := ⌈g.scene.height / g.cell⌉

/-- The key of a cell, spatial_hash-inl.h 79; `unsigned int` arithmetic. -/
def Grid.key (g : Grid K) (x y z : ℤ) : ℕ := ((x + y * g.width0 + z * g.width0 * g.width1) % 2 ^ 32).toNat

/-- `SpatialHash::operator()`, spatial_hash-inl.h 62-84. -/
def Grid.keys (g : Grid K) (b : AABB K) : List ℕ :=
  (loopVals (g.first 0 b) (g.last 0 b)).flatMap fun x =>
    (loopVals (g.first 1 b) (g.last 1 b)).flatMap fun y =>
      (loopVals (g.first 2 b) (g.last 2 b)).map fun z => g.key x y z

/-- The members `hash_table`, `objs`, `objs_partially_penetrating_scene_limit`, `objs_outside_scene_limit`,
`obj_aabb_map` (broadphase_spatialhash.h 127-143). -/
structure SHM (K O : Type*) where
  table : Simple O
  objs : List O
  part : List O
  outside : List O
  known : O → Option (AABB K)

namespace SHM
variable {O σ : Type*} [LinearOrder O]

/-- `AABB<S> overlap_aabb; scene_limit.overlap(b, overlap_aabb)` when it returns true. -/
def inner (g : Grid K) (b : AABB K) : AABB K := (g.scene.overlapPart b b).2

/-- Constructor, lines 55-64. `AABB(scene_min, scene_max)` is `g.scene`. -/
def new (n : ℕ) : Except Fault (SHM K O) :=
  match (Simple.new : Simple O).init n with
  | .ok t => .ok ⟨t, [], [], [], fun _ => none⟩
  | .error e => .error e

/-- Lines 80-95 and 140-155: put one object into the table or the lists, and record its box. -/
def place (g : Grid K) (w : O → AABB K) (o : O) (m : SHM K O) : Except Fault (SHM K O) :=
  let m' := { m with known := fun p => if p = o then some (w o) else m.known p }
  if g.scene.overlap (w o) then
    match m.table.insert g.keys (inner g (w o)) o with
    | .ok t => .ok { m' with table := t, part := if g.scene.contain (w o) then m.part else m.part ++ [o] }
    | .error e => .error e
  else .ok { m' with outside := m.outside ++ [o] }

/-- `registerObject`, lines 75-96. -/
def register (g : Grid K) (w : O → AABB K) (o : O) (m : SHM K O) : Except Fault (SHM K O) :=
  place g w o { m with objs := m.objs ++ [o] }

/-- `std::list::remove`. -/
def drop (o : O) (l : List O) : List O := l.filter (fun p => decide (p ≠ o))

/-- `unregisterObject`, lines 100-120. -/
def unregister (g : Grid K) (w : O → AABB K) (o : O) (m : SHM K O) : Except Fault (SHM K O) :=
  let m' := { m with objs := drop o m.objs, known := fun p => if p = o then none else m.known p }
  if g.scene.overlap (w o) then
    match m.table.remove g.keys (inner g (w o)) o with
    | .ok t => .ok { m' with table := t, part := if g.scene.contain (w o) then m.part else drop o m.part }
    | .error e => .error e
  else .ok { m' with outside := drop o m.outside }

/-- A loop of calls. -/
def each {α : Type*} (f : α → SHM K O → Except Fault (SHM K O)) : List α → SHM K O → Except Fault (SHM K O)
  | [], m => .ok m
  | a :: l, m =>
    match f a m with
    | .ok m' => each f l m'
    | .error e => .error e

/-- `update()`, lines 131-157. -/
def update (g : Grid K) (w : O → AABB K) (m : SHM K O) : Except Fault (SHM K O) :=
  match m.table.clear with
  | .ok t => each (place g w) m.objs { m with table := t, part := [], outside := [] }
  | .error e => .error e

/-- `ObjectStatus`, broadphase_spatialhash.h 147-152. -/
inductive Status where
  | inside
  | partially
  | outside
deriving DecidableEq

/-- Lines 178-189: classification of a box. -/
def status (g : Grid K) (b : AABB K) : Status :=
  if g.scene.overlap b then if g.scene.contain b then .inside else .partially else .outside

/-- `erase(std::find(begin, end, o))`: undefined when the object is not found. -/
def eraseFound (o : O) (l : List O) : Except Fault (List O) :=
  if o ∈ l then .ok (l.erase o) else .error .undefined

/-- Lines 191-268: move the object between the two lists. -/
def moveLists (o : O) (old new : Status) (m : SHM K O) : Except Fault (SHM K O) :=
  match new, old with
  | .inside, .partially =>
    match eraseFound o m.part with
    | .ok l => .ok { m with part := l }
    | .error e => .error e
  | .inside, .outside =>
    match eraseFound o m.outside with
    | .ok l => .ok { m with outside := l }
    | .error e => .error e
  | .inside, .inside => .ok m
  | .partially, .inside => .ok { m with part := m.part ++ [o] }
  | .partially, .outside =>
    match eraseFound o m.outside with
    | .ok l => .ok { m with outside := l, part := m.part ++ [o] }
    | .error e => .error e
  | .partially, .partially => .ok m
  | .outside, .inside => .ok { m with outside := m.outside ++ [o] }
  | .outside, .partially =>
    match eraseFound o m.part with
    | .ok l => .ok { m with part := l, outside := m.outside ++ [o] }
    | .error e => .error e
  | .outside, .outside => .ok m

/-- `update(obj)`, lines 161-271. `obj_aabb_map[obj]` creates the default box (`big`, `-big`) for an object
that is not in the map. -/
def updateObj (g : Grid K) (big : K) (w : O → AABB K) (o : O) (m : SHM K O) : Except Fault (SHM K O) :=
  let old := (m.known o).getD (AABB.default big (-big))
  match (if g.scene.overlap old then m.table.remove g.keys (inner g old) o else .ok m.table) with
  | .error e => .error e
  | .ok t =>
    match (if g.scene.overlap (w o) then t.insert g.keys (inner g (w o)) o else .ok t) with
    | .error e => .error e
    | .ok t' =>
      match moveLists o (status g old) (status g (w o)) { m with table := t' } with
      | .error e => .error e
      | .ok m' => .ok { m' with known := fun p => if p = o then some (w o) else m.known p }

/-- `clear()`, lines 283-289. `objs_partially_penetrating_scene_limit` is not cleared. -/
def clear (m : SHM K O) : Except Fault (SHM K O) :=
  match m.table.clear with
  | .ok t => .ok { m with objs := [], table := t, outside := [], known := fun _ => none }
  | .error e => .error e

/-- One public call; `registerObjects` is that of the base class (broadphase_collision_manager-inl.h 68-73),
`update(objs)` is lines 275-279, `setup()` lines 124-127. -/
def step (g : Grid K) (big : K) (w : O → AABB K) (m : SHM K O) : MgrOp O → Except Fault (SHM K O)
  | .register o => register g w o m
  | .registerMany os => each (register g w) os m
  | .unregister o => unregister g w o m
  | .setup => .ok m
  | .update => update g w m
  | .updateObj o => updateObj g big w o m
  | .updateObjs os => each (updateObj g big w) os m
  | .clear => clear m

/-- `getObjects`, lines 293-297. -/
def getObjects (m : SHM K O) : List O := m.objs
/-- `size()`, lines 612-615. -/
def size (m : SHM K O) : ℕ := m.objs.length
/-- `empty()`, lines 605-608. -/
def isEmpty (m : SHM K O) : Bool := m.objs.isEmpty

/-- The loops `for(obj2 : l) { if(!keep(obj2)) continue; if(callback(obj, obj2, cdata)) return true; }`,
lines 327-334, 338-345, 350-357, 359-366, 474-481, 485-492, 497-504, 506-513. -/
def scan (cb : CB σ O) (q : O) (keep : O → Bool) : List O → σ → σ × Bool
  | [], s => (s, false)
  | o :: os, s =>
    if keep o then
      let r := cb s q o
      if r.2 then (r.1, true) else scan cb q keep os r.1
    else scan cb q keep os s

/-- The one or two lists of objects that a query with box `b` goes through, in order: lines 325-326, 337, 348,
359 of `collide_`, 391-396, 401-404, 411-414, 417-420 of `distance_`, 470-472, 484, 495, 506 of
`collide(cdata, callback)`. A list that is not gone through is empty here. -/
def lists (g : Grid K) (m : SHM K O) (b : AABB K) : Except Fault (List O × List O) :=
  if g.scene.overlap b then
    match m.table.query g.keys (inner g b) with
    | .error e => .error e
    | .ok l => .ok (l, if g.scene.contain b then [] else m.outside)
  else .ok (m.part, m.outside)

/-- The body common to `collide_`, lines 318-370, and to one round of `collide(cdata, callback)`, lines
468-514. -/
def visit (g : Grid K) (w : O → AABB K) (m : SHM K O) (cb : CB σ O) (keep : O → Bool) (q : O) (s : σ) :
    Except Fault (σ × Bool) :=
  match lists g m (w q) with
  | .error e => .error e
  | .ok l =>
    let r := scan cb q keep l.1 s
    if r.2 then .ok (r.1, true) else .ok (scan cb q keep l.2 r.1)

/-- `collide_(obj)`, lines 318-370. -/
def collideQ (g : Grid K) (w : O → AABB K) (m : SHM K O) (cb : CB σ O) (q : O) (s : σ) :
    Except Fault (σ × Bool) := visit g w m cb (fun o => decide (q ≠ o)) q s

/-- `collide(obj, cdata, callback)`, lines 301-305. -/
def collideObj (g : Grid K) (w : O → AABB K) (m : SHM K O) (cb : CB σ O) (q : O) (s : σ) : Except Fault σ :=
  if m.size = 0 then .ok s
  else match collideQ g w m cb q s with
    | .ok r => .ok r.1
    | .error e => .error e

/-- A loop of queries that stops when one says so. -/
def eachQ (f : O → σ → Except Fault (σ × Bool)) : List O → σ → Except Fault σ
  | [], s => .ok s
  | o :: os, s =>
    match f o s with
    | .error e => .error e
    | .ok r => if r.2 then .ok r.1 else eachQ f os r.1

/-- `collide(cdata, callback)`, lines 460-516. Pointers are compared: `obj1 < obj2`. -/
def collideSelf (g : Grid K) (w : O → AABB K) (m : SHM K O) (cb : CB σ O) (s : σ) : Except Fault σ :=
  if m.size = 0 then .ok s
  else eachQ (fun o => visit g w m cb (fun p => decide (o < p)) o) m.objs s

/-- `collide(other_manager, cdata, callback)` for a different manager object, lines 543-572. The two managers
have their own scene limits and cell sizes. -/
def collideOther (g g' : Grid K) (w : O → AABB K) (m m' : SHM K O) (cb : CB σ O) (s : σ) : Except Fault σ :=
  if m.size = 0 ∨ m'.size = 0 then .ok s
  else if m.size < m'.size then eachQ (collideQ g' w m' cb) m.objs s
  else eachQ (collideQ g w m cb) m'.objs s

/-- The key under which a pair is kept in `tested_set`, broadphase_collision_manager-inl.h 96-110. -/
def testedKey (a b : O) : O × O := if a < b then (a, b) else (b, a)

/-- What a distance search carries along: callback data, `min_dist`, `tested_set`. -/
structure DState (σ K O : Type*) where
  s : σ
  md : K
  tested : List (O × O)

/-- `distanceObjectToObjects`, lines 631-669; `on` is `enable_tested_set_`. -/
def distScan (dist : AABB K → AABB K → K) (w : O → AABB K) (on : Bool) (cb : DCB σ K O) (q : O) :
    List O → DState σ K O → DState σ K O × Bool
  | [], t => (t, false)
  | o :: os, t =>
    if q = o then distScan dist w on cb q os t
    else if on && decide (testedKey q o ∈ t.tested) then distScan dist w on cb q os t
    else
      let after := if on then testedKey q o :: t.tested else t.tested
      if dist (w q) (w o) < t.md then
        let r := cb t.s t.md q o
        if r.2.2 then (⟨r.1, r.2.1, t.tested⟩, true) else distScan dist w on cb q os ⟨r.1, r.2.1, after⟩
      else distScan dist w on cb q os { t with tested := after }

/-- The loop of `distance_`, lines 388-453; `last` is `status == 0`, `eqv` is `AABB::equal`. `none`: not finished
after `fuel` rounds. -/
def distLoop (g : Grid K) (dist : AABB K → AABB K → K) (eqv : AABB K → AABB K → Bool) (big : K) (w : O → AABB K)
    (m : SHM K O) (on : Bool) (cb : DCB σ K O) (q : O) :
    ℕ → Bool → AABB K → DState σ K O → Option (Except Fault (DState σ K O × Bool))
  | 0, _, _, _ => none
  | fuel + 1, last, b, t =>
    match lists g m b with
    | .error e => some (.error e)
    | .ok l =>
      let r := distScan dist w on cb q l.1 t
      let r := if r.2 then r else distScan dist w on cb q l.2 r.1
      if r.2 then some (.ok (r.1, true))
      else if last then some (.ok (r.1, false))
      else if t.md < big then some (.ok (r.1, false))
      else if r.1.md < t.md then
        distLoop g dist eqv big w m on cb q fuel true ((w q).expand ⟨r.1.md, r.1.md, r.1.md⟩) r.1
      else if eqv b (w q) then
        distLoop g dist eqv big w m on cb q fuel false
          (b.expand ⟨((w q).hi.x - (w q).lo.x) / 2, ((w q).hi.y - (w q).lo.y) / 2, ((w q).hi.z - (w q).lo.z) / 2⟩) r.1
      else distLoop g dist eqv big w m on cb q fuel false (b.expandRatio (w q) 2) r.1

/-- `distance_(obj)`, lines 374-456. -/
def distQ (g : Grid K) (dist : AABB K → AABB K → K) (eqv : AABB K → AABB K → Bool) (big : K) (w : O → AABB K)
    (m : SHM K O) (on : Bool) (cb : DCB σ K O) (fuel : ℕ) (q : O) (t : DState σ K O) :
    Option (Except Fault (DState σ K O × Bool)) :=
  distLoop g dist eqv big w m on cb q fuel false
    (if t.md < big then (w q).expand ⟨t.md, t.md, t.md⟩ else w q) t

/-- `distance(obj, cdata, callback)`, lines 309-314: returns the callback data and, for the specification,
the final `min_dist`. -/
def distanceObj (g : Grid K) (dist : AABB K → AABB K → K) (eqv : AABB K → AABB K → Bool) (big : K) (w : O → AABB K)
    (m : SHM K O) (cb : DCB σ K O) (fuel : ℕ) (q : O) (s : σ) : Option (Except Fault (σ × K)) :=
  if m.size = 0 then some (.ok (s, big))
  else match distQ g dist eqv big w m false cb fuel q ⟨s, big, []⟩ with
    | none => none
    | some (.error e) => some (.error e)
    | some (.ok r) => some (.ok (r.1.s, r.1.md))

/-- A loop of distance searches that stops when one says so. -/
def distEach (f : O → DState σ K O → Option (Except Fault (DState σ K O × Bool))) :
    List O → DState σ K O → Option (Except Fault (DState σ K O))
  | [], t => some (.ok t)
  | o :: os, t =>
    match f o t with
    | none => none
    | some (.error e) => some (.error e)
    | some (.ok r) => if r.2 then some (.ok r.1) else distEach f os r.1

/-- `distance(cdata, callback)`, lines 520-539. -/
def distanceSelf (g : Grid K) (dist : AABB K → AABB K → K) (eqv : AABB K → AABB K → Bool) (big : K) (w : O → AABB K)
    (m : SHM K O) (cb : DCB σ K O) (fuel : ℕ) (s : σ) : Option (Except Fault (σ × K)) :=
  if m.size = 0 then some (.ok (s, big))
  else match distEach (distQ g dist eqv big w m true cb fuel) m.objs ⟨s, big, []⟩ with
    | none => none
    | some (.error e) => some (.error e)
    | some (.ok t) => some (.ok (t.s, t.md))

/-- `distance(other_manager, cdata, callback)` for a different manager object, lines 576-601. -/
def distanceOther (g g' : Grid K) (dist : AABB K → AABB K → K) (eqv : AABB K → AABB K → Bool) (big : K)
    (w : O → AABB K) (m m' : SHM K O) (cb : DCB σ K O) (fuel : ℕ) (s : σ) : Option (Except Fault (σ × K)) :=
  if m.size = 0 ∨ m'.size = 0 then some (.ok (s, big))
  else match (if m.size < m'.size then distEach (distQ g' dist eqv big w m' false cb fuel) m.objs ⟨s, big, []⟩
      else distEach (distQ g dist eqv big w m false cb fuel) m'.objs ⟨s, big, []⟩) with
    | none => none
    | some (.error e) => some (.error e)
    | some (.ok t) => some (.ok (t.s, t.md))

end SHM
end
end Fcl
