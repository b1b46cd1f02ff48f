import Verif.Tree.Manager
import Verif.Base.DistCallback

/-!
# Model of `NaiveCollisionManager` (`include/fcl/broadphase/broadphase_bruteforce-inl.h`)

Objects are names in a type `O`; `w o` is the box `o->getAABB()` returns during the call. The functions
read boxes live, as the code does. `big` is `numeric_limits<S>::max()`.
-/

namespace Fcl

/-- `class NaiveCollisionManager`: the member `objs` (`broadphase_bruteforce.h`). -/
structure Naive (O : Type*) where
  objs : List O

namespace Naive
variable {K O σ : Type*} [LinearOrder K] [DecidableEq O]

/-- Constructor, lines 53-56. -/
def empty : Naive O := ⟨[]⟩

/-- One call of the public interface: `registerObjects` 60-63, `unregisterObject` 67-70 (`std::list::remove`
removes every equal element), `registerObject` 74-77, `setup` 81-84, `update` 88-91, `clear` 95-98.
`update(obj)` and `update(objs)` are those of the base class
(`broadphase_collision_manager-inl.h:77-92`), which call `update()`. -/
def step (m : Naive O) : MgrOp O → Naive O
  | .register o => ⟨m.objs ++ [o]⟩
  | .registerMany os => ⟨m.objs ++ os⟩
  | .unregister o => ⟨m.objs.filter (fun x => x ≠ o)⟩
  | .setup => m
  | .update => m
  | .updateObj _ => m
  | .updateObjs _ => m
  | .clear => ⟨[]⟩

/-- `getObjects`, lines 102-106. -/
def getObjects (m : Naive O) : List O := m.objs

/-- The loop of `collide(obj)`, lines 114-118. -/
def collideObjLoop (cb : CB σ O) (q : O) : List O → σ → σ × Bool
  | [], s => (s, false)
  | o :: os, s =>
    let r := cb s q o
    if r.2 then (r.1, true) else collideObjLoop cb q os r.1

/-- `collide(obj, cdata, callback)`, lines 110-119. -/
def collideObj (m : Naive O) (cb : CB σ O) (q : O) (s : σ) : σ :=
  if m.objs.length = 0 then s else (collideObjLoop cb q m.objs s).1

/-- The loop of `distance(obj)`, lines 128-135. -/
def distObjLoop (dist : AABB K → AABB K → K) (w : O → AABB K) (cb : DCB σ K O) (q : O) :
    List O → σ → K → σ × K × Bool
  | [], s, md => (s, md, false)
  | o :: os, s, md =>
    if dist (w q) (w o) < md then
      let r := cb s md q o
      if r.2.2 then (r.1, r.2.1, true) else distObjLoop dist w cb q os r.1 r.2.1
    else distObjLoop dist w cb q os s md

/-- `distance(obj, cdata, callback)`, lines 123-136. The returned bound is the code's local `min_dist`. -/
def distanceObj (dist : AABB K → AABB K → K) (big : K) (w : O → AABB K) (m : Naive O) (cb : DCB σ K O)
    (q : O) (s : σ) : σ × K × Bool :=
  if m.objs.length = 0 then (s, big, false) else distObjLoop dist w cb q m.objs s big

/-- Inner loop of the collide double loops, lines 148-155 and 196-203. -/
def collideInner (w : O → AABB K) (cb : CB σ O) (a : O) : List O → σ → σ × Bool
  | [], s => (s, false)
  | b :: bs, s =>
    if (w a).overlap (w b) then
      let r := cb s a b
      if r.2 then (r.1, true) else collideInner w cb a bs r.1
    else collideInner w cb a bs s

/-- Double loop of the self-collide, lines 144-157. -/
def selfLoop (w : O → AABB K) (cb : CB σ O) : List O → σ → σ × Bool
  | [], s => (s, false)
  | a :: as, s => andThen (collideInner w cb a as s) (selfLoop w cb as)

/-- `collide(cdata, callback)`, lines 140-157. -/
def collideSelf (w : O → AABB K) (m : Naive O) (cb : CB σ O) (s : σ) : σ :=
  if m.objs.length = 0 then s else (selfLoop w cb m.objs s).1

/-- Double loop of the manager-manager collide, lines 194-204. -/
def crossLoop (w : O → AABB K) (cb : CB σ O) (other : List O) : List O → σ → σ × Bool
  | [], s => (s, false)
  | a :: as, s => andThen (collideInner w cb a other s) (crossLoop w cb other as)

/-- `collide(other_manager, cdata, callback)` for a different manager object, lines 182-205; for the same
object it is `collideSelf` (lines 188-192). -/
def collideOther (w : O → AABB K) (m other : Naive O) (cb : CB σ O) (s : σ) : σ :=
  if m.objs.length = 0 ∨ other.objs.length = 0 then s else (crossLoop w cb other.objs m.objs s).1

/-- Double loop of the self-distance, lines 166-178; the inner loop is the one of `distObjLoop`. -/
def selfDistLoop (dist : AABB K → AABB K → K) (w : O → AABB K) (cb : DCB σ K O) :
    List O → σ → K → σ × K × Bool
  | [], s, md => (s, md, false)
  | a :: as, s, md =>
    let r := distObjLoop dist w cb a as s md
    if r.2.2 then (r.1, r.2.1, true) else selfDistLoop dist w cb as r.1 r.2.1

/-- `distance(cdata, callback)`, lines 161-178. -/
def distanceSelf (dist : AABB K → AABB K → K) (big : K) (w : O → AABB K) (m : Naive O) (cb : DCB σ K O)
    (s : σ) : σ × K × Bool :=
  if m.objs.length = 0 then (s, big, false) else selfDistLoop dist w cb m.objs s big

/-- Double loop of the manager-manager distance, lines 222-232. -/
def crossDistLoop (dist : AABB K → AABB K → K) (w : O → AABB K) (cb : DCB σ K O) (other : List O) :
    List O → σ → K → σ × K × Bool
  | [], s, md => (s, md, false)
  | a :: as, s, md =>
    let r := distObjLoop dist w cb a other s md
    if r.2.2 then (r.1, r.2.1, true) else crossDistLoop dist w cb other as r.1 r.2.1

/-- `distance(other_manager, cdata, callback)` for a different manager object, lines 209-233. -/
def distanceOther (dist : AABB K → AABB K → K) (big : K) (w : O → AABB K) (m other : Naive O)
    (cb : DCB σ K O) (s : σ) : σ × K × Bool :=
  if m.objs.length = 0 ∨ other.objs.length = 0 then (s, big, false)
  else crossDistLoop dist w cb other.objs m.objs s big

/-- `empty()`, lines 237-240. -/
def isEmpty (m : Naive O) : Bool := m.objs.isEmpty
/-- `size()`, lines 244-247. -/
def size (m : Naive O) : Nat := m.objs.length

end Naive
end Fcl
