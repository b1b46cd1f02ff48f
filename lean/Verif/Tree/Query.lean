import Verif.Tree.Model

/-!
# Model of the recursive queries of the dynamic AABB tree manager
(`include/fcl/broadphase/broadphase_dynamic_AABB_tree-inl.h`, namespace `detail::dynamic_AABB_tree`)
-/

namespace Fcl
namespace HTree
variable {K O σ : Type*}

/-- Number of nodes, the termination measure of the tree-tree recursions. -/
def nodes : HTree K O → Nat
  | leaf _ _ _ => 1
  | node _ l r => l.nodes + r.nodes + 1

theorem nodes_pos (t : HTree K O) : 0 < t.nodes := by cases t <;> simp [nodes]

section coll
variable [LinearOrder K]

/-- `collisionRecurse(root, query, cdata, callback)`, lines 528-547; `qb` is `query->getAABB()`. -/
def collideQ (cfg : Cfg K O) (cb : CB σ O) (q : O) (qb : AABB K) : HTree K O → σ → σ × Bool
  | leaf _ b o, s => if !b.overlap qb then (s, false) else cb s o q
  | node b l r, s =>
    if !b.overlap qb then (s, false)
    else if cfg.select qb l.bv r.bv then
      andThen (collideQ cfg cb q qb r s) (collideQ cfg cb q qb l)
    else
      andThen (collideQ cfg cb q qb l s) (collideQ cfg cb q qb r)

/-- `collisionRecurse(root1, root2, cdata, callback)`, lines 494-523. -/
def collideT (cfg : Cfg K O) (cb : CB σ O) (t u : HTree K O) (s : σ) : σ × Bool :=
  match t, u with
  | leaf _ b o, leaf _ b' o' => if !b.overlap b' then (s, false) else cb s o o'
  | node b l r, leaf i b' o' =>
    if !b.overlap b' then (s, false)
    else andThen (collideT cfg cb l (leaf i b' o') s) (collideT cfg cb r (leaf i b' o'))
  | leaf i b o, node b' l' r' =>
    if !b.overlap b' then (s, false)
    else andThen (collideT cfg cb (leaf i b o) l' s) (collideT cfg cb (leaf i b o) r')
  | node b l r, node b' l' r' =>
    if !b.overlap b' then (s, false)
    else if cfg.bigger b b' then
      andThen (collideT cfg cb l (node b' l' r') s) (collideT cfg cb r (node b' l' r'))
    else
      andThen (collideT cfg cb (node b l r) l' s) (collideT cfg cb (node b l r) r')
termination_by t.nodes + u.nodes
decreasing_by all_goals (simp [nodes]; try omega)

/-- `selfCollisionRecurse(root, cdata, callback)`, lines 552-566. -/
def collideSelf (cfg : Cfg K O) (cb : CB σ O) : HTree K O → σ → σ × Bool
  | leaf _ _ _, s => (s, false)
  | node _ l r, s =>
    andThen (collideSelf cfg cb l s) fun s =>
    andThen (collideSelf cfg cb r s) fun s =>
    collideT cfg cb l r s
end coll

/-! ### Distance -/

section dist
variable {D : Type*} [LinearOrder D]

/-- `if(first) return true; …` with the distance bound threaded through. -/
def andThenD (r : σ × D × Bool) (k : σ → D → σ × D × Bool) : σ × D × Bool :=
  if r.2.2 then (r.1, r.2.1, true) else k r.1 r.2.1

/-- `if(d < min_dist) { if(rec) return true; }`. -/
def guardD (d : D) (f : σ → D → σ × D × Bool) (s : σ) (md : D) : σ × D × Bool :=
  if d < md then f s md else (s, md, false)

/-- The two-children block common to lines 587-617, 621-651 and 668-698: visit the nearer child
first, each only if it is closer than the current bound. -/
def nearFirst (d1 d2 : D) (f1 f2 : σ → D → σ × D × Bool) (s : σ) (md : D) : σ × D × Bool :=
  if d2 < d1 then andThenD (guardD d2 f2 s md) (guardD d1 f1)
  else andThenD (guardD d1 f1 s md) (guardD d2 f2)

/-- `distanceRecurse(root, query, cdata, callback, min_dist)`, lines 660-701; `dist` is
`AABB::distance`. -/
def distQ (dist : AABB K → AABB K → D) (cb : DCB σ D O) (q : O) (qb : AABB K) :
    HTree K O → σ → D → σ × D × Bool
  | leaf _ _ o, s, md => cb s md o q
  | node _ l r, s, md =>
    nearFirst (dist qb l.bv) (dist qb r.bv) (distQ dist cb q qb l) (distQ dist cb q qb r) s md

/-- `distanceRecurse(root1, root2, cdata, callback, min_dist)`, lines 571-655. -/
def distT [LinearOrder K] (cfg : Cfg K O) (dist : AABB K → AABB K → D) (cb : DCB σ D O)
    (t u : HTree K O) (s : σ) (md : D) : σ × D × Bool :=
  match t, u with
  | leaf _ _ o, leaf _ _ o' => cb s md o o'
  | node _ l r, leaf i b' o' =>
    nearFirst (dist b' l.bv) (dist b' r.bv) (distT cfg dist cb l (leaf i b' o'))
      (distT cfg dist cb r (leaf i b' o')) s md
  | leaf i b o, node _ l' r' =>
    nearFirst (dist b l'.bv) (dist b r'.bv) (distT cfg dist cb (leaf i b o) l')
      (distT cfg dist cb (leaf i b o) r') s md
  | node b l r, node b' l' r' =>
    if cfg.bigger b b' then
      nearFirst (dist b' l.bv) (dist b' r.bv) (distT cfg dist cb l (node b' l' r'))
        (distT cfg dist cb r (node b' l' r')) s md
    else
      nearFirst (dist b l'.bv) (dist b r'.bv) (distT cfg dist cb (node b l r) l')
        (distT cfg dist cb (node b l r) r') s md
termination_by t.nodes + u.nodes
decreasing_by all_goals (simp [nodes]; try omega)

/-- `selfDistanceRecurse(root, cdata, callback, min_dist)`, lines 706-720. -/
def distSelf [LinearOrder K] (cfg : Cfg K O) (dist : AABB K → AABB K → D) (cb : DCB σ D O) :
    HTree K O → σ → D → σ × D × Bool
  | leaf _ _ _, s, md => (s, md, false)
  | node _ l r, s, md =>
    andThenD (distSelf cfg dist cb l s md) fun s md =>
    andThenD (distSelf cfg dist cb r s md) fun s md =>
    distT cfg dist cb l r s md
end dist
end HTree
end Fcl
