import Verif.Gjk.Solver

/-!
# The expanding polytope algorithm

Models include/fcl/narrowphase/detail/convexity_based_algorithm/epa.h and epa-inl.h, and `GJK::encloseOrigin` of gjk-inl.h.
Exact real arithmetic. The shapes enter by the support function `sup` of their Minkowski difference. A null or unset pointer
that is followed, and a face taken out of a list it is not in, end the run: the result is `none`.
-/

namespace Fcl.Epa
open V3
open Gjk (SV vertex)

/-- `SimplexF`, epa.h 62-71: the normal, the distance, the three vertices, the three neighbours with their edges and the mark.
Simplifications: the vertices are values, since none is written again while a face refers to it; `f[i]` and `e[i]`, which
are only written together, are one value, `none` before they are written; the links `l` are those of the lists in `St`. -/
structure Face where
  n : V3 ℝ
  d : ℝ
  c : Fin 3 → SV
  adj : Fin 3 → Option (ℕ × Fin 3)
  pass : ℕ

/-- `Status`, epa.h 103. -/
inductive Status
  | valid | touching | degenerated | nonConvex | invalidHull | outOfFaces | outOfVertices | accuracyReached | fallBack | failed
deriving DecidableEq

/-- The members of `EPA`, epa.h 105-112: the faces by their place in `fc_store`, the lists `hull` and `stock`, `status` and
`nextsv`. Simplification: the doubly linked lists are given by the places of their faces, the root first; `count` is the
length. -/
structure St where
  faces : ℕ → Face
  hull : List ℕ
  stock : List ℕ
  status : Status
  nextsv : ℕ

/-- `SimplexHorizon`, epa.h 87-93. -/
structure Horizon where
  cf : Option ℕ
  ff : Option ℕ
  nf : ℕ

/-- The limits and the tolerance given to the constructor, epa-inl.h 92-102. -/
structure Limits where
  maxFace : ℕ
  maxVertex : ℕ
  maxIter : ℕ
  tol : ℝ

/-- `SimplexList::remove`, epa-inl.h 74-80. -/
def unlink (l : List ℕ) (a : ℕ) : Option (List ℕ) := if a ∈ l then some (l.erase a) else none

/-- Writes a face to the store. -/
def St.put (s : St) (k : ℕ) (x : Face) : St := { s with faces := fun i => if i = k then x else s.faces i }

/-- Sets one neighbour of a face. -/
def Face.link (x : Face) (i : Fin 3) (a : ℕ) (j : Fin 3) : Face :=
  { x with adj := fun k => if k = i then some (a, j) else x.adj k }

/-- `bind`, epa-inl.h 84-88. -/
def bind (s : St) (a : ℕ) (i : Fin 3) (b : ℕ) (j : Fin 3) : St :=
  let s := s.put a ((s.faces a).link i b j)
  s.put b ((s.faces b).link j a i)

/-- Constructor and `initialize`, epa-inl.h 92-124: all faces in `stock`, the first one at the root. The contents of the faces
are not set. -/
def init (faces : ℕ → Face) (L : Limits) : St := ⟨faces, [], List.range L.maxFace, .failed, 0⟩

/-- `getEdgeDist`, epa-inl.h 128-155: the distance, if the origin is beyond the edge. -/
noncomputable def edgeDist (n a b : V3 ℝ) : Option ℝ :=
  let ba := b - a
  if a.dot (ba.cross n) < 0 then
    some (if a.dot ba > 0 then a.nrm
      else if b.dot ba < 0 then b.nrm
      else Real.sqrt (max (a.dot a * b.dot b - a.dot b * a.dot b) 0))
  else none

/-- Lines 179-184: the value of `d` of a face with the vertices `a`, `b`, `c`. -/
noncomputable def faceDist (a b c : V3 ℝ) : ℝ :=
  let n := (b - a).cross (c - a)
  match edgeDist n a b with
  | some x => x
  | none => match edgeDist n b c with
    | some x => x
    | none => match edgeDist n c a with
      | some x => x
      | none => a.dot n / n.nrm

/-- Three vertices as an array. -/
def tri (a b c : SV) (i : Fin 3) : SV := if i = 0 then a else if i = 1 then b else c

/-- `newFace`, epa-inl.h 159-202. A face that is not used is back at the root of `stock`. -/
noncomputable def newFace (L : Limits) (s : St) (a b c : SV) (forced : Bool) : Option ℕ × St :=
  match s.stock with
  | [] => (none, { s with status := .outOfFaces })
  | k :: rest =>
    let n := (b.w - a.w).cross (c.w - a.w)
    let l := n.nrm
    if l > L.tol then
      let d := faceDist a.w b.w c.w
      let s1 := s.put k ⟨(1 / l) • n, d, tri a b c, (s.faces k).adj, 0⟩
      if forced || d ≥ -L.tol then (some k, { s1 with hull := k :: s.hull, stock := rest })
      else (none, { s1 with status := .nonConvex })
    else (none, { s.put k ⟨n, (s.faces k).d, tri a b c, (s.faces k).adj, 0⟩ with status := .degenerated })

/-- `findBest`, epa-inl.h 207-221. -/
noncomputable def findBest (s : St) : Option ℕ :=
  match s.hull with
  | [] => none
  | r :: l => some (l.foldl (fun m f => if (s.faces f).d * (s.faces f).d < (s.faces m).d * (s.faces m).d then f else m) r)

/-- Lines 294-295 and 386-387: `f` is moved from `hull` to `stock`. -/
def drop (s : St) (f : ℕ) : Option St := (unlink s.hull f).map fun h => { s with hull := h, stock := f :: s.stock }

/-- `expand`, epa-inl.h 349-394: the return value, the state and the horizon. The first argument bounds the depth of the
recursion: at 0 there is no result. -/
noncomputable def expand (L : Limits) (pass : ℕ) (w : SV) : ℕ → St → ℕ → Fin 3 → Horizon → Option (Bool × St × Horizon)
  | 0, _, _, _, _ => none
  | fuel + 1, s, f, e, h =>
    if (s.faces f).pass ≠ pass then
      let e1 := e + 1
      if (s.faces f).n.dot w.w - (s.faces f).d < -L.tol then
        match newFace L s ((s.faces f).c e1) ((s.faces f).c e) w false with
        | (some nf, s1) =>
          let s2 := bind s1 nf 0 f e
          match h.cf with
          | some cf => some (true, bind s2 nf 2 cf 1, ⟨some nf, h.ff, h.nf + 1⟩)
          | none => some (true, s2, ⟨some nf, some nf, h.nf + 1⟩)
        | (none, s1) => some (false, s1, h)
      else
        let e2 := e + 2
        let s1 := s.put f { s.faces f with pass := pass }
        match (s1.faces f).adj e1 with
        | none => none
        | some (g1, i1) =>
          match expand L pass w fuel s1 g1 i1 h with
          | none => none
          | some (false, s2, h2) => some (false, s2, h2)
          | some (true, s2, h2) =>
            match (s2.faces f).adj e2 with
            | none => none
            | some (g2, i2) =>
              match expand L pass w fuel s2 g2 i2 h2 with
              | none => none
              | some (false, s3, h3) => some (false, s3, h3)
              | some (true, s3, h3) => (drop s3 f).map fun s4 => (true, s4, h3)
    else some (false, s, h)

/-- Lines 284-287: `expand` over the edges `js` of `best`, until it fails. -/
noncomputable def expandAll (L : Limits) (pass : ℕ) (w : SV) (fuel best : ℕ) :
    List (Fin 3) → St → Horizon → Option (Bool × St × Horizon)
  | [], s, h => some (true, s, h)
  | j :: js, s, h =>
    match (s.faces best).adj j with
    | none => none
    | some (g, i) =>
      match expand L pass w fuel s g i h with
      | none => none
      | some (false, s1, h1) => some (false, s1, h1)
      | some (true, s1, h1) => expandAll L pass w fuel best js s1 h1

/-- Lines 271-313: the loop, with `k` rounds left. The result is the state and `outer`. -/
noncomputable def loop (sup : V3 ℝ → V3 ℝ) (L : Limits) : ℕ → St → ℕ → Face → ℕ → Option (St × Face)
  | 0, s, _, outer, _ => some (s, outer)
  | k + 1, s, best, outer, pass =>
    if s.nextsv < L.maxVertex then
      let s1 := { s.put best { s.faces best with pass := pass + 1 } with nextsv := s.nextsv + 1 }
      let b := s1.faces best
      let w := vertex sup b.n
      if b.n.dot w.w - b.d > L.tol then
        match expandAll L (pass + 1) w (L.maxFace + 1) best [0, 1, 2] s1 ⟨none, none, 0⟩ with
        | none => none
        | some (valid, s2, h) =>
          if valid && 3 ≤ h.nf then
            match h.ff, h.cf with
            | some ff, some cf =>
              match drop (bind s2 ff 2 cf 1) best with
              | none => none
              | some s3 =>
                match findBest s3 with
                | none => none
                | some b' => loop sup L k s3 b' (s3.faces b') (pass + 1)
            | _, _ => none
          else some ({ s2 with status := .invalidHull }, outer)
      else some ({ s1 with status := .accuracyReached }, outer)
    else some ({ s with status := .outOfVertices }, outer)

/-- `encloseOrigin`, gjk-inl.h 289-294, with four vertices: they are in general position. -/
noncomputable def enclose4 (a b c d : SV) : Option (List SV) :=
  if |(a.w - d.w).dot ((b.w - d.w).cross (c.w - d.w))| > 0 then some [a, b, c, d] else none

/-- `encloseOrigin`, gjk-inl.h 275-288, with three vertices. -/
noncomputable def enclose3 (sup : V3 ℝ → V3 ℝ) (a b c : SV) : Option (List SV) :=
  let n := (b.w - a.w).cross (c.w - a.w)
  if n.dot n > 0 then (enclose4 a b c (vertex sup n)).or (enclose4 a b c (vertex sup (-n))) else none

/-- Lines 257-272, for one axis. -/
noncomputable def encloseAxis (sup : V3 ℝ → V3 ℝ) (a b : SV) (axis : V3 ℝ) : Option (List SV) :=
  let p := (b.w - a.w).cross axis
  if p.dot p > 0 then (enclose3 sup a b (vertex sup p)).or (enclose3 sup a b (vertex sup (-p))) else none

/-- `encloseOrigin`, gjk-inl.h 255-274, with two vertices. -/
noncomputable def enclose2 (sup : V3 ℝ → V3 ℝ) (a b : SV) : Option (List SV) :=
  ((encloseAxis sup a b ⟨1, 0, 0⟩).or (encloseAxis sup a b ⟨0, 1, 0⟩)).or (encloseAxis sup a b ⟨0, 0, 1⟩)

/-- `rank > 1 && encloseOrigin()`, epa-inl.h 228 and gjk-inl.h 236-298: the simplex it leaves when it returns true. When it
returns false the simplex is as before. -/
noncomputable def enclose (sup : V3 ℝ → V3 ℝ) : List SV → Option (List SV)
  | [a, b] => enclose2 sup a b
  | [a, b, c] => enclose3 sup a b c
  | [a, b, c, d] => enclose4 a b c d
  | _ => none

/-- What `evaluate` leaves: the state with the status, `normal`, `depth` and `result` with its weights. -/
structure Out where
  st : St
  normal : V3 ℝ
  depth : ℝ
  result : List (SV × ℝ)

/-- Lines 315-330: the result read off the face `o`. -/
noncomputable def report (s : St) (o : Face) : Out :=
  let q := o.d • o.n
  let p0 := (((o.c 1).w - q).cross ((o.c 2).w - q)).nrm
  let p1 := (((o.c 2).w - q).cross ((o.c 0).w - q)).nrm
  let p2 := (((o.c 0).w - q).cross ((o.c 1).w - q)).nrm
  let sum := p0 + p1 + p2
  ⟨s, o.n, o.d, [(o.c 0, p0 / sum), (o.c 1, p1 / sum), (o.c 2, p2 / sum)]⟩

/-- Lines 334-343: the result when there is no polytope. -/
noncomputable def fallBack (s : St) (guess : V3 ℝ) (c : SV) : Out :=
  let n := -guess
  ⟨{ s with status := .fallBack }, if n.nrm > 0 then (1 / n.nrm) • n else ⟨1, 0, 0⟩, 0, [(c, 1)]⟩

/-- Lines 230-238: all faces go back to `stock`. -/
def clear (s : St) : St := { s with hull := [], stock := s.hull.foldl (fun l f => f :: l) s.stock, status := .valid, nextsv := 0 }

/-- Lines 264-269: the neighbours of the four faces of the tetrahedron. -/
def bindTetra (s : St) (t0 t1 t2 t3 : ℕ) : St :=
  bind (bind (bind (bind (bind (bind s t0 0 t1 0) t0 1 t2 0) t0 2 t3 0) t1 1 t3 2) t1 2 t2 1) t2 2 t3 1

/-- Lines 251-331, after the vertices are in order: the four faces, their neighbours and the loop. -/
noncomputable def build (sup : V3 ℝ → V3 ℝ) (L : Limits) (guess : V3 ℝ) (s : St) (a b c d : SV) : Option Out :=
  let (t0, s0) := newFace L s a b c true
  let (t1, s1) := newFace L s0 b a d true
  let (t2, s2) := newFace L s1 c b d true
  let (t3, s3) := newFace L s2 a c d true
  if s3.hull.length = 4 then
    match findBest s3, t0, t1, t2, t3 with
    | some best, some t0, some t1, some t2, some t3 =>
      let outer := s3.faces best
      (loop sup L L.maxIter { bindTetra s3 t0 t1 t2 t3 with status := .valid } best outer 0).map fun r => report r.1 r.2
    | _, _, _, _, _ => none
  else some (fallBack s3 guess a)

/-- `evaluate`, epa-inl.h 225-344, for the simplex that GJK left. -/
noncomputable def evaluate (sup : V3 ℝ → V3 ℝ) (L : Limits) (s : St) (simplex : List SV) (guess : V3 ℝ) : Option Out :=
  match enclose sup simplex with
  | some [a, b, c, d] =>
    if (a.w - d.w).dot ((b.w - d.w).cross (c.w - d.w)) < 0 then build sup L guess (clear s) b a c d
    else build sup L guess (clear s) a b c d
  | _ => match simplex with
    | c :: _ => some (fallBack s guess c)
    | [] => none

/-- gjk_solver_indep-inl.h 137-147, 383-393 and 480-490: EPA as the solver calls it after GJK ended in `r`. The sum of the
support points of the first shape, the normal and the depth. `faces` is what the memory of the faces holds. -/
noncomputable def solverEpa (o : Gjk.Settings) (L : Limits) (faces : ℕ → Face) (m : MinkowskiDiff) (r : Gjk.Res) :
    Option (V3 ℝ × V3 ℝ × ℝ) :=
  match evaluate (fun d => (m.support o.big d).getD 0) L (init faces L) (r.simplex.map (·.1)) (-o.guess) with
  | none => none
  | some t => if t.st.status ≠ .failed then
      some (Gjk.blend (fun d => (m.support0 o.big d).getD 0) t.result, t.normal, t.depth)
    else none

end Fcl.Epa
