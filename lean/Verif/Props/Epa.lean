import Verif.Epa.Evaluate
import Verif.Props.Gjk

/-!
# C110, C111: the expanding polytope algorithm and the contacts of fcl's own solver
-/

namespace Fcl
open V3 Epa
open Gjk (SV vertex Settings run shapeIntersect triangleIntersect contactOf)

/-! ### C110: the run itself -/

/-- The states an `EPA` object can be in: as constructed, or after any number of calls of `evaluate`. What the memory held before
is arbitrary. -/
inductive Epa.Reach (L : Limits) : St → Prop
  | made (faces : ℕ → Face) : Epa.Reach L (init faces L)
  | called {s : St} (sup : V3 ℝ → V3 ℝ) (simplex : List SV) (guess : V3 ℝ) {o : Out} (h : Epa.Reach L s)
      (hl : simplex ≠ []) (e : evaluate sup L s simplex guess = some o) : Epa.Reach L o.st

namespace Epa

/-- What holds of the store whatever happened. -/
theorem Outcome.store {sup : V3 ℝ → V3 ℝ} {V : SV → Prop} {L : Limits} {guess : V3 ℝ} {o : Out} (h : Outcome sup V L guess o) :
    Partition L o.st ∧ o.st.nextsv ≤ L.maxVertex := by
  cases h with
  | face h => exact ⟨h.part, h.slots⟩
  | guess h hs _ => exact ⟨h, hs⟩

theorem Reach.store {L : Limits} {s : St} (h : Reach L s) : Partition L s ∧ s.nextsv ≤ L.maxVertex := by
  induction h with
  | made faces => exact ⟨init_partition faces L, Nat.zero_le _⟩
  | called sup simplex guess _ hl e ih =>
    obtain ⟨o', e', k⟩ := evaluate_spec sup (V := fun _ => True) (fun _ _ => trivial) (fun _ _ => trivial) guess ih.1 ih.2
      (l := simplex) (fun _ _ => trivial) hl
    rw [e] at e'; cases e'
    exact k.store

end Epa

/-- **C110.** `evaluate` comes to an end without following a pointer that is null or was never set and without taking a face out of
a list it is not in; the recursion is never deeper than the number of faces. After it every face is in exactly one of the two
lists, and no more vertices were taken than there are. The status is one of five; in particular it is never `Failed`. -/
theorem C110_runs {L : Limits} {s : St} (h : Epa.Reach L s) (sup : V3 ℝ → V3 ℝ) {simplex : List SV} (hl : simplex ≠ [])
    (guess : V3 ℝ) :
    ∃ o, evaluate sup L s simplex guess = some o ∧ Partition L o.st ∧ o.st.nextsv ≤ L.maxVertex ∧
      o.st.status ∈ [Status.valid, .invalidHull, .accuracyReached, .outOfVertices, .fallBack] := by
  obtain ⟨o, e, k⟩ := evaluate_spec sup (V := fun _ => True) (fun _ _ => trivial) (fun _ _ => trivial) guess h.store.1 h.store.2
    (l := simplex) (fun _ _ => trivial) hl
  refine ⟨o, e, k.store.1, k.store.2, ?_⟩
  cases k with
  | face h =>
    have e : ∀ (t : St) (f : Face), (report t f).st = t := fun _ _ => rfl
    rw [e]
    rcases h.status with h | h | h | h <;> rw [h] <;> simp
  | guess _ _ _ => simp [fallBack]

/-- **C110.** When the algorithm was not stopped by an invalid hull and had a tetrahedron to start from, the hull is a closed
surface of consistently oriented triangles, every corner of which is a vertex of the simplex or a support point, and the
reported depth belongs to a face nearest to the origin by the distances of the faces. -/
theorem C110_surface {L : Limits} {s : St} (h : Epa.Reach L s) (sup : V3 ℝ → V3 ℝ) {simplex : List SV} (hl : simplex ≠ [])
    (guess : V3 ℝ) {o : Out} (e : evaluate sup L s simplex guess = some o) (h1 : o.st.status ≠ .invalidHull)
    (h2 : o.st.status ≠ .fallBack) :
    Closed o.st ∧ ∀ a ∈ o.st.hull, (∀ i, (o.st.faces a).c i ∈ simplex ∨ ((o.st.faces a).c i).w = sup ((o.st.faces a).c i).d) ∧
      o.depth * o.depth ≤ (o.st.faces a).d * (o.st.faces a).d := by
  obtain ⟨o', e', k⟩ := evaluate_spec sup (V := fun v => v ∈ simplex ∨ v.w = sup v.d) (fun _ _ => Or.inr rfl)
    (fun _ _ => Or.inr rfl) guess h.store.1 h.store.2 (l := simplex) (fun v hv => Or.inl hv) hl
  rw [e] at e'; cases e'
  cases k with
  | face h =>
    obtain ⟨c, m⟩ := h.closed h1
    exact ⟨c, fun a ha => ⟨(m a ha).1.vert, (m a ha).2⟩⟩
  | guess _ _ _ => exact absurd rfl h2

/-! ### C111: the contacts -/

namespace Epa

/-- The result of the expanding polytope algorithm in the intersection query of two shapes. -/
noncomputable def outOf (o : Settings) (L : Limits) (faces : ℕ → Face) (g1 : Geo ℝ) (tf1 : Pose ℝ) (g2 : Geo ℝ) (tf2 : Pose ℝ) :
    Option Out :=
  evaluate (fun d => ((MinkowskiDiff.ofShapes g1 tf1 g2 tf2).support o.big d).getD 0) L (init faces L)
    ((run o (MinkowskiDiff.ofShapes g1 tf1 g2 tf2)).simplex.map (·.1)) (-o.guess)

/-- A support point for a unit direction. -/
def Proper (sup : V3 ℝ → V3 ℝ) (v : SV) : Prop := v.w = sup v.d ∧ v.d.nrm = 1

theorem vertex_proper (sup : V3 ℝ → V3 ℝ) {n : V3 ℝ} (h : n ≠ 0) : Proper sup (vertex sup n) := ⟨rfl, nrm_normalized h⟩

theorem Made.unit {V : SV → Prop} {L : Limits} (ht : 0 ≤ L.tol) {x : Face} (h : Made V L x) : x.n.nrm = 1 := by
  have k := lt_of_le_of_lt ht h.area
  rw [h.normal, nrm_smul, abs_of_pos (by positivity)]
  field_simp

theorem unit_ne {n : V3 ℝ} (h : n.nrm = 1) : n ≠ 0 := by
  rintro rfl; rw [nrm_zero] at h; exact zero_ne_one h

theorem unit_normalized {n : V3 ℝ} (h : n.nrm = 1) : n.normalized = n := by
  rw [normalized, h, if_neg one_ne_zero]; v3

/-- The weights of the result are those of a convex combination. -/
theorem report_weights {V : SV → Prop} {L : Limits} (ht : 0 ≤ L.tol) (t : St) {x : Face} (h : Made V L x) :
    (∀ v ∈ (report t x).result, V v.1 ∧ 0 ≤ v.2) ∧ ((report t x).result.map (·.2)).sum = 1 := by
  set q := x.d • x.n with hq
  set p0 := (((x.c 1).w - q).cross ((x.c 2).w - q)).nrm with h0
  set p1 := (((x.c 2).w - q).cross ((x.c 0).w - q)).nrm with h1
  set p2 := (((x.c 0).w - q).cross ((x.c 1).w - q)).nrm with h2
  have n0 : 0 ≤ p0 := nrm_nonneg _
  have n1 : 0 ≤ p1 := nrm_nonneg _
  have n2 : 0 ≤ p2 := nrm_nonneg _
  have pos : 0 < p0 + p1 + p2 := by
    have e : ((x.c 1).w - (x.c 0).w).cross ((x.c 2).w - (x.c 0).w) = ((x.c 1).w - q).cross ((x.c 2).w - q) +
        (((x.c 2).w - q).cross ((x.c 0).w - q) + ((x.c 0).w - q).cross ((x.c 1).w - q)) := by
      apply V3.ext' <;> simp [cross] <;> ring
    have k := lt_of_le_of_lt ht h.area
    rw [e] at k
    have a := nrm_add_le (((x.c 1).w - q).cross ((x.c 2).w - q))
      (((x.c 2).w - q).cross ((x.c 0).w - q) + ((x.c 0).w - q).cross ((x.c 1).w - q))
    have b := nrm_add_le (((x.c 2).w - q).cross ((x.c 0).w - q)) (((x.c 0).w - q).cross ((x.c 1).w - q))
    linarith
  have e : (report t x).result = [(x.c 0, p0 / (p0 + p1 + p2)), (x.c 1, p1 / (p0 + p1 + p2)), (x.c 2, p2 / (p0 + p1 + p2))] := rfl
  rw [e]
  refine ⟨?_, ?_⟩
  · intro v hv
    simp only [List.mem_cons, List.not_mem_nil, or_false] at hv
    rcases hv with rfl | rfl | rfl
    · exact ⟨h.vert 0, by positivity⟩
    · exact ⟨h.vert 1, by positivity⟩
    · exact ⟨h.vert 2, by positivity⟩
  · simp only [List.map_cons, List.map_nil, List.sum_cons, List.sum_nil]
    field_simp
    ring

variable {o : Settings} {L : Limits} {faces : ℕ → Face} {g1 g2 : Geo ℝ} {tf1 tf2 : Pose ℝ}

/-- The result in terms of the two shapes. -/
theorem out_spec (h1 : tf1.Rigid) (h2 : tf2.Rigid) (u1 : g1.Usable o.big) (u2 : g2.Usable o.big) (ht : 0 < o.tol) (hL : 0 ≤ L.tol) :
    ∃ t, outOf o L faces g1 tf1 g2 tf2 = some t ∧ t.st.status ≠ .failed ∧ t.normal.nrm = 1 ∧
      Gjk.blend (fun d => ((MinkowskiDiff.ofShapes g1 tf1 g2 tf2).support0 o.big d).getD 0) t.result ∈ g1.pts ∧
      (t.st.status = .accuracyReached → ∀ x ∈ Gjk.Diff g1 tf1 g2 tf2, t.normal.dot x ≤ t.depth + L.tol) := by
  have E := Gjk.run_ended (o := o) h1 h2 u1 u2 ht
  set sup : V3 ℝ → V3 ℝ := fun d => ((MinkowskiDiff.ofShapes g1 tf1 g2 tf2).support o.big d).getD 0 with hsup
  have hne : (run o (MinkowskiDiff.ofShapes g1 tf1 g2 tf2)).simplex ≠ [] := by
    intro c
    have := E.total
    rw [c] at this
    simp at this
  obtain ⟨t, e, k⟩ := evaluate_spec (L := L) (s := init faces L) sup (V := Proper sup)
    (fun x hx => vertex_proper sup (unit_ne (hx.unit hL))) (fun n hn => vertex_proper sup hn) (-o.guess)
    (init_partition faces L) (Nat.zero_le _) (l := (run o (MinkowskiDiff.ofShapes g1 tf1 g2 tf2)).simplex.map (·.1))
    (by
      intro v hv
      obtain ⟨x, hx, rfl⟩ := List.mem_map.1 hv
      exact E.made x hx)
    (by simpa using hne)
  have mem : ∀ v, Proper sup v → ((MinkowskiDiff.ofShapes g1 tf1 g2 tf2).support0 o.big v.d).getD 0 ∈ g1.pts :=
    fun v hv => (Gjk.support_parts h1 h2 u1 u2 hv.2).2.1
  refine ⟨t, e, ?_⟩
  cases k with
  | @face t x h =>
    have hu := h.made.unit hL
    obtain ⟨w1, w2⟩ := report_weights hL t h.made
    refine ⟨?_, hu, ?_, ?_⟩
    · intro c
      have c' : t.status = .failed := c
      rcases h.status with d | d | d | d <;> rw [d] at c' <;> cases c'
    · exact Gjk.blend_mem g1.pts_convex (fun v hv => mem v.1 (w1 v hv).1) (fun v hv => (w1 v hv).2) w2
    · intro c y hy
      have n := h.near c
      rw [unit_normalized hu] at n
      have s := (Gjk.diff_support (o := o) h1 h2 u1 u2 x.n hu).2 y hy
      show x.n.dot y ≤ x.d + L.tol
      exact s.trans n
  | @guess s c h hs hc =>
    refine ⟨by simp [fallBack], ?_, ?_, fun c => by simp [fallBack] at c⟩
    · show (if (-(-o.guess)).nrm > 0 then (1 / (-(-o.guess)).nrm) • (-(-o.guess)) else (⟨1, 0, 0⟩ : V3 ℝ)).nrm = 1
      by_cases g : (-(-o.guess)).nrm > 0
      · rw [if_pos g, nrm_smul, abs_of_pos (by positivity)]; field_simp
      · rw [if_neg g]; exact nrm_unique zero_le_one (by norm_num [dot])
    · refine Gjk.blend_mem (l := [(c, 1)]) g1.pts_convex ?_ ?_ ?_
      · intro v hv; rw [List.mem_singleton.1 hv]; exact mem c hc
      · intro v hv; rw [List.mem_singleton.1 hv]; exact zero_le_one
      · simp

end Epa

variable {o : Settings} {L : Limits} {faces : ℕ → Face} {g1 g2 : Geo ℝ} {tf1 tf2 : Pose ℝ} {cs : List CPoint}

/-- What the intersection query gives, in terms of the two algorithms. -/
theorem Epa.intersect_eq (h1 : tf1.Rigid) (h2 : tf2.Rigid) (u1 : g1.Usable o.big) (u2 : g2.Usable o.big) (ht : 0 < o.tol)
    (hL : 0 ≤ L.tol) : ∃ t, outOf o L faces g1 tf1 g2 tf2 = some t ∧
    ∀ contacts, (shapeIntersect o (solverEpa o L faces) g1 tf1 g2 tf2 contacts).1 =
      if (run o (MinkowskiDiff.ofShapes g1 tf1 g2 tf2)).status = .inside then
        (true, contacts.map (· ++ [⟨t.normal, tf1.apply (Gjk.blend (fun d => ((MinkowskiDiff.ofShapes g1 tf1 g2 tf2).support0 o.big
          d).getD 0) t.result - (t.depth * (1 / 2)) • t.normal), -t.depth⟩]))
      else (false, contacts) := by
  obtain ⟨t, e, hf, -⟩ := out_spec (faces := faces) (L := L) h1 h2 u1 u2 ht hL
  refine ⟨t, e, fun contacts => ?_⟩
  have e' : solverEpa o L faces (MinkowskiDiff.ofShapes g1 tf1 g2 tf2) (run o (MinkowskiDiff.ofShapes g1 tf1 g2 tf2)) =
      some (Gjk.blend (fun d => ((MinkowskiDiff.ofShapes g1 tf1 g2 tf2).support0 o.big d).getD 0) t.result, t.normal, t.depth) := by
    unfold outOf at e
    simp only [solverEpa, e]
    rw [if_pos hf]
  by_cases hi : (run o (MinkowskiDiff.ofShapes g1 tf1 g2 tf2)).status = .inside
  · simp only [shapeIntersect, contactOf, if_pos hi, e']
  · simp only [shapeIntersect, contactOf, if_neg hi]

/-- **C111.** The answer is that of GJK: the expanding polytope algorithm never turns a collision into none. -/
theorem C111_answer (h1 : tf1.Rigid) (h2 : tf2.Rigid) (u1 : g1.Usable o.big) (u2 : g2.Usable o.big) (ht : 0 < o.tol) (hL : 0 ≤ L.tol)
    (contacts : Option (List CPoint)) :
    (shapeIntersect o (solverEpa o L faces) g1 tf1 g2 tf2 contacts).1.1 = true ↔
      (run o (MinkowskiDiff.ofShapes g1 tf1 g2 tf2)).status = .inside := by
  obtain ⟨t, -, k⟩ := Epa.intersect_eq (faces := faces) (L := L) h1 h2 u1 u2 ht hL
  rw [k]
  by_cases hi : (run o (MinkowskiDiff.ofShapes g1 tf1 g2 tf2)).status = .inside
  · simp [hi]
  · simp [hi]

/-- **C111.** When contacts are asked for and there is a collision, one contact is added to the list. Its normal has length 1, and its
place is half the reported depth, along the normal taken in the frame of the first shape, from a point of the first shape. -/
theorem C111_contact (h1 : tf1.Rigid) (h2 : tf2.Rigid) (u1 : g1.Usable o.big) (u2 : g2.Usable o.big) (ht : 0 < o.tol) (hL : 0 ≤ L.tol)
    (hr : (shapeIntersect o (solverEpa o L faces) g1 tf1 g2 tf2 (some cs)).1.1 = true) :
    ∃ c, (shapeIntersect o (solverEpa o L faces) g1 tf1 g2 tf2 (some cs)).1.2 = some (cs ++ [c]) ∧ c.normal.nrm = 1 ∧
      ∃ p ∈ Placed tf1.R tf1.t g1.pts, c.pos = p + (c.depth / 2) • tf1.R.mulVec c.normal := by
  have hi := (C111_answer (faces := faces) (L := L) h1 h2 u1 u2 ht hL (some cs)).1 hr
  obtain ⟨t, e, k⟩ := Epa.intersect_eq (faces := faces) (L := L) h1 h2 u1 u2 ht hL
  obtain ⟨t', e', -, hn, hb, -⟩ := Epa.out_spec (faces := faces) (L := L) h1 h2 u1 u2 ht hL
  rw [e] at e'; cases e'
  rw [k, if_pos hi]
  refine ⟨_, rfl, hn, _, ⟨_, hb, rfl⟩, ?_⟩
  simp only [Pose.apply]
  generalize Gjk.blend _ _ = w
  apply V3.ext' <;> simp [M3.mulVec, dot] <;> ring

/-- **C111.** When the algorithm ended since it reached its accuracy, the second shape moved along the normal (taken in the frame of
the first shape) by more than the depth and the tolerance has no point in common with the first. The depth that counts here
is the reported one with the opposite sign. -/
theorem C111_separates_partial (h1 : tf1.Rigid) (h2 : tf2.Rigid) (u1 : g1.Usable o.big) (u2 : g2.Usable o.big) (ht : 0 < o.tol)
    (hL : 0 ≤ L.tol) {c : CPoint} {t : Out}
    (hr : (shapeIntersect o (solverEpa o L faces) g1 tf1 g2 tf2 (some cs)).1 = (true, some (cs ++ [c])))
    (he : outOf o L faces g1 tf1 g2 tf2 = some t) (ha : t.st.status = .accuracyReached) {k : ℝ} (hk : -c.depth + L.tol < k) :
    ∀ p ∈ Placed tf1.R tf1.t g1.pts, ∀ q ∈ Placed tf2.R tf2.t g2.pts, p ≠ q + k • tf1.R.mulVec c.normal := by
  have hi := (C111_answer (faces := faces) (L := L) h1 h2 u1 u2 ht hL (some cs)).1 (by rw [hr])
  obtain ⟨t', e, k'⟩ := Epa.intersect_eq (faces := faces) (L := L) h1 h2 u1 u2 ht hL
  rw [he] at e; cases e
  obtain ⟨t', e', -, hn, -, hx⟩ := Epa.out_spec (faces := faces) (L := L) h1 h2 u1 u2 ht hL
  rw [he] at e'; cases e'
  rw [k', if_pos hi] at hr
  simp only [Option.map_some, Prod.mk.injEq, true_and, Option.some.injEq, List.append_cancel_left_eq, List.cons.injEq, and_true] at hr
  have c1 : c.normal = t.normal := by rw [← hr]
  have c2 : -c.depth = t.depth := by rw [← hr]; simp
  rw [c2] at hk
  rw [c1]
  intro p hp q hq e
  have hd : tf1.R.tr.mulVec (p - q) ∈ Gjk.Diff g1 tf1 g2 tf2 := ⟨p, hp, q, hq, by rw [M3.Orthonormal.mul_tr h1]⟩
  have := hx ha _ hd
  have e2 : tf1.R.tr.mulVec (p - q) = k • t.normal := by
    rw [show p - q = tf1.R.mulVec (k • t.normal) by
      rw [e]; apply V3.ext' <;> simp [M3.mulVec, dot] <;> ring]
    exact M3.Orthonormal.tr_mul h1 _
  rw [e2, dot_smul, ← nrm_mul_self, hn] at this
  linarith

/-- **C111 is false in its sign.** When the algorithm ended since it reached its accuracy, and the shapes have in every direction
two points as far apart as `δ`, so that no motion of a shape by less than `δ` separates them, the reported depth is at most
the tolerance minus `δ`: it is negative, although the shapes overlap by `δ` or more. -/
theorem C111_violated_sign (h1 : tf1.Rigid) (h2 : tf2.Rigid) (u1 : g1.Usable o.big) (u2 : g2.Usable o.big) (ht : 0 < o.tol)
    (hL : 0 ≤ L.tol) {c : CPoint} {t : Out}
    (hr : (shapeIntersect o (solverEpa o L faces) g1 tf1 g2 tf2 (some cs)).1 = (true, some (cs ++ [c])))
    (he : outOf o L faces g1 tf1 g2 tf2 = some t) (ha : t.st.status = .accuracyReached) {δ : ℝ}
    (hδ : ∀ u : V3 ℝ, u.nrm = 1 → ∃ p ∈ Placed tf1.R tf1.t g1.pts, ∃ q ∈ Placed tf2.R tf2.t g2.pts, δ ≤ u.dot (p - q)) :
    c.depth ≤ L.tol - δ := by
  have hi := (C111_answer (faces := faces) (L := L) h1 h2 u1 u2 ht hL (some cs)).1 (by rw [hr])
  obtain ⟨t', e, k'⟩ := Epa.intersect_eq (faces := faces) (L := L) h1 h2 u1 u2 ht hL
  rw [he] at e; cases e
  obtain ⟨t', e', -, hn, -, hx⟩ := Epa.out_spec (faces := faces) (L := L) h1 h2 u1 u2 ht hL
  rw [he] at e'; cases e'
  rw [k', if_pos hi] at hr
  simp only [Option.map_some, Prod.mk.injEq, true_and, Option.some.injEq, List.append_cancel_left_eq, List.cons.injEq, and_true] at hr
  have c2 : c.depth = -t.depth := by rw [← hr]
  obtain ⟨p, hp, q, hq, hd⟩ := hδ (tf1.R.mulVec t.normal) (by rw [M3.Orthonormal.nrm h1]; exact hn)
  have hm : tf1.R.tr.mulVec (p - q) ∈ Gjk.Diff g1 tf1 g2 tf2 := ⟨p, hp, q, hq, by rw [M3.Orthonormal.mul_tr h1]⟩
  have := hx ha _ hm
  rw [M3.dot_mulVec] at hd
  rw [c2]; linarith

end Fcl
