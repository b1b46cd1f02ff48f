import Verif.Ccd.Signed
import Verif.Props.PolytopeDepth

/-!
# C116: the signed distance of the default solver
-/

namespace Fcl
namespace Pt

open V3 Ccd

variable {A B : Set (V3 ℝ)} {l : Lib} {c : Cfg} {sup : V3 ℝ → Option SP} {two : SP → SP → Option Start} {nearest : Poly SP → El} {order : Finset ℕ → List ℕ}
variable {e1 e2 : V3 ℝ → Option (V3 ℝ)} {g1 g2 : Geo ℝ} {tf1 tf2 : Pose ℝ}

/-- C116, shapes that are apart: when the distance query answers with a distance, the signed distance query gives the same answer. -/
theorem C116_same {d : ℝ} {pts : Option (V3 ℝ × V3 ℝ)} (h : shapeDistance l c e1 e2 g1 tf1 g2 tf2 = some (true, d, pts)) (n : ℕ) :
    shapeSigned l c e1 e2 g1 tf1 g2 tf2 two nearest order n = .answer true d pts := by
  unfold shapeDistance gjkDist at h
  unfold shapeSigned signedDist
  have key : ∀ s, (match Ccd.dist l c (shapesSupport c e1 e2 g1 tf1 g2 tf2) s with
      | .ret d pts => some (!decide (d < 0), d, pts)
      | .minus => some (!decide ((-1 : ℝ) < 0), -1, some (0, 0))
      | .undef => none) = some (true, d, pts) → separation l c (shapesSupport c e1 e2 g1 tf1 g2 tf2) s = .answer true d pts := by
    intro s hs
    unfold separation
    rcases hd : Ccd.dist l c (shapesSupport c e1 e2 g1 tf1 g2 tf2) s with ⟨d', pts'⟩ | _ | _
    · simp only [hd, Option.some.injEq, Prod.mk.injEq] at hs
      simp only [answered]
      rw [hs.1, hs.2.1, hs.2.2]
    · simp [hd] at hs
    · simp [hd] at hs
  rcases hg : gjk l c (shapesSupport c e1 e2 g1 tf1 g2 tf2) with s | ⟨s, d'⟩ | s | _
  · simp [hg] at h
  · simp only [hg] at h ⊢; exact key s h
  · simp only [hg] at h ⊢; exact key s h
  · simp [hg] at h

theorem answerOf_nonpos {P : Poly SP} {el : El} {b : Bool} {d : ℝ} {pts : Option (V3 ℝ × V3 ℝ)} (h : answerOf l c P el = .answer b d pts) : d ≤ 0 := by
  unfold answerOf depthOf at h
  rcases hp : P.points el with _ | L
  · simp [hp] at h
  · rcases hq : closestPoints c L (some (nearTo l 0 L).2) with _ | q
    · simp [hp, hq] at h
    · simp only [hp, hq, Option.map_some, answered, Signed.answer.injEq] at h
      rw [← h.2.1]
      exact neg_nonpos.2 (Real.sqrt_nonneg _)

/-- C116, the other way: a positive signed distance is the one of the distance query, so it is the distance of two points of the shapes and not
less than the distance of the shapes. -/
theorem C116_positive (hl : l.Exact) (he : 0 < c.eps) (hc : 0 < c.ceps) (hbig : 0 < c.big) (h1 : tf1.Rigid) (h2 : tf2.Rigid)
    (r1 : g1.Ready e1) (r2 : g2.Ready e2) {R : ℝ}
    (hR : ∀ a ∈ Placed tf1.R tf1.t g1.pts, ∀ b ∈ Placed tf2.R tf2.t g2.pts, a.dist b ≤ R) (hbR : R < c.big) {n : ℕ} {b : Bool} {d : ℝ} {pts : Option (V3 ℝ × V3 ℝ)}
    (h : shapeSigned l c e1 e2 g1 tf1 g2 tf2 two nearest order n = .answer b d pts) (hd : 0 < d) :
    b = true ∧ shapeDistance l c e1 e2 g1 tf1 g2 tf2 = some (true, d, pts) ∧
    (∃ a ∈ Placed tf1.R tf1.t g1.pts, ∃ b ∈ Placed tf2.R tf2.t g2.pts, a.dist b = d) ∧
    ∀ D p q, IsDist (Placed tf1.R tf1.t g1.pts) (Placed tf2.R tf2.t g2.pts) D p q → D ≤ d := by
  have key : b = true ∧ shapeDistance l c e1 e2 g1 tf1 g2 tf2 = some (true, d, pts) := by
    have sep : ∀ s, separation l c (shapesSupport c e1 e2 g1 tf1 g2 tf2) s = .answer b d pts →
        b = true ∧ Ccd.dist l c (shapesSupport c e1 e2 g1 tf1 g2 tf2) s = .ret d pts := by
      intro s hs
      unfold separation at hs
      rcases hdd : Ccd.dist l c (shapesSupport c e1 e2 g1 tf1 g2 tf2) s with ⟨d', pts'⟩ | _ | _
      · simp only [hdd, answered, Signed.answer.injEq] at hs
        obtain ⟨rfl, rfl, rfl⟩ := hs
        exact ⟨by simp [hd.le], rfl⟩
      · simp only [hdd, answered, Signed.answer.injEq] at hs
        linarith [hs.2.1]
      · simp [hdd] at hs
    unfold shapeSigned signedDist at h
    unfold shapeDistance gjkDist
    rcases hg : gjk l c (shapesSupport c e1 e2 g1 tf1 g2 tf2) with s | ⟨s, d'⟩ | s | _
    · exfalso
      simp only [hg, penetration] at h
      split at h
      · simp at h
      · exact absurd (answerOf_nonpos h) (not_le.2 hd)
      · split at h
        · exact absurd (answerOf_nonpos h) (not_le.2 hd)
        · simp at h
        · simp at h
    · simp only [hg] at h ⊢
      obtain ⟨hb, hr⟩ := sep s h
      rw [hr]
      exact ⟨hb, by simp [hd.le]⟩
    · simp only [hg] at h ⊢
      obtain ⟨hb, hr⟩ := sep s h
      rw [hr]
      exact ⟨hb, by simp [hd.le]⟩
    · simp [hg] at h
  exact ⟨key.1, key.2, C79_upper hl he hc hbig h1 h2 r1 r2 hR hbR key.2⟩

theorem Supports.of (h : Ccd.Supports sup A B 0) : Supports A B sup := fun d p hd hp =>
  ⟨h.made d p hp, fun x hx => by
    have := h.far d p hd hp x hx
    simp only [V3.dot] at this ⊢
    linarith⟩

/-- C116, shapes that overlap, for any support function: the query ends, answers "not separated" unless the depth is zero, and gives minus the
penetration depth up to the tolerance, with points of the shapes. -/
theorem C116_depth_partial {s : List SP} {P0 : Poly SP} (hg : gjk l c sup = .hit s) (hf : firstPoly l c sup two s = some (.ok P0))
    (h : Setting A B l c c.tol sup nearest order P0) (hA : ConvexSet A) (hB : ConvexSet B) {R : ℝ} (hR : ∀ x ∈ Diff A B, x.nrm ≤ R) :
    ∃ n d q, signedDist l c sup two nearest order n = .answer (decide (d = 0)) (-d) (some q) ∧ IsDepth A B c.tol d ∧ PtsOk c R A B d q := by
  obtain ⟨n, P, el, he⟩ := C115_ends_partial h hR
  obtain ⟨d, q, h1, h2, h3⟩ := C115_depth_partial h hA hB hR he
  refine ⟨n, d, q, ?_, h2, h3⟩
  simp only [signedDist, hg, penetration, hf, he, answerOf, h1, answered, Signed.answer.injEq, and_self, and_true]
  have := h2.1
  rcases this.eq_or_lt with h0 | h0
  · simp [← h0]
  · simp [h0, h0.ne']

theorem doSimplex3_sub (C B A : SP) : match doSimplex3 l c C B A with
    | .inside t => ∀ p ∈ t, p ∈ [C, B, A]
    | .stuck _ => True
    | .go t _ => ∀ p ∈ t, p ∈ [C, B, A] := by
  unfold doSimplex3 simplex3Edge
  dsimp only
  split_ifs <;> simp

theorem doSimplex_sub (s : List SP) : match doSimplex l c s with
    | .inside t => ∀ p ∈ t, p ∈ s
    | .stuck _ => True
    | .go t _ => ∀ p ∈ t, p ∈ s := by
  match s with
  | [B, A] =>
    simp only [doSimplex, doSimplex2]
    split_ifs <;> simp
  | [C, B, A] => exact doSimplex3_sub C B A
  | [D, C, B, A] =>
    have key : ∀ X Y : SP, X ∈ [D, C, B, A] → Y ∈ [D, C, B, A] → match doSimplex3 l c X Y A with
        | .inside t => ∀ p ∈ t, p ∈ [D, C, B, A]
        | .stuck _ => True
        | .go t _ => ∀ p ∈ t, p ∈ [D, C, B, A] := by
      intro X Y hX hY
      have := doSimplex3_sub (l := l) (c := c) X Y A
      have mem : ∀ p ∈ [X, Y, A], p ∈ [D, C, B, A] := by
        intro p hp
        simp only [List.mem_cons, List.not_mem_nil, or_false] at hp
        rcases hp with rfl | rfl | rfl
        · exact hX
        · exact hY
        · simp
      split
      · rename_i hh; rw [hh] at this; exact fun p hp => mem p (this p hp)
      · trivial
      · rename_i hh; rw [hh] at this; exact fun p hp => mem p (this p hp)
    simp only [doSimplex, doSimplex4]
    split_ifs
    all_goals first
      | trivial
      | (intro p hp; exact hp)
      | exact key _ _ (by simp) (by simp)
  | [] => simp [doSimplex]
  | [_] => simp [doSimplex]
  | _ :: _ :: _ :: _ :: _ :: _ => simp [doSimplex]

/-- A point is furthest in some direction. -/
def Far (A B : Set (V3 ℝ)) (p : SP) : Prop := ∃ d : V3 ℝ, d ≠ 0 ∧ ∀ x ∈ Diff A B, d.dot x ≤ d.dot p.v

theorem gjkLoop_far (hc : 0 < c.ceps) (hs : Supports A B sup) : ∀ (n : ℕ) {s : List SP} {dir : V3 ℝ} {t : List SP}, (∀ p ∈ s, Far A B p) → dir ≠ 0 →
    gjkLoop l c sup n s dir = .hit t → ∀ p ∈ t, Far A B p := by
  intro n
  induction n with
  | zero => intro s dir t _ _ h; simp [gjkLoop] at h
  | succ n ih =>
    intro s dir t hf hd h
    unfold gjkLoop at h
    rcases hp : sup dir with _ | last
    · simp [hp] at h
    simp only [hp] at h
    have hf' : ∀ p ∈ s ++ [last], Far A B p := by
      intro p hp'
      rcases List.mem_append.1 hp' with hm | hm
      · exact hf p hm
      · rw [List.mem_singleton.1 hm]; exact ⟨dir, hd, (hs dir last hd hp).2⟩
    have sub := doSimplex_sub (l := l) (c := c) (s ++ [last])
    split_ifs at h
    rcases ht : doSimplex l c (s ++ [last]) with t' | t' | ⟨t', dir'⟩
    · rw [ht] at h sub
      simp only [Out.hit.injEq] at h
      subst h
      exact fun p hp' => hf' p (sub p hp')
    · rw [ht] at h; simp at h
    · rw [ht] at h sub
      simp only at h
      split_ifs at h with hz
      refine ih (fun p hp' => hf' p (sub p hp')) (fun h0 => hz ?_) h
      rw [h0]
      simp [isZero, V3.dot, hc]

/-- The search for a common point hands over points of the difference of the shapes that are furthest in some direction. -/
theorem gjk_far (hc : 0 < c.ceps) (hs : Supports A B sup) {s : List SP} (h : gjk l c sup = .hit s) : ∀ p ∈ s, Far A B p := by
  unfold gjk at h
  have x0 : (⟨1, 0, 0⟩ : V3 ℝ) ≠ 0 := fun h => by have := congrArg V3.x h; norm_num at this
  rcases hp : sup ⟨1, 0, 0⟩ with _ | p0
  · simp [hp] at h
  simp only [hp] at h
  have f0 : Far A B p0 := ⟨_, x0, (hs _ p0 x0 hp).2⟩
  by_cases hv : p0.v = 0
  · exfalso
    rcases hn : c.maxIter with _ | n
    · simp [hn, gjkLoop] at h
    rw [hn] at h
    unfold gjkLoop at h
    rcases hq : sup (-p0.v) with _ | q
    · simp [hq] at h
    have e1 : ∀ w : V3 ℝ, (0 : V3 ℝ).cross w = 0 := fun w => by
      apply V3.ext' <;> simp only [V3.cross, zero_x, zero_y, zero_z] <;> ring
    have e2 : (0 : V3 ℝ).normalized.cross (0 - q.v) = 0 := by
      rw [show (0 : V3 ℝ).normalized = 0 by apply V3.ext' <;> simp [V3.normalized, V3.nrm, V3.dot], e1]
    have hds : doSimplex l c ([p0] ++ [q]) = .go [p0, q] 0 := by
      simp only [List.cons_append, List.nil_append, doSimplex, doSimplex2, hv, e1, e2]
      rw [if_neg]
      simp [V3.dot]
    simp only [hq, hds] at h
    split_ifs at h with h1 h2
    refine h2 ?_
    simp [isZero, V3.dot, hc]
  · refine gjkLoop_far hc hs _ (fun p hp' => ?_) (fun h0 => hv ?_) h
    · rw [List.mem_singleton.1 hp']; exact f0
    · have hx := congrArg V3.x h0
      have hy := congrArg V3.y h0
      have hz := congrArg V3.z h0
      simp only [neg_x, neg_y, neg_z, zero_x, zero_y, zero_z, neg_eq_zero] at hx hy hz
      exact V3.ext' hx hy hz

/-- C116, the two algorithms fit together: when the search for a common point ends with four points that are not in one plane and have the origin
between them, the expansion begins with their tetrahedron, which is as it must be, or with a triangle of three of them through the origin. -/
theorem C116_start (hl : l.Exact) (he : 0 < c.eps) (hc : 0 < c.ceps) (hs : Ccd.Supports sup A B 0) (hA : ConvexSet A) (hB : ConvexSet B) {a b k d : SP}
    (hg : gjk l c sup = .hit [a, b, k, d]) (hv : vol a.v b.v k.v d.v ≠ 0) (h0 : HullOf [a.v, b.v, k.v, d.v] 0) :
    (∃ P, firstPoly l c sup two [a, b, k, d] = some (.ok P) ∧ P.verts = [a, b, k, d] ∧ Sound A B P) ∨
    ∃ p q r : SP, (∀ s ∈ [p, q, r], s ∈ [a, b, k, d]) ∧ (∃ x, HullOf [p.v, q.v, r.v] x ∧ x.nrm < c.eps) ∧
      firstPoly l c sup two [a, b, k, d] = firstPoly l c sup two [p, q, r] := by
  have ho := gjk_ok hl he hc hA hB hs
  rw [hg] at ho
  exact C115_first hl he hv h0 (fun p hp => ho.1.1 p hp) (gjk_far hc (.of hs) hg)

theorem first_far (hl : l.Exact) (he : 0 < c.eps) {a b k d : SP}
    (far : ∀ t ∈ [(a, b, k), (a, k, d), (a, b, d), (b, k, d)], ∀ x, HullOf [t.1.v, t.2.1.v, t.2.2.v] x → c.eps ≤ x.nrm) :
    firstPoly l c sup two [a, b, k, d] = some (.ok (tetra false a b k d)) := by
  have no : ∀ x y z : SP, (x, y, z) ∈ [(a, b, k), (a, k, d), (a, b, d), (b, k, d)] → ¬tiny c (l.tri 0 x.v y.v z.v).1 = true := by
    intro x y z hm h
    obtain ⟨w, k1, k2⟩ := tiny_lt he hl h
    rw [show w - 0 = w by v3] at k2
    exact absurd (far _ hm w k1) (not_le.2 k2)
  simp only [firstPoly]
  rw [if_neg (no _ _ _ (by simp)), if_neg (no _ _ _ (by simp)), if_neg (no _ _ _ (by simp)), if_neg (no _ _ _ (by simp))]

/-- C116 for shapes: the support functions of the shapes, except for cylinders, are as the depth needs it. -/
theorem C116_shapes (hc : 0 < c.ceps) (hbig : 0 < c.big) (h1 : tf1.Rigid) (h2 : tf2.Rigid) (r1 : g1.Ready e1) (r2 : g2.Ready e2)
    (h0 : slack c.ceps g1 + slack c.ceps g2 = 0) :
    Supports (Placed tf1.R tf1.t g1.pts) (Placed tf2.R tf2.t g2.pts) (shapesSupport c e1 e2 g1 tf1 g2 tf2) ∧
    ∀ d, d ≠ 0 → shapesSupport c e1 e2 g1 tf1 g2 tf2 d ≠ none := by
  refine ⟨.of (h0 ▸ shapes_supports hc hbig h1 h2 r1 r2), fun d hd => ?_⟩
  have hd' : -d ≠ 0 := by
    intro h; apply hd
    rw [show d = -(-d) by v3, h]; v3
  obtain ⟨p, hp, -⟩ := support_ready hc hbig h1 r1 hd
  obtain ⟨q, hq, -⟩ := support_ready hc hbig h2 r2 hd'
  simp [shapesSupport, pairSupport, hp, hq]

/-- C116 for shapes that overlap, in part: the search ends with a tetrahedron that is not flat and has the origin in it, not on a face, and the
nearest elements and the new points are as in `Setting`. Then the signed distance is minus the penetration depth up to the tolerance. Missing: the other cases. -/
theorem C116_shapes_depth_partial (hl : l.Exact) (ht : Tol c c.tol) (hbig : 0 < c.big) (h1 : tf1.Rigid) (h2 : tf2.Rigid) (r1 : g1.Ready e1) (r2 : g2.Ready e2)
    (h0 : slack c.ceps g1 + slack c.ceps g2 = 0) {R : ℝ} (hR : ∀ a ∈ Placed tf1.R tf1.t g1.pts, ∀ b ∈ Placed tf2.R tf2.t g2.pts, a.dist b ≤ R)
    (ho : Lists order) {a b k d : SP} (hg : gjk l c (shapesSupport c e1 e2 g1 tf1 g2 tf2) = .hit [a, b, k, d])
    (hv : vol a.v b.v k.v d.v ≠ 0) (hin : HullOf [a.v, b.v, k.v, d.v] 0)
    (far : ∀ t ∈ [(a, b, k), (a, k, d), (a, b, d), (b, k, d)], ∀ x, HullOf [t.1.v, t.2.1.v, t.2.2.v] x → c.eps ≤ x.nrm)
    (hn : ∀ P, Run l c c.tol (shapesSupport c e1 e2 g1 tf1 g2 tf2) nearest order (tetra false a b k d) P → IsNearest l P (nearest P))
    (hr : Regular l c c.tol (shapesSupport c e1 e2 g1 tf1 g2 tf2) nearest order (tetra false a b k d)) :
    ∃ n dep q, shapeSigned l c e1 e2 g1 tf1 g2 tf2 two nearest order n = .answer (decide (dep = 0)) (-dep) (some q) ∧
      IsDepth (Placed tf1.R tf1.t g1.pts) (Placed tf2.R tf2.t g2.pts) c.tol dep ∧
      PtsOk c R (Placed tf1.R tf1.t g1.pts) (Placed tf2.R tf2.t g2.pts) dep q := by
  have hc : 0 < c.ceps := lt_of_lt_of_le (by have := ht.eps; positivity) ht.ceps
  have hs := shapes_supports (tf1 := tf1) (tf2 := tf2) hc hbig h1 h2 r1 r2
  rw [h0] at hs
  have tot := (C116_shapes hc hbig h1 h2 r1 r2 h0).2
  have hA := convex1 g1 tf1
  have hB := convex1 g2 tf2
  have hok := gjk_ok hl ht.eps hc hA hB hs
  rw [hg] at hok
  have nt := first_far (sup := shapesSupport c e1 e2 g1 tf1 g2 tf2) (two := two) hl ht.eps far
  have snd : Sound (Placed tf1.R tf1.t g1.pts) (Placed tf2.R tf2.t g2.pts) (tetra false a b k d) :=
    tetra_sound hv hin (fun p hp => hok.1.1 p hp) (gjk_far hc (.of hs) hg)
  have hle : ∀ x ∈ Diff (Placed tf1.R tf1.t g1.pts) (Placed tf2.R tf2.t g2.pts), x.nrm ≤ R := by
    rintro x ⟨a, ha, b, hb, rfl⟩; rw [← V3.dist_eq]; exact hR a ha b hb
  exact C116_depth_partial hg nt ⟨hl, ht, .of hs, tot, ho, snd, hn, hr⟩ hA hB hle

end Pt
end Fcl
