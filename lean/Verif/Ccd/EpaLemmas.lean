import Verif.Ccd.Epa
import Verif.Ccd.PolytopeBall
import Verif.Ccd.DistLemmas

/-!
# Facts about the expanding polytope algorithm
-/

namespace Fcl
namespace Pt

open V3 Ccd

variable {A B : Set (V3 ℝ)} {P : Poly SP} {l : Lib} {c : Cfg} {el : El} {f : ℕ}

/-- What holds of the polytope during the algorithm: it is convex, no two of its faces are in one plane, the origin is in it or on it, and its
vertices are differences of points of the shapes, each furthest in some direction. -/
structure Sound (A B : Set (V3 ℝ)) (P : Poly SP) : Prop where
  convex : Convex P.bare
  facets : Facets P.bare
  origin : Within P.bare 0
  face : ∃ f, P.faces f ≠ none
  made : ∀ p ∈ P.verts, Made A B p
  extreme : ∀ p ∈ P.verts, ∃ d : V3 ℝ, d ≠ 0 ∧ ∀ x ∈ Diff A B, d.dot x ≤ d.dot p.v

/-- The element `el` is nearest to the origin. -/
def IsNearest (l : Lib) (P : Poly SP) (el : El) : Prop := ∃ r, P.near l el = some r ∧ ∀ el' r', P.near l el' = some r' → r.1 ≤ r'.1

/-- The support function of two shapes. -/
def Supports (A B : Set (V3 ℝ)) (sup : V3 ℝ → Option SP) : Prop :=
  ∀ d p, d ≠ 0 → sup d = some p → Made A B p ∧ ∀ x ∈ Diff A B, d.dot x ≤ d.dot p.v

theorem bare_pos {i : ℕ} {p : SP} (h : P.verts[i]? = some p) : P.bare.pos i = p.v := by
  simp [Poly.pos, Poly.bare, List.getD_eq_getElem?_getD, h]

theorem Sound.closed (h : Sound A B P) : Closed P.bare := h.convex.closed

/-- The vertices of a face. -/
theorem face_points (hc : Closed P.bare) (hl : P.faces f ≠ none) : ∃ i j k a b d, P.points (.face f) = some [a, b, d] ∧
    P.verts[i]? = some a ∧ P.verts[j]? = some b ∧ P.verts[k]? = some d ∧ ∀ w, P.bare.Corner w f ↔ w = i ∨ w = j ∨ w = k := by
  obtain ⟨fc, hf⟩ := Option.ne_none_iff_exists'.1 hl
  obtain ⟨a, b, d, hab, hbd, hda, j0, j1, j2, -, -, -, cor⟩ := hc.corners (f := f) (fc := fc) hf
  have lt : ∀ {w}, P.bare.Corner w f → w < P.verts.length := fun ⟨_, _, h⟩ => by simpa [Poly.bare] using hc.end_lt h
  have la := lt ((cor a).2 (by tauto))
  have lb := lt ((cor b).2 (by tauto))
  have ld := lt ((cor d).2 (by tauto))
  obtain ⟨e, he, h0⟩ := j0
  obtain ⟨e', he', h1⟩ := j1
  have ht : third e e' = d := by
    unfold third
    rcases h0 with ⟨rfl, rfl⟩ | ⟨rfl, rfl⟩ <;> rcases h1 with ⟨h1, h2⟩ | ⟨h1, h2⟩ <;> rw [h1, h2]
    · rw [if_neg (by simp)]
    · rw [if_pos ⟨hda, hbd.symm⟩]
    · rw [if_neg (by simp)]
    · rw [if_pos ⟨hbd.symm, hda⟩]
  have fe : P.firstEdges f = some (e, e') := by
    have he2 : P.edges fc.e0 = some e := he
    have he2' : P.edges fc.e1 = some e' := he'
    simp [Poly.firstEdges, hf, he2, he2']
  have la' : e.a < P.verts.length := by rcases h0 with ⟨h, -⟩ | ⟨h, -⟩ <;> rw [h] <;> assumption
  have lb' : e.b < P.verts.length := by rcases h0 with ⟨-, h⟩ | ⟨-, h⟩ <;> rw [h] <;> assumption
  refine ⟨e.a, e.b, d, P.verts[e.a], P.verts[e.b], P.verts[d], ?_, List.getElem?_eq_getElem la', List.getElem?_eq_getElem lb',
    List.getElem?_eq_getElem ld, fun w => ?_⟩
  · simp [Poly.points, fe, ht, List.getElem?_eq_getElem la', List.getElem?_eq_getElem lb', List.getElem?_eq_getElem ld]
  · rw [cor w]
    rcases h0 with ⟨rfl, rfl⟩ | ⟨rfl, rfl⟩ <;> tauto

/-- The triangle of a face is the hull of its vertices. -/
theorem face_hull_iff (hc : Closed P.bare) (hl : P.faces f ≠ none) : ∃ a b d, P.points (.face f) = some [a, b, d] ∧
    a ∈ P.verts ∧ b ∈ P.verts ∧ d ∈ P.verts ∧ ∀ x, HullOf [a.v, b.v, d.v] x ↔ OnFace P.bare f x := by
  obtain ⟨i, j, k, a, b, d, h1, h2, h3, h4, cor⟩ := face_points hc hl
  refine ⟨a, b, d, h1, List.mem_of_getElem? h2, List.mem_of_getElem? h3, List.mem_of_getElem? h4, fun x => ⟨fun hx => ⟨i, j, k, cor, ?_⟩, ?_⟩⟩
  · rwa [bare_pos h2, bare_pos h3, bare_pos h4]
  · rintro ⟨i', j', k', cor', hx⟩
    refine hull_mono (fun v hv => ?_) hx
    have mem : ∀ w, P.bare.Corner w f → P.bare.pos w ∈ [a.v, b.v, d.v] := fun w hw => by
      rcases (cor w).1 hw with rfl | rfl | rfl
      · rw [bare_pos h2]; simp
      · rw [bare_pos h3]; simp
      · rw [bare_pos h4]; simp
    simp only [List.mem_cons, List.not_mem_nil, or_false] at hv
    rcases hv with rfl | rfl | rfl
    · exact mem _ ((cor' _).2 (by tauto))
    · exact mem _ ((cor' _).2 (by tauto))
    · exact mem _ ((cor' _).2 (by tauto))

theorem edge_points (hc : Closed P.bare) {e : ℕ} {ed : Edge} (he : P.edges e = some ed) : ∃ a b, P.points (.edge e) = some [a, b] ∧
    P.verts[ed.a]? = some a ∧ P.verts[ed.b]? = some b := by
  have h := hc.ends e ed he
  have ha : ed.a < P.verts.length := by simpa [Poly.bare] using h.1
  have hb : ed.b < P.verts.length := by simpa [Poly.bare] using h.2
  exact ⟨_, _, by simp [Poly.points, he, List.getElem?_eq_getElem ha, List.getElem?_eq_getElem hb], List.getElem?_eq_getElem ha,
    List.getElem?_eq_getElem hb⟩

/-- The points of an edge are on both of its faces. -/
theorem edge_on_face (hc : Closed P.bare) {e : ℕ} {a b : SP} (hp : P.points (.edge e) = some [a, b]) (hs : P.bare.Side e f) {x : V3 ℝ}
    (hx : HullOf [a.v, b.v] x) : OnFace P.bare f x := by
  have hl : P.faces f ≠ none := by obtain ⟨fc, h, -⟩ := hs; rw [show P.faces f = some fc from h]; simp
  obtain ⟨ed, he⟩ := hc.live hs
  obtain ⟨a', b', h1, h2, h3⟩ := edge_points hc he
  rw [hp] at h1
  simp only [Option.some.injEq, List.cons.injEq, and_true] at h1
  obtain ⟨rfl, rfl⟩ := h1
  obtain ⟨i, j, k, p, q, r, -, k1, k2, k3, cor⟩ := face_points hc hl
  refine ⟨i, j, k, cor, hull_mono (fun v hv => ?_) hx⟩
  have mem : ∀ w, P.bare.Corner w f → P.bare.pos w ∈ [P.bare.pos i, P.bare.pos j, P.bare.pos k] := fun w hw => by
    rcases (cor w).1 hw with rfl | rfl | rfl <;> simp
  simp only [List.mem_cons, List.not_mem_nil, or_false] at hv
  rcases hv with rfl | rfl
  · rw [← bare_pos h2]; exact mem _ ⟨e, hs, ed, he, Or.inl rfl⟩
  · rw [← bare_pos h3]; exact mem _ ⟨e, hs, ed, he, Or.inr rfl⟩

/-- What `nearTo` gives. -/
theorem nearTo_ok (hl : l.Exact) (x : V3 ℝ) {pts : List SP} (h0 : pts ≠ []) (h3 : pts.length ≤ 3) : HullOf (pts.map SP.v) (nearTo l x pts).2 ∧
    (nearTo l x pts).1 = ((nearTo l x pts).2 - x).dot ((nearTo l x pts).2 - x) ∧
    ∀ y, HullOf (pts.map SP.v) y → (nearTo l x pts).1 ≤ (y - x).dot (y - x) := by
  match pts, h0, h3 with
  | [a], _, _ =>
    refine ⟨.pt (by simp [nearTo]), rfl, fun y hy => ?_⟩
    have : ∀ y, HullOf [a.v] y → y = a.v := by
      intro y hy
      induction hy with
      | pt hp => simpa using hp
      | seg t _ _ _ _ ih1 ih2 => rw [ih1, ih2]; v3
    rw [this y hy]; exact le_refl _
  | [a, b], _, _ => exact ⟨hl.seg_mem _ _ _, hl.seg_val _ _ _, hl.seg_min _ _ _⟩
  | [a, b, d], _, _ => exact ⟨hl.tri_mem _ _ _ _, hl.tri_val _ _ _ _, hl.tri_min _ _ _ _⟩
  | _ :: _ :: _ :: _ :: _, _, h => simp at h; omega

theorem points_len {pts : List SP} (h : P.points el = some pts) : pts ≠ [] ∧ pts.length ≤ 3 ∧ ∀ p ∈ pts, p ∈ P.verts := by
  cases el with
  | vertex i =>
    simp only [Poly.points, Option.map_eq_some_iff] at h
    obtain ⟨v, hv, rfl⟩ := h
    exact ⟨by simp, by simp, by simpa using List.mem_of_getElem? hv⟩
  | edge e =>
    simp only [Poly.points] at h
    split at h
    · cases h
    · split at h
      · rename_i h1 h2
        cases h
        refine ⟨by simp, by simp, ?_⟩
        simpa using ⟨List.mem_of_getElem? h1, List.mem_of_getElem? h2⟩
      · cases h
  | face f =>
    simp only [Poly.points] at h
    split at h
    · cases h
    · split at h
      · rename_i h1 h2 h3
        cases h
        refine ⟨by simp, by simp, ?_⟩
        simpa using ⟨List.mem_of_getElem? h1, List.mem_of_getElem? h2, List.mem_of_getElem? h3⟩
      · cases h

theorem sub_zero_dot (x : V3 ℝ) : (x - 0).dot (x - 0) = x.dot x := by simp [V3.dot]

/-- No point of a face is nearer than the nearest element. -/
theorem IsNearest.far (hx : l.Exact) (hg : Sound A B P) {pts : List SP} (hp : P.points el = some pts) (hn : IsNearest l P el) :
    √(nearTo l 0 pts).1 * √(nearTo l 0 pts).1 = (nearTo l 0 pts).1 ∧
    ∀ f x, P.bare.faces f ≠ none → OnFace P.bare f x → √(nearTo l 0 pts).1 * √(nearTo l 0 pts).1 ≤ x.dot x := by
  obtain ⟨r, h1, h2⟩ := hn
  have e : r = nearTo l 0 pts := by simpa [Poly.near, hp, eq_comm] using h1
  subst e
  obtain ⟨h3, h4, -⟩ := points_len hp
  have h5 := (nearTo_ok hx 0 h3 h4).2.1
  have sq : √(nearTo l 0 pts).1 * √(nearTo l 0 pts).1 = (nearTo l 0 pts).1 := Real.mul_self_sqrt (by rw [h5]; exact dot_self_nonneg _)
  refine ⟨sq, fun f x hl hf => ?_⟩
  obtain ⟨a, b, d, hq, -, -, -, hh⟩ := face_hull_iff hg.closed hl
  have h6 := h2 (.face f) (nearTo l 0 [a, b, d]) (by simp [Poly.near, hq])
  have h7 := (nearTo_ok hx 0 (pts := [a, b, d]) (by simp) (by simp)).2.2 x ((hh x).2 hf)
  rw [sub_zero_dot] at h7
  rw [sq]
  linarith

theorem bare_faces : P.bare.faces = P.faces := rfl

/-- Vectors with the largest product have one direction. -/
theorem cauchy_eq {n w : V3 ℝ} (hw : w ≠ 0) (h : n.nrm * w.nrm ≤ n.dot w) : n = n.nrm • w.normalized := by
  have hp := nrm_pos hw
  have h1 : n.dot w = n.nrm * w.nrm := le_antisymm (dot_le n w) h
  have h2 : n.dot w = w.nrm * n.dot w.normalized := by
    conv_lhs => rw [← nrm_smul_normalized w]
    simp only [V3.dot, smul_x, smul_y, smul_z]; ring
  have h3 : n.dot w.normalized = n.nrm := by
    apply mul_left_cancel₀ hp.ne'
    rw [← h2, h1]; ring
  have h4 : w.normalized.dot w.normalized = 1 := by rw [← nrm_mul_self, nrm_normalized hw, mul_one]
  have h5 := nrm_mul_self n
  have h6 : (n - n.nrm • w.normalized).dot (n - n.nrm • w.normalized) = n.dot n - 2 * n.nrm * n.dot w.normalized + n.nrm * n.nrm * w.normalized.dot w.normalized := by
    simp only [V3.dot, sub_x, sub_y, sub_z, smul_x, smul_y, smul_z]; ring
  rw [h3, h4, ← h5] at h6
  have h7 := dot_self_eq_zero (by rw [h6]; ring : (n - n.nrm • w.normalized).dot (n - n.nrm • w.normalized) = 0)
  have kx := congrArg V3.x h7
  have ky := congrArg V3.y h7
  have kz := congrArg V3.z h7
  simp only [sub_x, sub_y, sub_z, zero_x, zero_y, zero_z] at kx ky kz
  apply V3.ext' <;> linarith

theorem outward_normalized {Q : Poly (V3 ℝ)} {n : V3 ℝ} (h : Outward Q f n) : Outward Q f n.normalized := by
  refine outward_scale (nrm_pos h.1) h fun x => ?_
  conv_lhs => rw [← nrm_smul_normalized n]
  simp only [V3.dot, smul_x, smul_y, smul_z]; ring

/-- The direction of the next support point is the outward normal of a face that has the nearest element. -/
theorem epaDir_ok (hx : l.Exact) (hg : Sound A B P) (hb : 0 ≤ c.big) {pts : List SP} (hp : P.points el = some pts) (hn : IsNearest l P el) (hv : ∀ i, el ≠ .vertex i)
    (hedge : ∀ e, el = .edge e → isZero c.ceps (nearTo l 0 pts).1 = true) {dir : V3 ℝ} (hd : epaDir l c P el = some dir) :
    ∃ f, (el = .face f ∨ ∃ e ed, el = .edge e ∧ P.edges e = some ed ∧ ed.f = some f) ∧ P.faces f ≠ none ∧ Outward P.bare f dir ∧ dir.nrm = 1 ∧
      ∀ y, HullOf (pts.map SP.v) y → OnFace P.bare f y := by
  have hne : P.near l el = some (nearTo l 0 pts) := by simp [Poly.near, hp]
  unfold epaDir at hd
  rw [hne] at hd
  simp only at hd
  by_cases hz : isZero c.ceps (nearTo l 0 pts).1 = true
  · rw [if_pos hz] at hd
    have fin : ∀ f, P.faces f ≠ none → (match some (faceNormal c.big P.bare f) with
        | none => none
        | some dir => if dir = 0 then none else some dir.normalized) = some dir → Outward P.bare f dir ∧ dir.nrm = 1 := by
      intro f hl h
      have o := faceNormal_outward hg.convex hg.origin hb (f := f) hl
      simp only [if_neg o.1, Option.some.injEq] at h
      subst h
      exact ⟨outward_normalized o, nrm_normalized o.1⟩
    cases el with
    | vertex i => simp at hd
    | edge e =>
      simp only at hd
      rcases he : P.edges e with _ | ⟨a, b, f', g'⟩
      · rw [he] at hd; simp at hd
      · obtain ⟨x, y, h1, h2, -, h4⟩ := hg.closed.two e _ he
        simp only at h1 h2
        subst h1 h2
        rw [he] at hd
        simp only at hd
        have sx : P.bare.Side e x := (h4 x).2 (Or.inl rfl)
        have hl : P.faces x ≠ none := by obtain ⟨fc, h, -⟩ := sx; rw [show P.faces x = some fc from h]; simp
        obtain ⟨o, u⟩ := fin x hl hd
        obtain ⟨p, q, h5, -, -⟩ := edge_points hg.closed he
        rw [hp] at h5
        cases h5
        exact ⟨x, Or.inr ⟨e, _, rfl, he, rfl⟩, hl, o, u, fun y hy => edge_on_face hg.closed hp sx hy⟩
    | face f =>
      have hl : P.faces f ≠ none := by
        intro h
        simp [Poly.points, Poly.firstEdges, h] at hp
      obtain ⟨a, b, d, hq, -, -, -, hh⟩ := face_hull_iff hg.closed hl
      rw [hp] at hq
      cases hq
      obtain ⟨o, u⟩ := fin f hl hd
      exact ⟨f, Or.inl rfl, hl, o, u, fun y hy => (hh y).1 hy⟩
  · rw [if_neg hz] at hd
    simp only at hd
    split at hd
    · cases hd
    rename_i w0
    simp only [Option.some.injEq] at hd
    cases el with
    | vertex i => exact absurd rfl (hv i)
    | edge e => exact absurd (hedge e rfl) hz
    | face f =>
      have hl : P.faces f ≠ none := by
        intro h
        simp [Poly.points, Poly.firstEdges, h] at hp
      obtain ⟨a, b, d, hq, -, -, -, hh⟩ := face_hull_iff hg.closed hl
      obtain ⟨sq, far⟩ := hn.far hx hg hp
      rw [hp] at hq
      cases hq
      obtain ⟨h1, h2, -⟩ := nearTo_ok hx 0 (pts := [a, b, d]) (by simp) (by simp)
      set w := (nearTo l 0 [a, b, d]).2 with hw
      obtain ⟨n, o⟩ := hg.convex.behind f hl
      have onw := (hh w).1 h1
      obtain ⟨i, j, k, cor, -⟩ := id onw
      have ci := (cor i).2 (Or.inl rfl)
      have h3 := plane_far hg.convex hg.facets hg.origin (Real.sqrt_nonneg _) far hl o ci
      rw [← onw.flat hg.convex o ci] at h3
      rw [sub_zero_dot] at h2
      have h4 : √(nearTo l 0 [a, b, d]).1 = w.nrm := by rw [h2]; rfl
      rw [h4, mul_comm] at h3
      have h5 := cauchy_eq w0 h3
      subst hd
      refine ⟨f, Or.inl rfl, hl, outward_scale (nrm_pos o.1) o fun x => ?_, nrm_normalized w0, fun y hy => (hh y).1 hy⟩
      conv_lhs => rw [h5]
      simp only [V3.dot, smul_x, smul_y, smul_z]; ring

end Pt
end Fcl
