import Verif.Mass.PolyLemmas
import Verif.Geom.ShapeMeshSpec
import Mathlib.MeasureTheory.Measure.Lebesgue.EqHaar

/-!
# C109: volume, centre of mass and inertia of meshes and of `Convex`

For a mesh without border that winds once around a solid, wherever the origin is, the results of the code are the integrals over
the solid. `Convex::computeMomentofInertia` is the inertia divided by the volume, and what
`computeMomentofInertiaRelatedToCOM` makes of it is no inertia at all.
-/

namespace Fcl
namespace Mass
open MeasureTheory Set

/-- **C109.** `computeVolume` of a mesh is the volume of the enclosed solid. -/
theorem C109_mesh_volume {vs : List (V3 ℝ)} {ts : List (ℕ × ℕ × ℕ)} {T : List Tri3} {p : V3 ℝ} {X : Set (V3 ℝ)} (hc : Corners vs ts T)
    (hT : NoBorder T) (hX : Solid X) (hE : Encloses T p X) : IsVolume X (meshVolume vs ts) := by
  have m := hE.moments hX hT
  rw [IsVolume, m.v, meshVolume, foldl_corners volStep hc, foldl_vol]
  ring

theorem com_of {T : List Tri3} {p : V3 ℝ} {X : Set (V3 ℝ)} (hT : NoBorder T) (hX : Solid X) (hE : Encloses T p X)
    (hv : 0 < over X fun _ => 1) : IsCOM X ((1 / ((T.foldl comStep (0, 0)).1 * 4)) • (T.foldl comStep (0, 0)).2) := by
  have m := hE.moments hX hT
  obtain ⟨h1, h2, h3, h4⟩ := foldl_com T (0, 0)
  rw [m.v] at hv
  simp only [V3.zero_x, V3.zero_y, V3.zero_z, zero_add] at h1 h2 h3 h4
  refine ⟨?_, ?_, ?_⟩
  · rw [m.v, m.x, V3.smul_x, h1, h2]; field_simp; ring
  · rw [m.v, m.y, V3.smul_y, h1, h3]; field_simp; ring
  · rw [m.v, m.z, V3.smul_z, h1, h4]; field_simp; ring

/-- **C109.** `computeCOM` of a mesh is the centre of mass of the enclosed solid. -/
theorem C109_mesh_com {vs : List (V3 ℝ)} {ts : List (ℕ × ℕ × ℕ)} {T : List Tri3} {p : V3 ℝ} {X : Set (V3 ℝ)} (hc : Corners vs ts T)
    (hT : NoBorder T) (hX : Solid X) (hE : Encloses T p X) (hv : 0 < over X fun _ => 1) : IsCOM X (meshCOM vs ts) := by
  have := com_of hT hX hE hv
  rw [meshCOM, foldl_corners comStep hc]
  exact this

theorem inertia_of {T : List Tri3} {p : V3 ℝ} {X : Set (V3 ℝ)} (hT : NoBorder T) (hX : Solid X) (hE : Encloses T p X) :
    IsInertia X ⟨0, 0, 0⟩ (fromCov (T.foldl covStep ⟨0, 0, 0⟩)) := by
  have m := hE.moments hX hT
  have e : T.foldl covStep ⟨0, 0, 0⟩ = secondMoments T := by
    rw [foldl_cov]
    simp only [madd, secondMoments, M3.mk.injEq]
    refine ⟨?_, ?_, ?_⟩ <;> apply V3.ext' <;> simp
  have hs : ∀ g h, (T.map (momQ g h 0)).sum = (T.map (momQ h g 0)).sum := by
    intro g h
    congr 2
    funext t
    simp only [momQ]; ring
  rw [e]
  refine m.inertia _ _ ?_ ?_ ?_ ?_ ?_ ?_ ?_ ?_ ?_ <;> simp only [fromCov, secondMoments]
  · ring
  · ring
  · ring
  · ring
  · rw [hs V3.x V3.y]
  · ring
  · rw [hs V3.x V3.z]
  · ring
  · rw [hs V3.y V3.z]

/-- **C109.** `computeMomentofInertia` of a mesh is the inertia of the enclosed solid about the origin, for density 1. -/
theorem C109_mesh_inertia {vs : List (V3 ℝ)} {ts : List (ℕ × ℕ × ℕ)} {T : List Tri3} {p : V3 ℝ} {X : Set (V3 ℝ)} (hc : Corners vs ts T)
    (hT : NoBorder T) (hX : Solid X) (hE : Encloses T p X) : IsInertia X ⟨0, 0, 0⟩ (meshInertia vs ts) := by
  rw [meshInertia, foldl_corners covStep hc]
  exact inertia_of hT hX hE

/-- **C109.** `computeMomentofInertiaRelatedToCOM` of a mesh is the inertia about the centre of mass. -/
theorem C109_mesh_about_com {vs : List (V3 ℝ)} {ts : List (ℕ × ℕ × ℕ)} {T : List Tri3} {p : V3 ℝ} {X : Set (V3 ℝ)} (hc : Corners vs ts T)
    (hT : NoBorder T) (hX : Solid X) (hE : Encloses T p X) (hv : 0 < over X fun _ => 1) :
    IsInertia X (meshCOM vs ts) (aboutCOM (meshInertia vs ts) (meshCOM vs ts) (meshVolume vs ts)) := by
  have m := hE.moments hX hT
  have := m.aboutCOM (C109_mesh_inertia hc hT hX hE) (C109_mesh_com hc hT hX hE hv)
  rw [← m.v, ← C109_mesh_volume hc hT hX hE] at this
  exact this

/-! ### `Convex` -/

/-- **C109.** `Convex::computeVolume` is the volume of the enclosed solid. -/
theorem C109_convex_volume {vs : List (V3 ℝ)} {faces : List ℕ} {Ps : List Polygon} {p : V3 ℝ} {X : Set (V3 ℝ)} (hl : Lists vs faces Ps)
    (hT : NoBorderP Ps) (hX : Solid X) (hE : Encloses (Ps.flatMap fan) p X) : IsVolume X (convexVolume vs Ps.length faces) := by
  have m := hE.moments hX (noBorder_fans hT)
  rw [IsVolume, m.v, convexVolume, convexLoop_eq volStep hl, foldl_vol]
  ring

/-- **C109.** `Convex::computeCOM` is the centre of mass of the enclosed solid. -/
theorem C109_convex_com {vs : List (V3 ℝ)} {faces : List ℕ} {Ps : List Polygon} {p : V3 ℝ} {X : Set (V3 ℝ)} (hl : Lists vs faces Ps)
    (hT : NoBorderP Ps) (hX : Solid X) (hE : Encloses (Ps.flatMap fan) p X) (hv : 0 < over X fun _ => 1) :
    IsCOM X (convexCOM vs Ps.length faces) := by
  have := com_of (noBorder_fans hT) hX hE hv
  rw [convexCOM, convexLoop_eq comStep hl]
  exact this

theorem foldl_pair (T : List Tri3) (s : M3 ℝ × ℝ) :
    T.foldl (fun s t => (covStep s.1 t, volStep s.2 t)) s = (T.foldl covStep s.1, T.foldl volStep s.2) := by
  induction T generalizing s with
  | nil => rfl
  | cons t T ih => rw [List.foldl_cons, ih]; rfl

theorem mscale_mscale (a b : ℝ) (M : M3 ℝ) : mscale a (mscale b M) = mscale (a * b) M := by
  simp only [mscale, M3.mk.injEq]
  refine ⟨?_, ?_, ?_⟩ <;> apply V3.ext' <;> simp <;> ring

theorem mscale_one (M : M3 ℝ) : mscale 1 M = M := by
  obtain ⟨⟨a1, a2, a3⟩, ⟨b1, b2, b3⟩, ⟨c1, c2, c3⟩⟩ := M
  simp only [mscale, M3.mk.injEq]
  refine ⟨?_, ?_, ?_⟩ <;> apply V3.ext' <;> simp

/-- **C109.** `Convex::computeMomentofInertia`, multiplied by the volume, is the inertia about the origin for density 1: it is the
inertia for mass 1. -/
theorem C109_convex_inertia {vs : List (V3 ℝ)} {faces : List ℕ} {Ps : List Polygon} {p : V3 ℝ} {X : Set (V3 ℝ)} (hl : Lists vs faces Ps)
    (hT : NoBorderP Ps) (hX : Solid X) (hE : Encloses (Ps.flatMap fan) p X) (hv : 0 < over X fun _ => 1) :
    IsInertia X ⟨0, 0, 0⟩ (mscale (convexVolume vs Ps.length faces) (convexInertia vs Ps.length faces)) := by
  have hvol := C109_convex_volume hl hT hX hE
  have m := hE.moments hX (noBorder_fans hT)
  have h0 : ((Ps.flatMap fan).map (mom1 0)).sum ≠ 0 := by rw [← m.v]; exact hv.ne'
  have := inertia_of (noBorder_fans hT) hX hE
  rw [hvol, m.v, convexInertia, convexLoop_eq _ hl, foldl_pair]
  simp only
  rw [foldl_vol, mscale_mscale]
  have e : ((Ps.flatMap fan).map (mom1 0)).sum * (6 / (0 + 6 * ((Ps.flatMap fan).map (mom1 0)).sum)) = 1 := by field_simp; simp
  rw [e, mscale_one]
  exact this

/-! ### Closed meshes of C104 have no border -/

/-- A closed surface in the sense of C104 (each side once in each direction) has no border. -/
theorem noBorder_of_closed {vs : List (V3 ℝ)} {ts : List (ℕ × ℕ × ℕ)} {T : List Tri3} (hc : Corners vs ts T) (h : ToMesh.Closed ts) : NoBorder T := by
  have e : sides3 T = (ToMesh.sides ts).map fun e => (vs.getD e.1 0, vs.getD e.2 0) := by
    clear h
    induction hc with
    | nil => rfl
    | @cons t u ts T hd _ ih =>
      obtain ⟨h1, h2, h3⟩ := hd
      have e1 : sides3 (u :: T) = [(u.1, u.2.1), (u.2.1, u.2.2), (u.2.2, u.1)] ++ sides3 T := rfl
      have e2 : ToMesh.sides (t :: ts) = [(t.1, t.2.1), (t.2.1, t.2.2), (t.2.2, t.1)] ++ ToMesh.sides ts := rfl
      rw [e1, e2, ih, List.map_append]
      simp [List.getD, h1, h2, h3]
  have hp : (ToMesh.sides ts).Perm ((ToMesh.sides ts).map Prod.swap) := by
    refine (List.perm_ext_iff_of_nodup h.once (h.once.map Prod.swap_injective)).2 fun x => ?_
    obtain ⟨u, v⟩ := x
    simp only [List.mem_map, Prod.exists, Prod.swap_prod_mk, Prod.mk.injEq]
    constructor
    · intro hx
      exact ⟨v, u, h.back _ _ hx, rfl, rfl⟩
    · rintro ⟨a, b, hx, rfl, rfl⟩
      exact h.back _ _ hx
  rw [NoBorder, e]
  refine (hp.map _).trans ?_
  rw [List.map_map, List.map_map]
  exact .refl _

/-! ### Examples -/

/-- A tetrahedron with a corner at `(1, 1, 1)`; the origin is outside. -/
def exVs : List (V3 ℝ) := [⟨1, 1, 1⟩, ⟨7, 1, 1⟩, ⟨1, 7, 1⟩, ⟨1, 1, 7⟩]
def exTs : List (ℕ × ℕ × ℕ) := [(1, 2, 3), (2, 1, 0), (3, 2, 0), (1, 3, 0)]
def exT : List Tri3 := [(⟨7, 1, 1⟩, ⟨1, 7, 1⟩, ⟨1, 1, 7⟩), (⟨1, 7, 1⟩, ⟨7, 1, 1⟩, ⟨1, 1, 1⟩), (⟨1, 1, 7⟩, ⟨1, 7, 1⟩, ⟨1, 1, 1⟩),
  (⟨7, 1, 1⟩, ⟨1, 1, 7⟩, ⟨1, 1, 1⟩)]
def exX : Set (V3 ℝ) := tetra ⟨1, 1, 1⟩ (⟨7, 1, 1⟩, ⟨1, 7, 1⟩, ⟨1, 1, 7⟩)

theorem ex_corners : Corners exVs exTs exT := by
  simp [Corners, exVs, exTs, exT]

theorem ex_noBorder : NoBorder exT := noBorder_of_closed ex_corners ⟨by decide, by
    have : ∀ e ∈ ToMesh.sides exTs, e.swap ∈ ToMesh.sides exTs := by decide
    exact fun u v h => this _ h, by
    have : ∀ e ∈ ToMesh.sides exTs, e.1 ≠ e.2 := by decide
    exact fun u v h => this _ h⟩

theorem ex_solid : Solid exX := tetra_solid _ _

theorem ex_encloses : Encloses exT ⟨1, 1, 1⟩ exX := by
  refine Filter.Eventually.of_forall fun q => ?_
  have o1 : orient ⟨1, 1, 1⟩ (⟨7, 1, 1⟩, ⟨1, 7, 1⟩, ⟨1, 1, 7⟩) = 216 := by norm_num [orient, V3.cross, V3.dot]
  have o2 : orient ⟨1, 1, 1⟩ (⟨1, 7, 1⟩, ⟨7, 1, 1⟩, ⟨1, 1, 1⟩) = 0 := by norm_num [orient, V3.cross, V3.dot]
  have o3 : orient ⟨1, 1, 1⟩ (⟨1, 1, 7⟩, ⟨1, 7, 1⟩, ⟨1, 1, 1⟩) = 0 := by norm_num [orient, V3.cross, V3.dot]
  have o4 : orient ⟨1, 1, 1⟩ (⟨7, 1, 1⟩, ⟨1, 1, 7⟩, ⟨1, 1, 1⟩) = 0 := by norm_num [orient, V3.cross, V3.dot]
  simp only [exT, List.map_cons, List.map_nil, List.sum_cons, List.sum_nil, o1, o2, o3, o4, Real.sign_zero,
    Real.sign_of_pos (show (0 : ℝ) < 216 by norm_num), ite_self, add_zero]
  rfl

/-- Its volume is 36. -/
example : IsVolume exX 36 := by
  have := C109_mesh_volume ex_corners ex_noBorder ex_solid ex_encloses
  convert this using 1
  norm_num [meshVolume, exVs, exTs, corners, volStep, sixVol, V3.cross, V3.dot]

/-- Its centre of mass. -/
example : IsCOM exX ⟨5 / 2, 5 / 2, 5 / 2⟩ := by
  have hv : 0 < over exX fun _ => 1 := by
    rw [← C109_mesh_volume ex_corners ex_noBorder ex_solid ex_encloses]
    norm_num [meshVolume, exVs, exTs, corners, volStep, sixVol, V3.cross, V3.dot]
  have := C109_mesh_com ex_corners ex_noBorder ex_solid ex_encloses hv
  convert this using 1
  apply V3.ext' <;> norm_num [meshCOM, exVs, exTs, corners, comStep, sixVol, V3.cross, V3.dot]

/-- The same tetrahedron as a `Convex`, moved to the origin. -/
def cvVs : List (V3 ℝ) := [⟨0, 0, 0⟩, ⟨6, 0, 0⟩, ⟨0, 6, 0⟩, ⟨0, 0, 6⟩]
def cvFaces : List ℕ := [3, 1, 2, 3, 3, 2, 1, 0, 3, 3, 2, 0, 3, 1, 3, 0]
def cvPs : List Polygon := [[⟨6, 0, 0⟩, ⟨0, 6, 0⟩, ⟨0, 0, 6⟩], [⟨0, 6, 0⟩, ⟨6, 0, 0⟩, ⟨0, 0, 0⟩], [⟨0, 0, 6⟩, ⟨0, 6, 0⟩, ⟨0, 0, 0⟩],
  [⟨6, 0, 0⟩, ⟨0, 0, 6⟩, ⟨0, 0, 0⟩]]
def cvX : Set (V3 ℝ) := {p | 0 ≤ p.x ∧ 0 ≤ p.y ∧ 0 ≤ p.z ∧ p.x + p.y + p.z ≤ 6}

theorem cv_lists : Lists cvVs cvFaces cvPs := by
  refine ⟨[[1, 2, 3], [2, 1, 0], [3, 2, 0], [1, 3, 0]], by decide, ?_⟩
  have key : ∀ (i j k : ℕ) (a b c : V3 ℝ), cvVs[i]? = some a → cvVs[j]? = some b → cvVs[k]? = some c →
      [i, j, k].length = [a, b, c].length ∧ ∀ n : ℕ, n < [a, b, c].length → cvVs[[i, j, k].getD n 0]? = [a, b, c][n]? := by
    intro i j k a b c h1 h2 h3
    refine ⟨rfl, fun n hn => ?_⟩
    match n, hn with
    | 0, _ => exact h1
    | 1, _ => exact h2
    | 2, _ => exact h3
  exact .cons (key _ _ _ _ _ _ rfl rfl rfl) (.cons (key _ _ _ _ _ _ rfl rfl rfl) (.cons (key _ _ _ _ _ _ rfl rfl rfl)
    (.cons (key _ _ _ _ _ _ rfl rfl rfl) .nil)))

theorem cv_noBorder : NoBorderP cvPs := by
  let f : ℕ × ℕ → V3 ℝ × V3 ℝ := fun e => (cvVs.getD e.1 0, cvVs.getD e.2 0)
  have e : cvPs.flatMap polySides = ([(1, 2), (2, 3), (3, 1), (2, 1), (1, 0), (0, 2), (3, 2), (2, 0), (0, 3), (1, 3), (3, 0), (0, 1)] : List (ℕ × ℕ)).map f := rfl
  have hp : ([(1, 2), (2, 3), (3, 1), (2, 1), (1, 0), (0, 2), (3, 2), (2, 0), (0, 3), (1, 3), (3, 0), (0, 1)] : List (ℕ × ℕ)).Perm
      (([(1, 2), (2, 3), (3, 1), (2, 1), (1, 0), (0, 2), (3, 2), (2, 0), (0, 3), (1, 3), (3, 0), (0, 1)] : List (ℕ × ℕ)).map Prod.swap) := by decide
  rw [NoBorderP, e]
  refine (hp.map f).trans ?_
  rw [List.map_map, List.map_map]
  exact .refl _

theorem cv_solid : Solid cvX := by
  have : cvX = tetra 0 (⟨6, 0, 0⟩, ⟨0, 6, 0⟩, ⟨0, 0, 6⟩) := by
    ext p
    simp only [cvX, tetra, mem_ofPred_eq]
    constructor
    · rintro ⟨h1, h2, h3, h4⟩
      refine ⟨p.x / 6, p.y / 6, p.z / 6, by positivity, by positivity, by positivity, by linarith, ?_⟩
      apply V3.ext' <;> simp <;> ring
    · rintro ⟨u, v, w, h1, h2, h3, h4, rfl⟩
      simp
      exact ⟨by linarith, by linarith, by linarith, by linarith⟩
  rw [this]
  exact tetra_solid _ _

theorem ae_ne (l : ((ℝ × ℝ) × ℝ) →ₗ[ℝ] ℝ) (q : (ℝ × ℝ) × ℝ) (h : l q ≠ 0) : ∀ᵐ q : (ℝ × ℝ) × ℝ, l q ≠ 0 := by
  have h3 : (MeasureTheory.volume : Measure ((ℝ × ℝ) × ℝ)).IsAddHaarMeasure :=
    Measure.prod.instIsAddHaarMeasure (MeasureTheory.volume : Measure (ℝ × ℝ)) (MeasureTheory.volume : Measure ℝ)
  have := Measure.addHaar_submodule (MeasureTheory.volume : Measure ((ℝ × ℝ) × ℝ)) (LinearMap.ker l) (by
    intro e
    have : q ∈ LinearMap.ker l := by rw [e]; trivial
    exact h this)
  filter_upwards [measure_eq_zero_iff_ae_notMem.1 this] with q hq
  exact hq

theorem cv_count {x y z : ℝ} (n1 : x ≠ y) (n2 : x ≠ z) (n3 : y ≠ z) :
    (if 0 ≤ z ∧ z ≤ x ∧ z ≤ y ∧ x + y + z ≤ 6 then (1 : ℝ) else 0) + ((if 0 ≤ x ∧ x ≤ y ∧ x ≤ z ∧ x + y + z ≤ 6 then 1 else 0) +
      (if 0 ≤ y ∧ y ≤ z ∧ y ≤ x ∧ x + y + z ≤ 6 then 1 else 0)) = if 0 ≤ x ∧ 0 ≤ y ∧ 0 ≤ z ∧ x + y + z ≤ 6 then 1 else 0 := by
  by_cases h6 : x + y + z ≤ 6
  swap
  · simp [h6]
  simp only [h6, and_true]
  have hm : (x < y ∧ x < z) ∨ (y < x ∧ y < z) ∨ (z < x ∧ z < y) := by
    rcases lt_or_gt_of_ne n1 with a | a <;> rcases lt_or_gt_of_ne n2 with b | b <;> rcases lt_or_gt_of_ne n3 with c | c <;>
      first | exact .inl ⟨by linarith, by linarith⟩ | exact .inr (.inl ⟨by linarith, by linarith⟩) | exact .inr (.inr ⟨by linarith, by linarith⟩)
  rcases hm with ⟨a, b⟩ | ⟨a, b⟩ | ⟨a, b⟩
  · rw [if_neg fun h => absurd h.2.1 (not_le.2 b), if_neg fun h : 0 ≤ y ∧ y ≤ z ∧ y ≤ x => absurd h.2.2 (not_le.2 a)]
    by_cases h : 0 ≤ x
    · rw [if_pos ⟨h, a.le, b.le⟩, if_pos ⟨h, by linarith, by linarith⟩]; norm_num
    · rw [if_neg fun k => h k.1, if_neg fun k => h k.1]; norm_num
  · rw [if_neg fun h : 0 ≤ z ∧ z ≤ x ∧ z ≤ y => absurd h.2.2 (not_le.2 b), if_neg fun h : 0 ≤ x ∧ x ≤ y ∧ x ≤ z => absurd h.2.1 (not_le.2 a)]
    by_cases h : 0 ≤ y
    · rw [if_pos ⟨h, b.le, a.le⟩, if_pos ⟨by linarith, h, by linarith⟩]; norm_num
    · rw [if_neg fun k => h k.1, if_neg fun k => h k.2.1]; norm_num
  · rw [if_neg fun h : 0 ≤ x ∧ x ≤ y ∧ x ≤ z => absurd h.2.2 (not_le.2 a), if_neg fun h : 0 ≤ y ∧ y ≤ z ∧ y ≤ x => absurd h.2.1 (not_le.2 b)]
    by_cases h : 0 ≤ z
    · rw [if_pos ⟨h, a.le, b.le⟩, if_pos ⟨by linarith, by linarith, h⟩]; norm_num
    · rw [if_neg fun k => h k.1, if_neg fun k => h k.2.2]; norm_num

theorem cv_encloses : Encloses (cvPs.flatMap fan) 0 cvX := by
  have n1 := ae_ne (LinearMap.fst ℝ ℝ ℝ ∘ₗ LinearMap.fst ℝ (ℝ × ℝ) ℝ - LinearMap.snd ℝ ℝ ℝ ∘ₗ LinearMap.fst ℝ (ℝ × ℝ) ℝ) ((1, 0), 0) (by simp)
  have n2 := ae_ne (LinearMap.fst ℝ ℝ ℝ ∘ₗ LinearMap.fst ℝ (ℝ × ℝ) ℝ - LinearMap.snd ℝ (ℝ × ℝ) ℝ) ((1, 0), 0) (by simp)
  have n3 := ae_ne (LinearMap.snd ℝ ℝ ℝ ∘ₗ LinearMap.fst ℝ (ℝ × ℝ) ℝ - LinearMap.snd ℝ (ℝ × ℝ) ℝ) ((0, 1), 0) (by simp)
  have eT : cvPs.flatMap fan = [(⟨6, 0, 0⟩, ⟨0, 6, 0⟩, ⟨2, 2, 2⟩), (⟨0, 6, 0⟩, ⟨0, 0, 6⟩, ⟨2, 2, 2⟩), (⟨0, 0, 6⟩, ⟨6, 0, 0⟩, ⟨2, 2, 2⟩),
      (⟨0, 6, 0⟩, ⟨6, 0, 0⟩, ⟨2, 2, 0⟩), (⟨6, 0, 0⟩, ⟨0, 0, 0⟩, ⟨2, 2, 0⟩), (⟨0, 0, 0⟩, ⟨0, 6, 0⟩, ⟨2, 2, 0⟩),
      (⟨0, 0, 6⟩, ⟨0, 6, 0⟩, ⟨0, 2, 2⟩), (⟨0, 6, 0⟩, ⟨0, 0, 0⟩, ⟨0, 2, 2⟩), (⟨0, 0, 0⟩, ⟨0, 0, 6⟩, ⟨0, 2, 2⟩),
      (⟨6, 0, 0⟩, ⟨0, 0, 6⟩, ⟨2, 0, 2⟩), (⟨0, 0, 6⟩, ⟨0, 0, 0⟩, ⟨2, 0, 2⟩), (⟨0, 0, 0⟩, ⟨6, 0, 0⟩, ⟨2, 0, 2⟩)] := by
    have m : ∀ a b c : V3 ℝ, mean [a, b, c] = ⟨(a.x + b.x + c.x) / 3, (a.y + b.y + c.y) / 3, (a.z + b.z + c.z) / 3⟩ := by
      intro a b c
      apply V3.ext' <;> simp [mean] <;> ring
    simp only [cvPs, List.flatMap_cons, List.flatMap_nil, fan, m]
    norm_num [polySides]
  have t1 : ∀ x y z : ℝ, (⟨x, y, z⟩ : V3 ℝ) ∈ tetra 0 (⟨6, 0, 0⟩, ⟨0, 6, 0⟩, ⟨2, 2, 2⟩) ↔ 0 ≤ z ∧ z ≤ x ∧ z ≤ y ∧ x + y + z ≤ 6 := by
    intro x y z
    simp only [tetra, mem_ofPred_eq]
    constructor
    · rintro ⟨u, v, w, h1, h2, h3, h4, e⟩
      obtain ⟨e1, e2, e3⟩ := V3.mk.inj e
      simp at e1 e2 e3
      refine ⟨?_, ?_, ?_, ?_⟩ <;> linarith
    · rintro ⟨h1, h2, h3, h4⟩
      refine ⟨(x - z) / 6, (y - z) / 6, z / 2, by linarith, by linarith, by linarith, by linarith, ?_⟩
      apply V3.ext' <;> simp <;> ring
  have t2 : ∀ x y z : ℝ, (⟨x, y, z⟩ : V3 ℝ) ∈ tetra 0 (⟨0, 6, 0⟩, ⟨0, 0, 6⟩, ⟨2, 2, 2⟩) ↔ 0 ≤ x ∧ x ≤ y ∧ x ≤ z ∧ x + y + z ≤ 6 := by
    intro x y z
    simp only [tetra, mem_ofPred_eq]
    constructor
    · rintro ⟨u, v, w, h1, h2, h3, h4, e⟩
      obtain ⟨e1, e2, e3⟩ := V3.mk.inj e
      simp at e1 e2 e3
      refine ⟨?_, ?_, ?_, ?_⟩ <;> linarith
    · rintro ⟨h1, h2, h3, h4⟩
      refine ⟨(y - x) / 6, (z - x) / 6, x / 2, by linarith, by linarith, by linarith, by linarith, ?_⟩
      apply V3.ext' <;> simp <;> ring
  have t3 : ∀ x y z : ℝ, (⟨x, y, z⟩ : V3 ℝ) ∈ tetra 0 (⟨0, 0, 6⟩, ⟨6, 0, 0⟩, ⟨2, 2, 2⟩) ↔ 0 ≤ y ∧ y ≤ z ∧ y ≤ x ∧ x + y + z ≤ 6 := by
    intro x y z
    simp only [tetra, mem_ofPred_eq]
    constructor
    · rintro ⟨u, v, w, h1, h2, h3, h4, e⟩
      obtain ⟨e1, e2, e3⟩ := V3.mk.inj e
      simp at e1 e2 e3
      refine ⟨?_, ?_, ?_, ?_⟩ <;> linarith
    · rintro ⟨h1, h2, h3, h4⟩
      refine ⟨(z - y) / 6, (x - y) / 6, y / 2, by linarith, by linarith, by linarith, by linarith, ?_⟩
      apply V3.ext' <;> simp <;> ring
  rw [Encloses, eT]
  filter_upwards [n1, n2, n3] with q n1 n2 n3
  obtain ⟨⟨x, y⟩, z⟩ := q
  simp [sub_eq_zero] at n1 n2 n3
  norm_num [orient, V3.cross, V3.dot]
  rw [Real.sign_of_pos (show (0 : ℝ) < 72 by norm_num)]
  refine Eq.trans ?_ ((cv_count n1 n2 n3).trans ?_)
  · simp only [toV, t1, t2, t3]
  · by_cases h : 0 ≤ x ∧ 0 ≤ y ∧ 0 ≤ z ∧ x + y + z ≤ 6
    · rw [if_pos h, if_pos (show toV ((x, y), z) ∈ cvX from h)]
    · rw [if_neg h, if_neg (show ¬ toV ((x, y), z) ∈ cvX from h)]

/-- **C109 (part).** What a `Convex` returns as its inertia is not the inertia for density 1, and what it returns as its inertia about
the centre of mass has a negative entry on its diagonal, as no inertia has for any density. -/
theorem C109_violated_convex : ∃ (vs : List (V3 ℝ)) (faces : List ℕ) (Ps : List Polygon) (X : Set (V3 ℝ)), Lists vs faces Ps ∧ NoBorderP Ps ∧
    Solid X ∧ Encloses (Ps.flatMap fan) 0 X ∧ (0 < over X fun _ => 1) ∧
    ¬ IsInertia X ⟨0, 0, 0⟩ (convexInertia vs Ps.length faces) ∧
    (aboutCOM (convexInertia vs Ps.length faces) (convexCOM vs Ps.length faces) (convexVolume vs Ps.length faces)).r0.x < 0 := by
  have hvol : convexVolume cvVs cvPs.length cvFaces = 36 := by
    norm_num [convexVolume, convexLoop, faceLoop, faceCenter, cvVs, cvPs, cvFaces, List.range_succ, volStep, sixVol, V3.cross, V3.dot]
  have hv : 0 < over cvX fun _ => 1 := by
    rw [← C109_convex_volume cv_lists cv_noBorder cv_solid cv_encloses, hvol]; norm_num
  have hI : (convexInertia cvVs cvPs.length cvFaces).r0.x = 36 / 5 := by
    norm_num [convexInertia, convexLoop, faceLoop, faceCenter, cvVs, cvPs, cvFaces, List.range_succ, volStep, covStep, sixVol, V3.cross, V3.dot,
      fromCov, madd, mscale, canonical, M3.mul, M3.tr, M3.col, M3.row, V3.get]
  have hcy : (convexCOM cvVs cvPs.length cvFaces).y = 3 / 2 := by
    norm_num [convexCOM, convexLoop, faceLoop, faceCenter, cvVs, cvPs, cvFaces, List.range_succ, comStep, sixVol, V3.cross, V3.dot]
  have hcz : (convexCOM cvVs cvPs.length cvFaces).z = 3 / 2 := by
    norm_num [convexCOM, convexLoop, faceLoop, faceCenter, cvVs, cvPs, cvFaces, List.range_succ, comStep, sixVol, V3.cross, V3.dot]
  refine ⟨cvVs, cvFaces, cvPs, cvX, cv_lists, cv_noBorder, cv_solid, cv_encloses, hv, ?_, ?_⟩
  · intro h
    have h1 := h.xx
    have h2 := (C109_convex_inertia cv_lists cv_noBorder cv_solid cv_encloses hv).xx
    rw [← h1] at h2
    simp only [mscale, V3.smul_x, hvol, hI] at h2
    norm_num at h2
  · simp only [aboutCOM, hvol, hI, hcy, hcz]
    norm_num

end Mass
end Fcl
