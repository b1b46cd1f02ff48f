import Verif.Flat.Model
import Verif.Flat.Spec
import Verif.Geom.BVLemmas
import Verif.Geom.Thick
import Verif.Geom.Rotation
import Verif.Props.Support

/-!
# Half-spaces and planes: support points decide the queries
-/

namespace Fcl
namespace Flat
open ComputeBV (transform)
open V3

/-- The half-space and the plane in the world. -/
def HS (h : V3 ℝ × ℝ) : Set (V3 ℝ) := {x | h.1.dot x ≤ h.2}
@[inherit_doc HS] def PL (h : V3 ℝ × ℝ) : Set (V3 ℝ) := {x | h.1.dot x = h.2}

theorem mem_HS {h : V3 ℝ × ℝ} {x : V3 ℝ} : x ∈ HS h ↔ h.1.dot x ≤ h.2 := Iff.rfl
theorem mem_PL {h : V3 ℝ × ℝ} {x : V3 ℝ} : x ∈ PL h ↔ h.1.dot x = h.2 := Iff.rfl

theorem transform_unit {n : V3 ℝ} {d : ℝ} {X : Pose ℝ} (hX : X.Rigid) (hn : n.dot n = 1) :
    (transform n d X).1.dot (transform n d X).1 = 1 := by
  rw [transform_eq hX hn, M3.Orthonormal.dot hX, hn]

theorem placed_halfspace {n : V3 ℝ} {d : ℝ} {X : Pose ℝ} (hX : X.Rigid) (hn : n.dot n = 1) :
    Placed X.R X.t (Geo.halfspace n d).pts = HS (transform n d X) := by
  rw [transform_eq hX hn]
  ext x
  constructor
  · rintro ⟨p, hp, rfl⟩
    have hp' : n.dot p ≤ d := hp
    have := transform_dot (n := n) (d := d) hX p
    rw [mem_HS]
    simp only [Pose.apply] at this
    simp only
    linarith
  · intro h
    rw [mem_HS] at h
    refine ⟨X.inv.apply x, ?_, ?_⟩
    · have := transform_dot (n := n) (d := d) hX (X.inv.apply x)
      rw [Pose.apply_inv hX] at this
      show n.dot (X.inv.apply x) ≤ d
      simp only at h
      linarith
    · exact (Pose.apply_inv hX x).symm

theorem placed_plane {n : V3 ℝ} {d : ℝ} {X : Pose ℝ} (hX : X.Rigid) (hn : n.dot n = 1) :
    Placed X.R X.t (Geo.plane n d).pts = PL (transform n d X) := by
  rw [transform_eq hX hn]
  ext x
  constructor
  · rintro ⟨p, hp, rfl⟩
    have hp' : n.dot p = d := hp
    have := transform_dot (n := n) (d := d) hX p
    rw [mem_PL]
    simp only [Pose.apply] at this
    simp only
    linarith
  · intro h
    rw [mem_PL] at h
    refine ⟨X.inv.apply x, ?_, ?_⟩
    · have := transform_dot (n := n) (d := d) hX (X.inv.apply x)
      rw [Pose.apply_inv hX] at this
      show n.dot (X.inv.apply x) = d
      simp only at h
      linarith
    · exact (Pose.apply_inv hX x).symm

/-- The half-space in the frame of the other shape. -/
theorem transform_rel {n : V3 ℝ} {d : ℝ} {X1 X2 : Pose ℝ} (h1 : X1.Rigid) (h2 : X2.Rigid) (hn : n.dot n = 1) :
    transform n d (X1.inv.mul X2) =
      (X1.R.tr.mulVec (transform n d X2).1, (transform n d X2).2 - (transform n d X2).1.dot X1.t) := by
  have hr : (X1.inv.mul X2).Rigid := M3.Orthonormal.mul (M3.Orthonormal.tr h1) h2
  rw [transform_eq hr hn, transform_eq h2 hn]
  have e : (X1.inv.mul X2).R.mulVec n = X1.R.tr.mulVec (X2.R.mulVec n) := M3.mul_mulVec _ _ _
  rw [e]
  ext1
  · rfl
  · simp only
    rw [Pose.inv_mul_t, show X1.inv.apply X2.t = X1.R.tr.mulVec (X2.t - X1.t) from by
      rw [M3.mulVec_sub]; simp only [Pose.apply, Pose.inv]; v3]
    rw [M3.Orthonormal.dot (M3.Orthonormal.tr h1), dot_sub]
    ring

theorem support_placed {S : Set (V3 ℝ)} {X : Pose ℝ} {d p : V3 ℝ} (h : IsSupport S (X.R.tr.mulVec d) p) :
    IsSupport (Placed X.R X.t S) d (X.apply p) := by
  have := IsSupportUpTo.placed (X := X) h.upTo
  exact ⟨this.1, fun q hq => by have := this.2 q hq; linarith⟩

theorem neg_unit {n : V3 ℝ} (hn : n.dot n = 1) : (-n).len = 1 := by
  rw [len_eq, nrm_neg]; exact nrm_unique zero_le_one (by linarith)
theorem unit_len {n : V3 ℝ} (hn : n.dot n = 1) : n.len = 1 := by
  rw [len_eq]; exact nrm_unique zero_le_one (by linarith)
theorem abs_dot_le {n t : V3 ℝ} (hn : n.dot n = 1) : |n.dot t| ≤ t.len := by
  have h1 : n.nrm = 1 := nrm_unique zero_le_one (by linarith)
  have h2 := dot_le n t
  have h3 := dot_le n (-t)
  rw [dot_neg, nrm_neg] at h3
  rw [h1, one_mul] at h2 h3
  rw [len_eq]
  exact abs_le.2 ⟨by linarith, h2⟩

theorem hit_none {A B : Set (V3 ℝ)} {b : Bool} {P : CPoint → Prop} (h : b = true ↔ Touch A B) : HitSpec A B none (b, none) P :=
  ⟨h, fun _ => rfl, fun _ => rfl, fun _ l hl => by cases hl⟩

/-! ### A half-space -/

theorem hs_touch {A : Set (V3 ℝ)} {h : V3 ℝ × ℝ} {p : V3 ℝ} (hp : IsSupport A (-h.1) p) : Touch A (HS h) ↔ h.1.dot p ≤ h.2 := by
  constructor
  · rintro ⟨q, hq, hh⟩
    have := hp.2 q hq
    rw [neg_dot, neg_dot] at this
    rw [mem_HS] at hh
    linarith
  · exact fun hh => ⟨p, hp.1, hh⟩

theorem hs_moved {h : V3 ℝ × ℝ} {t x : V3 ℝ} : x ∈ Moved (HS h) t ↔ h.1.dot x ≤ h.2 + h.1.dot t := by
  constructor
  · rintro ⟨y, hy, rfl⟩
    rw [mem_HS] at hy
    rw [dot_add]; linarith
  · intro hx
    refine ⟨x - t, ?_, by v3⟩
    rw [mem_HS, dot_sub]; linarith

theorem hs_separates {A : Set (V3 ℝ)} {h : V3 ℝ × ℝ} (hn : h.1.dot h.1 = 1) {p : V3 ℝ} (hp : IsSupport A (-h.1) p) :
    SeparatesAlong A (HS h) (-h.1) (h.2 - h.1.dot p) := by
  refine ⟨neg_unit hn, ?_⟩
  rintro e he ⟨q, hq, hm⟩
  have e' : (⟨(h.2 - h.1.dot p + e) * (-h.1).x, (h.2 - h.1.dot p + e) * (-h.1).y, (h.2 - h.1.dot p + e) * (-h.1).z⟩ : V3 ℝ) =
    (h.2 - h.1.dot p + e) • (-h.1) := rfl
  rw [e', hs_moved, dot_smul, dot_neg, hn] at hm
  have := hp.2 q hq
  rw [neg_dot, neg_dot] at this
  linarith

theorem hs_depth {A : Set (V3 ℝ)} {h : V3 ℝ × ℝ} (hn : h.1.dot h.1 = 1) {p : V3 ℝ} (hp : IsSupport A (-h.1) p)
    (hd : h.1.dot p ≤ h.2) : IsDepth A (HS h) (h.2 - h.1.dot p) := by
  refine isDepth_of (by linarith) (hs_separates hn hp) ?_
  intro t ht
  refine ⟨p, hp.1, ?_⟩
  rw [hs_moved]
  have := (abs_le.1 (abs_dot_le (t := t) hn)).1
  linarith

theorem hs_contact {A : Set (V3 ℝ)} {h : V3 ℝ × ℝ} (hn : h.1.dot h.1 = 1) {p : V3 ℝ} (hp : IsSupport A (-h.1) p)
    (hd : h.1.dot p ≤ h.2) {pos : V3 ℝ} {depth : ℝ} (he : depth = h.2 - h.1.dot p) (hpos : pos = p + (depth / 2) • h.1) :
    HalfspaceContact A (HS h) ⟨-h.1, pos, depth⟩ := by
  subst he
  refine ⟨hs_depth hn hp hd, hs_separates hn hp, ⟨p, hp.1, fun q hq => by rw [add_zero]; exact hp.2 q hq, ?_⟩, ?_⟩
  · simp only [hpos]; v3
  · simp only [hpos]
    rw [mem_HS, dot_add, dot_smul, hn]
    linarith

/-- The common form of the functions for half-spaces. -/
theorem hs_hit {A : Set (V3 ℝ)} {h : V3 ℝ × ℝ} {contacts : Option (List CPoint)} {o : HitOut} {p : V3 ℝ} {k : CPoint}
    {P : CPoint → Prop} (hp : IsSupport A (-h.1) p) (hhit : h.1.dot p ≤ h.2 → o = (true, push contacts k))
    (hmiss : h.2 < h.1.dot p → o = (false, contacts)) (hP : h.1.dot p ≤ h.2 → P k) : HitSpec A (HS h) contacts o P := by
  rcases le_or_gt (h.1.dot p) h.2 with hc | hc
  · rw [hhit hc]
    refine ⟨by simp [hs_touch hp, hc], fun h => (by cases h), fun h => by rw [h]; rfl, ?_⟩
    rintro - l rfl
    exact ⟨k, rfl, hP hc⟩
  · rw [hmiss hc]
    refine ⟨?_, fun _ => rfl, fun h => h, fun h => by cases h⟩
    rw [hs_touch hp]
    simp [hc]

/-! ### A plane -/

theorem pl_moved {h : V3 ℝ × ℝ} {t x : V3 ℝ} : x ∈ Moved (PL h) t ↔ h.1.dot x = h.2 + h.1.dot t := by
  constructor
  · rintro ⟨y, hy, rfl⟩
    rw [mem_PL] at hy
    rw [dot_add]; linarith
  · intro hx
    refine ⟨x - t, ?_, by v3⟩
    rw [mem_PL, dot_sub]; linarith

/-- A convex set takes all values between its extreme ones. -/
theorem between_extremes {A : Set (V3 ℝ)} (hA : ConvexSet A) {n p q : V3 ℝ} (hp : p ∈ A) (hq : q ∈ A) {c : ℝ}
    (h1 : n.dot p ≤ c) (h2 : c ≤ n.dot q) : ∃ x ∈ A, n.dot x = c := by
  rcases eq_or_lt_of_le (h1.trans h2) with he | hl
  · exact ⟨p, hp, by linarith⟩
  · have hd : 0 < n.dot q - n.dot p := by linarith
    refine ⟨_, hA p hp q hq ((c - n.dot p) / (n.dot q - n.dot p)) (div_nonneg (by linarith) hd.le)
      ((div_le_one hd).2 (by linarith)), ?_⟩
    rw [dot_add, dot_smul, dot_smul]
    field_simp
    ring

theorem pl_touch {A : Set (V3 ℝ)} (hA : ConvexSet A) {h : V3 ℝ × ℝ} {p q : V3 ℝ} (hp : IsSupport A (-h.1) p)
    (hq : IsSupport A h.1 q) : Touch A (PL h) ↔ h.1.dot p ≤ h.2 ∧ h.2 ≤ h.1.dot q := by
  constructor
  · rintro ⟨x, hx, hh⟩
    have h1 := hp.2 x hx
    have h2 := hq.2 x hx
    rw [neg_dot, neg_dot] at h1
    rw [mem_PL] at hh
    constructor <;> linarith
  · rintro ⟨h1, h2⟩
    obtain ⟨x, hx, e⟩ := between_extremes hA hp.1 hq.1 h1 h2
    exact ⟨x, hx, e⟩

theorem pl_separates_down {A : Set (V3 ℝ)} {h : V3 ℝ × ℝ} (hn : h.1.dot h.1 = 1) {p : V3 ℝ} (hp : IsSupport A (-h.1) p) :
    SeparatesAlong A (PL h) (-h.1) (h.2 - h.1.dot p) := by
  refine ⟨neg_unit hn, ?_⟩
  rintro e he ⟨q, hq, hm⟩
  have e' : (⟨(h.2 - h.1.dot p + e) * (-h.1).x, (h.2 - h.1.dot p + e) * (-h.1).y, (h.2 - h.1.dot p + e) * (-h.1).z⟩ : V3 ℝ) =
    (h.2 - h.1.dot p + e) • (-h.1) := rfl
  rw [e', pl_moved, dot_smul, dot_neg, hn] at hm
  have := hp.2 q hq
  rw [neg_dot, neg_dot] at this
  linarith

theorem pl_separates_up {A : Set (V3 ℝ)} {h : V3 ℝ × ℝ} (hn : h.1.dot h.1 = 1) {q : V3 ℝ} (hq : IsSupport A h.1 q) :
    SeparatesAlong A (PL h) h.1 (h.1.dot q - h.2) := by
  refine ⟨unit_len hn, ?_⟩
  rintro e he ⟨x, hx, hm⟩
  have e' : (⟨(h.1.dot q - h.2 + e) * h.1.x, (h.1.dot q - h.2 + e) * h.1.y, (h.1.dot q - h.2 + e) * h.1.z⟩ : V3 ℝ) =
    (h.1.dot q - h.2 + e) • h.1 := rfl
  rw [e', pl_moved, dot_smul, hn] at hm
  have := hq.2 x hx
  linarith

theorem pl_keep {A : Set (V3 ℝ)} (hA : ConvexSet A) {h : V3 ℝ × ℝ} (hn : h.1.dot h.1 = 1) {p q : V3 ℝ} (hp : p ∈ A)
    (hq : q ∈ A) {e : ℝ} (h1 : e ≤ h.2 - h.1.dot p) (h2 : e ≤ h.1.dot q - h.2) (t : V3 ℝ) (ht : t.len < e) :
    Touch A (Moved (PL h) t) := by
  have := abs_le.1 (abs_dot_le (t := t) hn)
  obtain ⟨x, hx, e⟩ := between_extremes hA hp hq (n := h.1) (c := h.2 + h.1.dot t) (by linarith) (by linarith)
  exact ⟨x, hx, pl_moved.2 e⟩

theorem pl_contact {A : Set (V3 ℝ)} (hA : ConvexSet A) {h : V3 ℝ × ℝ} (hn : h.1.dot h.1 = 1) {p q : V3 ℝ}
    (hp : IsSupport A (-h.1) p) (hq : IsSupport A h.1 q) {n pos : V3 ℝ} {depth : ℝ} (h0 : 0 ≤ depth)
    (hd : (n = -h.1 ∧ depth = h.2 - h.1.dot p ∧ depth ≤ h.1.dot q - h.2) ∨
      (n = h.1 ∧ depth = h.1.dot q - h.2 ∧ depth ≤ h.2 - h.1.dot p)) (hpos : h.1.dot pos = h.2) :
    PlaneContact A (PL h) ⟨n, pos, depth⟩ := by
  have hs : SeparatesAlong A (PL h) n depth := by
    rcases hd with ⟨rfl, rfl, -⟩ | ⟨rfl, rfl, -⟩
    · exact pl_separates_down hn hp
    · exact pl_separates_up hn hq
  refine ⟨isDepth_of h0 hs ?_, hs, hpos⟩
  rcases hd with ⟨-, e, l⟩ | ⟨-, e, l⟩
  · exact pl_keep hA hn hp.1 hq.1 e.le l
  · exact pl_keep hA hn hp.1 hq.1 l e.le

/-- The common form of the functions for planes. -/
theorem pl_hit {A : Set (V3 ℝ)} (hA : ConvexSet A) {h : V3 ℝ × ℝ} {contacts : Option (List CPoint)} {o : HitOut} {p q : V3 ℝ}
    {k : CPoint} {P : CPoint → Prop} (hp : IsSupport A (-h.1) p) (hq : IsSupport A h.1 q)
    (hhit : h.1.dot p ≤ h.2 → h.2 ≤ h.1.dot q → o = (true, push contacts k))
    (hmiss : h.2 < h.1.dot p ∨ h.1.dot q < h.2 → o = (false, contacts))
    (hP : h.1.dot p ≤ h.2 → h.2 ≤ h.1.dot q → P k) : HitSpec A (PL h) contacts o P := by
  by_cases hc : h.1.dot p ≤ h.2 ∧ h.2 ≤ h.1.dot q
  · rw [hhit hc.1 hc.2]
    refine ⟨by simp [pl_touch hA hp hq, hc], fun h => (by cases h), fun h => by rw [h]; rfl, ?_⟩
    rintro - l rfl
    exact ⟨k, rfl, hP hc.1 hc.2⟩
  · rw [hmiss (by rw [not_and_or, not_le, not_le] at hc; exact hc)]
    refine ⟨?_, fun _ => rfl, fun h => h, fun h => by cases h⟩
    rw [pl_touch hA hp hq]
    simpa using hc

end Flat
end Fcl
