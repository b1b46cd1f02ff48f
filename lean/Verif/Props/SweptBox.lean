import Verif.Motion.SweptBox
import Verif.Motion.Lemmas
import Verif.Props.Taylor
import Verif.Props.TaylorTight
import Verif.Props.Motion
import Verif.Props.AABB

/-!
# C112: the box of a moving object
-/

namespace Fcl.Motion
open V3

/-- Where an object with the local box `b` may be during the motion. -/
def Swept (m : Motion) (b : AABB ℝ) : Set (V3 ℝ) := {q | ∃ t, 0 ≤ t ∧ t ≤ 1 ∧ ∃ p ∈ b.pts, q = (m.integrate t).tf.apply p}

/-! ### The eight corners -/

theorem ivBound_le (a b : Iv ℝ) : (a.bound b).lo ≤ a.lo ∧ (a.bound b).lo ≤ b.lo ∧ a.hi ≤ (a.bound b).hi ∧ b.hi ≤ (a.bound b).hi := by
  unfold Iv.bound
  refine ⟨?_, ?_, ?_, ?_⟩ <;> dsimp only <;> split_ifs <;> linarith

theorem ivBound_cases (a b : Iv ℝ) : ((a.bound b).lo = a.lo ∨ (a.bound b).lo = b.lo) ∧ ((a.bound b).hi = a.hi ∨ (a.bound b).hi = b.hi) := by
  unfold Iv.bound
  refine ⟨?_, ?_⟩ <;> dsimp only <;> split_ifs <;> simp

theorem ivBound_sub (a b : IVec ℝ) : a.set ⊆ (a.bound b).set ∧ b.set ⊆ (a.bound b).set := by
  constructor
  all_goals
    rintro v ⟨⟨x1, x2⟩, ⟨y1, y2⟩, z1, z2⟩
    obtain ⟨p1, p2, p3, p4⟩ := ivBound_le a.x b.x
    obtain ⟨q1, q2, q3, q4⟩ := ivBound_le a.y b.y
    obtain ⟨r1, r2, r3, r4⟩ := ivBound_le a.z b.z
    refine ⟨⟨?_, ?_⟩, ⟨?_, ?_⟩, ?_, ?_⟩ <;> simp only [IVec.bound] <;> linarith

theorem fold_sub (f : V3 ℝ → IVec ℝ) (l : List (V3 ℝ)) (a : IVec ℝ) :
    a.set ⊆ (l.foldl (fun box p => box.bound (f p)) a).set ∧ ∀ p ∈ l, (f p).set ⊆ (l.foldl (fun box p => box.bound (f p)) a).set := by
  induction l generalizing a with
  | nil => exact ⟨fun _ h => h, by simp⟩
  | cons x l ih =>
    obtain ⟨i1, i2⟩ := ih (a.bound (f x))
    obtain ⟨s1, s2⟩ := ivBound_sub a (f x)
    refine ⟨fun v h => i1 (s1 h), fun p hp => ?_⟩
    rcases List.mem_cons.1 hp with rfl | hp
    · exact fun v h => i1 (s2 h)
    · exact i2 p hp

/-- Every end of the folded box is an end of one of the boxes. -/
theorem fold_ends (g : IVec ℝ → Iv ℝ) (hg : ∀ a b : IVec ℝ, g (a.bound b) = (g a).bound (g b)) (f : V3 ℝ → IVec ℝ) (l : List (V3 ℝ)) (x : V3 ℝ) :
    (∃ p ∈ x :: l, (g (l.foldl (fun box p => box.bound (f p)) (f x))).lo = (g (f p)).lo) ∧
    ∃ p ∈ x :: l, (g (l.foldl (fun box p => box.bound (f p)) (f x))).hi = (g (f p)).hi := by
  have key : ∀ (l : List (V3 ℝ)) (a : IVec ℝ) (S : List (V3 ℝ)), (∃ p ∈ S, (g a).lo = (g (f p)).lo) → (∃ p ∈ S, (g a).hi = (g (f p)).hi) →
      (∃ p ∈ S ++ l, (g (l.foldl (fun box p => box.bound (f p)) a)).lo = (g (f p)).lo) ∧
      ∃ p ∈ S ++ l, (g (l.foldl (fun box p => box.bound (f p)) a)).hi = (g (f p)).hi := by
    intro l
    induction l with
    | nil => intro a S h1 h2; simpa using ⟨h1, h2⟩
    | cons y l ih =>
      intro a S ⟨p, hp, e1⟩ ⟨q, hq, e2⟩
      obtain ⟨c1, c2⟩ := ivBound_cases (g a) (g (f y))
      have := ih (a.bound (f y)) (S ++ [y]) ?_ ?_
      · simpa using this
      · rw [hg]
        rcases c1 with c | c
        · exact ⟨p, by simp [hp], c.trans e1⟩
        · exact ⟨y, by simp, c⟩
      · rw [hg]
        rcases c2 with c | c
        · exact ⟨q, by simp [hq], c.trans e2⟩
        · exact ⟨y, by simp, c⟩
  simpa using key l (f x) [x] ⟨x, by simp, rfl⟩ ⟨x, by simp, rfl⟩

theorem corner_mem {b : AABB ℝ} (hb : b.Valid) : ∀ p ∈ b.lo :: otherCorners b, p ∈ b.pts := by
  obtain ⟨h1, h2, h3⟩ := hb
  intro p hp
  simp only [otherCorners, List.mem_cons, List.not_mem_nil, or_false] at hp
  rcases hp with rfl | rfl | rfl | rfl | rfl | rfl | rfl | rfl <;> exact ⟨⟨by simp [h1], by simp [h1]⟩, ⟨by simp [h2], by simp [h2]⟩, by simp [h3], by simp [h3]⟩

theorem seg_le {L a b x k c : ℝ} (h1 : a ≤ x) (h2 : x ≤ b) (ha : L ≤ k * a + c) (hb : L ≤ k * b + c) : L ≤ k * x + c := by
  rcases le_total 0 k with h | h
  · nlinarith [mul_le_mul_of_nonneg_left h1 h]
  · nlinarith [mul_le_mul_of_nonpos_left h2 h]

theorem le_seg {L a b x k c : ℝ} (h1 : a ≤ x) (h2 : x ≤ b) (ha : k * a + c ≤ L) (hb : k * b + c ≤ L) : k * x + c ≤ L := by
  have := seg_le (L := -L) (k := -k) (c := -c) h1 h2 (by linarith) (by linarith)
  linarith

/-- An affine function is bounded on a box by its values at the corners. -/
theorem affine_bounds {b : AABB ℝ} {r : V3 ℝ} {c : ℝ} {i : Iv ℝ} (h : ∀ p ∈ b.lo :: otherCorners b, r.dot p + c ∈ i.set) {p : V3 ℝ} (hp : p ∈ b.pts) :
    r.dot p + c ∈ i.set := by
  obtain ⟨⟨x1, x2⟩, ⟨y1, y2⟩, z1, z2⟩ := hp
  simp only [otherCorners, List.mem_cons, List.not_mem_nil, or_false, forall_eq_or_imp, forall_eq, Iv.set, Set.mem_Icc, V3.dot] at h ⊢
  obtain ⟨⟨l1, u1⟩, ⟨l2, u2⟩, ⟨l3, u3⟩, ⟨l4, u4⟩, ⟨l5, u5⟩, ⟨l6, u6⟩, ⟨l7, u7⟩, l8, u8⟩ := h
  constructor
  · have s1 := seg_le z1 z2 (k := r.z) (c := r.x * b.lo.x + r.y * b.lo.y + c) (L := i.lo) (by linarith) (by linarith)
    have s2 := seg_le z1 z2 (k := r.z) (c := r.x * b.lo.x + r.y * b.hi.y + c) (L := i.lo) (by linarith) (by linarith)
    have s3 := seg_le z1 z2 (k := r.z) (c := r.x * b.hi.x + r.y * b.lo.y + c) (L := i.lo) (by linarith) (by linarith)
    have s4 := seg_le z1 z2 (k := r.z) (c := r.x * b.hi.x + r.y * b.hi.y + c) (L := i.lo) (by linarith) (by linarith)
    have t1 := seg_le y1 y2 (k := r.y) (c := r.x * b.lo.x + r.z * p.z + c) (L := i.lo) (by linarith) (by linarith)
    have t2 := seg_le y1 y2 (k := r.y) (c := r.x * b.hi.x + r.z * p.z + c) (L := i.lo) (by linarith) (by linarith)
    have := seg_le x1 x2 (k := r.x) (c := r.y * p.y + r.z * p.z + c) (L := i.lo) (by linarith) (by linarith)
    linarith
  · have s1 := le_seg z1 z2 (k := r.z) (c := r.x * b.lo.x + r.y * b.lo.y + c) (L := i.hi) (by linarith) (by linarith)
    have s2 := le_seg z1 z2 (k := r.z) (c := r.x * b.lo.x + r.y * b.hi.y + c) (L := i.hi) (by linarith) (by linarith)
    have s3 := le_seg z1 z2 (k := r.z) (c := r.x * b.hi.x + r.y * b.lo.y + c) (L := i.hi) (by linarith) (by linarith)
    have s4 := le_seg z1 z2 (k := r.z) (c := r.x * b.hi.x + r.y * b.hi.y + c) (L := i.hi) (by linarith) (by linarith)
    have t1 := le_seg y1 y2 (k := r.y) (c := r.x * b.lo.x + r.z * p.z + c) (L := i.hi) (by linarith) (by linarith)
    have t2 := le_seg y1 y2 (k := r.y) (c := r.x * b.hi.x + r.z * p.z + c) (L := i.hi) (by linarith) (by linarith)
    have := le_seg x1 x2 (k := r.x) (c := r.y * p.y + r.z * p.z + c) (L := i.hi) (by linarith) (by linarith)
    linarith

theorem encl_at {R : TMat ℝ} {T : TVec ℝ} {m : Motion} (hR : EnclM 0 1 R (fun t => (m.integrate t).tf.R)) (hT : EnclV 0 1 T (fun t => (m.integrate t).tf.t))
    (p : V3 ℝ) : EnclV 0 1 ((R.mulVec p).add T) (fun t => (m.integrate t).tf.apply p) := by
  have h1 := (C59_mat hR hR M3.one p 0).2.2.2.2.2.2.2.1
  exact (C59_vec h1 hT 0 0).1

/-- **C112.** If the Taylor models of the motion enclose it, the box of the object contains the object at all times of the motion. -/
theorem C112_box {m : Motion} {R : TMat ℝ} {T : TVec ℝ} (hR : EnclM 0 1 R (fun t => (m.integrate t).tf.R))
    (hT : EnclV 0 1 T (fun t => (m.integrate t).tf.t)) (b : AABB ℝ) : ∃ box, sweptBox (some (R, T)) b = some box ∧ Swept m b ⊆ box.pts := by
  refine ⟨_, rfl, ?_⟩
  rintro q ⟨t, h0, h1, p, hp, rfl⟩
  dsimp only
  obtain ⟨s1, s2⟩ := fold_sub (fun p => ((R.mulVec p).add T).tight unitTime) (otherCorners b) (((R.mulVec b.lo).add T).tight unitTime)
  have hc : ∀ c ∈ b.lo :: otherCorners b, (m.integrate t).tf.apply c ∈
      ((otherCorners b).foldl (fun box p => box.bound (((R.mulVec p).add T).tight unitTime)) (((R.mulVec b.lo).add T).tight unitTime)).set := by
    intro c hc
    have hm := (C59_tight (encl_at hR hT c) hR (t := t) ⟨h0, h1⟩ (t0 := 0) (t1 := 1) ⟨h0, h1⟩).2.1
    rcases List.mem_cons.1 hc with rfl | hc
    · exact s1 hm
    · exact s2 c hc hm
  generalize (otherCorners b).foldl (fun box p => box.bound (((R.mulVec p).add T).tight unitTime)) (((R.mulVec b.lo).add T).tight unitTime) = B at hc ⊢
  have hx := affine_bounds (i := B.x) (r := (m.integrate t).tf.R.r0) (c := (m.integrate t).tf.t.x) (fun c h => (hc c h).1) hp
  have hy := affine_bounds (i := B.y) (r := (m.integrate t).tf.R.r1) (c := (m.integrate t).tf.t.y) (fun c h => (hc c h).2.1) hp
  have hz := affine_bounds (i := B.z) (r := (m.integrate t).tf.R.r2) (c := (m.integrate t).tf.t.z) (fun c h => (hc c h).2.2) hp
  exact ⟨hx, hy, hz⟩

/-- No remainder. -/
def NoRem (v : TVec ℝ) : Prop := v.x.r = ⟨0, 0⟩ ∧ v.y.r = ⟨0, 0⟩ ∧ v.z.r = ⟨0, 0⟩

theorem noRem_at {R : TMat ℝ} {T : TVec ℝ} (h0 : NoRem R.r0) (h1 : NoRem R.r1) (h2 : NoRem R.r2) (hT : NoRem T) (p : V3 ℝ) :
    NoRem ((R.mulVec p).add T) := by
  obtain ⟨a1, a2, a3⟩ := h0
  obtain ⟨b1, b2, b3⟩ := h1
  obtain ⟨c1, c2, c3⟩ := h2
  obtain ⟨d1, d2, d3⟩ := hT
  refine ⟨?_, ?_, ?_⟩ <;>
    simp [TMat.mulVec, TVec.add, TVec.dotV, TM.add, TM.scale, Iv.add, Iv.scale, a1, a2, a3, b1, b2, b3, c1, c2, c3, d1, d2, d3]

/-- The tight bound of a model without remainder has its ends among the values. -/
theorem tight_ends {f : TM ℝ} {g : ℝ → ℝ} (hr : f.r = ⟨0, 0⟩) (hf : Encl 0 1 f g) :
    (∃ t, 0 ≤ t ∧ t ≤ 1 ∧ (f.tight unitTime).lo = g t) ∧ ∃ t, 0 ≤ t ∧ t ≤ 1 ∧ (f.tight unitTime).hi = g t := by
  obtain ⟨c, ⟨⟨⟨t, ht, e1⟩, -⟩, ⟨u, hu, e2⟩, -⟩, e⟩ := C38_tightOn_exact f (l := 0) (r := 1) (t0 := 0) (t1 := 1) (by norm_num)
  rw [max_self, min_self] at ht hu
  have e' : f.tight unitTime = ⟨c.lo + f.r.lo, c.hi + f.r.hi⟩ := e
  rw [e', hr]
  have v : ∀ s ∈ Set.Icc (0 : ℝ) 1, g s = f.poly s := fun s hs => by
    have := hf s hs
    rw [hr] at this
    obtain ⟨h1, h2⟩ := this
    dsimp only at h1 h2
    linarith
  exact ⟨⟨t, ht.1, ht.2, by rw [v t ht, ← e1]; simp⟩, u, hu.1, hu.2, by rw [v u hu, ← e2]; simp⟩

/-- **C112.** If moreover the models have no remainders, the box is the smallest one. -/
theorem C112_least {m : Motion} {R : TMat ℝ} {T : TVec ℝ} (hR : EnclM 0 1 R (fun t => (m.integrate t).tf.R))
    (hT : EnclV 0 1 T (fun t => (m.integrate t).tf.t)) (h0 : NoRem R.r0) (h1 : NoRem R.r1) (h2 : NoRem R.r2) (h3 : NoRem T) {b : AABB ℝ}
    (hb : b.Valid) : ∃ box, sweptBox (some (R, T)) b = some box ∧ IsLeastBox box (Swept m b) := by
  obtain ⟨box, e, hs⟩ := C112_box hR hT b
  refine ⟨box, e, hs, fun c hc => ?_⟩
  have e' : box = ⟨_, _⟩ := (Option.some.inj e).symm
  have fx := fold_ends IVec.x (fun _ _ => rfl) (fun p => ((R.mulVec p).add T).tight unitTime) (otherCorners b) b.lo
  have fy := fold_ends IVec.y (fun _ _ => rfl) (fun p => ((R.mulVec p).add T).tight unitTime) (otherCorners b) b.lo
  have fz := fold_ends IVec.z (fun _ _ => rfl) (fun p => ((R.mulVec p).add T).tight unitTime) (otherCorners b) b.lo
  dsimp only at fx fy fz e'
  generalize (otherCorners b).foldl (fun box p => box.bound (((R.mulVec p).add T).tight unitTime)) (((R.mulVec b.lo).add T).tight unitTime) = B at fx fy fz e'
  have inC : ∀ t, 0 ≤ t → t ≤ 1 → ∀ p ∈ b.lo :: otherCorners b, (m.integrate t).tf.apply p ∈ c.pts := fun t h0 h1 p hp =>
    hc ⟨t, h0, h1, p, corner_mem hb p hp, rfl⟩
  subst e'
  rintro q ⟨⟨x1, x2⟩, ⟨y1, y2⟩, z1, z2⟩
  simp only [IVec.low, IVec.high] at x1 x2 y1 y2 z1 z2
  refine ⟨⟨?_, ?_⟩, ⟨?_, ?_⟩, ?_, ?_⟩
  · obtain ⟨p, hp, ep⟩ := fx.1
    obtain ⟨⟨t, t0, t1, et⟩, -⟩ := tight_ends (noRem_at h0 h1 h2 h3 p).1 (encl_at hR hT p).1
    have := (inC t t0 t1 p hp).1.1
    rw [← et] at this
    exact this.trans (ep ▸ x1)
  · obtain ⟨p, hp, ep⟩ := fx.2
    obtain ⟨-, t, t0, t1, et⟩ := tight_ends (noRem_at h0 h1 h2 h3 p).1 (encl_at hR hT p).1
    have := (inC t t0 t1 p hp).1.2
    rw [← et] at this
    exact (ep ▸ x2).trans this
  · obtain ⟨p, hp, ep⟩ := fy.1
    obtain ⟨⟨t, t0, t1, et⟩, -⟩ := tight_ends (noRem_at h0 h1 h2 h3 p).2.1 (encl_at hR hT p).2.1
    have := (inC t t0 t1 p hp).2.1.1
    rw [← et] at this
    exact this.trans (ep ▸ y1)
  · obtain ⟨p, hp, ep⟩ := fy.2
    obtain ⟨-, t, t0, t1, et⟩ := tight_ends (noRem_at h0 h1 h2 h3 p).2.1 (encl_at hR hT p).2.1
    have := (inC t t0 t1 p hp).2.1.2
    rw [← et] at this
    exact (ep ▸ y2).trans this
  · obtain ⟨p, hp, ep⟩ := fz.1
    obtain ⟨⟨t, t0, t1, et⟩, -⟩ := tight_ends (noRem_at h0 h1 h2 h3 p).2.2 (encl_at hR hT p).2.2
    have := (inC t t0 t1 p hp).2.2.1
    rw [← et] at this
    exact this.trans (ep ▸ z1)
  · obtain ⟨p, hp, ep⟩ := fz.2
    obtain ⟨-, t, t0, t1, et⟩ := tight_ends (noRem_at h0 h1 h2 h3 p).2.2 (encl_at hR hT p).2.2
    have := (inC t t0 t1 p hp).2.2.2
    rw [← et] at this
    exact (ep ▸ z2).trans this

/-! ### Motions without rotation -/

/-- **C112.** The matrix of `hat` is that of the vector product. -/
theorem C112_hat (v x : V3 ℝ) : (hat v).mulVec x = v.cross x := by
  apply V3.ext' <;> simp only [hat, M3.mulVec, V3.cross, V3.dot] <;> ring

/-- Without rotation the model of the rotation is the identity. -/
theorem deltaR_zero (axis : V3 ℝ) : deltaR 0 axis = TMat.const M3.one := by
  simp [deltaR, TMat.const, TVec.const, TM.const, TMat.addM, TVec.addV, TM.addS, TMat.sub, TVec.sub, TM.sub, TMat.ofScalar, TM.scale, TM.genCos, TM.genSin,
    TM.expand, TM.empty, TM.subS, TM.remainderOf, Iv.scale, Iv.pt, Iv.sub, M3.one]

/-- The models of a motion without rotation. -/
theorem still_models {R : M3 ℝ} {u v : V3 ℝ} {m : Motion} (hm : ∀ t, 0 ≤ t → t ≤ 1 → (m.integrate t).tf = ⟨R, u + t • v⟩) {b : AABB ℝ} (hb : b.Valid) :
    ∃ box, sweptBox (some (TMat.const R, TVec.linear u v)) b = some box ∧ IsLeastBox box (Swept m b) := by
  refine C112_least ?_ ?_ ⟨rfl, rfl, rfl⟩ ⟨rfl, rfl, rfl⟩ ⟨rfl, rfl, rfl⟩ ⟨rfl, rfl, rfl⟩ hb
  · refine ⟨⟨?_, ?_, ?_⟩, ⟨?_, ?_, ?_⟩, ?_, ?_, ?_⟩ <;> intro t ht <;> simp [hm t ht.1 ht.2, TMat.const, TVec.const, TM.const, TM.poly, Iv.set]
  · refine ⟨?_, ?_, ?_⟩ <;> intro t ht <;> simp [hm t ht.1 ht.2, TVec.linear, TM.linear, TM.poly, Iv.set] <;> ring_nf <;> simp

theorem const_mulMat (R : M3 ℝ) : (TMat.const M3.one).mulMat R = TMat.const R := by
  simp [TMat.mulMat, TMat.const, TVec.const, TM.const, TVec.dotV, TM.add, TM.scale, Iv.add, Iv.scale, M3.one, M3.col, V3.get]

theorem const_mulVec (v : V3 ℝ) : (TMat.const M3.one).mulVec v = TVec.const v := by
  simp [TMat.mulVec, TMat.const, TVec.const, TM.const, TVec.dotV, TM.add, TM.scale, Iv.add, Iv.scale, M3.one]

theorem one_of_rigid {R : M3 ℝ} (h : R.Orthonormal) : R.mul R.tr = M3.one := by
  have k : ∀ v : V3 ℝ, (R.mul R.tr).mulVec v = v := fun v => by rw [M3.mul_mulVec, M3.Orthonormal.mul_tr h]
  have c0 := k ⟨1, 0, 0⟩
  have c1 := k ⟨0, 1, 0⟩
  have c2 := k ⟨0, 0, 1⟩
  generalize R.mul R.tr = M at c0 c1 c2
  obtain ⟨⟨a, b, c⟩, ⟨d, e, f⟩, g, h, i⟩ := M
  simp [M3.mulVec, V3.dot] at c0 c1 c2
  simp [M3.one, c0, c1, c2]

theorem interp_still {tf1 tf2 : Pose ℝ} (ref : V3 ℝ) {aa : ℝ × V3 ℝ} (h0 : aa.1 = 0) {b : AABB ℝ} (hb : b.Valid) :
    ∃ box, sweptBox (some (Interp.make tf1 tf2 ref aa).taylor) b = some box ∧ IsLeastBox box (Swept (interp (.make tf1 tf2 ref aa)) b) := by
  have ha : (Interp.make tf1 tf2 ref aa).angVel = 0 := by simp [Interp.make, h0]
  generalize Interp.make tf1 tf2 ref aa = m at ha ⊢
  have e : m.taylor = (TMat.const m.tf1.R, TVec.linear (m.tf1.apply m.ref - m.tf1.R.mulVec m.ref) m.linVel) := by
    rw [Interp.taylor, ha, deltaR_zero]
    simp only [const_mulMat, const_mulVec]
    simp [TVec.addV, TVec.sub, TM.addS, TM.sub, TM.linear, TVec.linear, TVec.const, TM.const, Iv.sub]
  rw [e]
  refine still_models (fun t h0 h1 => ?_) hb
  simp only [interp, clip_eq h1, ha, mul_zero, M3.angleAxis_zero, M3.one_mul]
  congr 1
  apply V3.ext' <;> simp <;> ring

/-- **C112.** The box of an object that moves by an `InterpMotion` without rotation is the smallest box that contains the object at all
times. -/
theorem C112_interp_partial {tf1 tf2 : Pose ℝ} (h1 : tf1.Rigid) (hr : tf1.R = tf2.R) (ref : V3 ℝ) {aa : ℝ × V3 ℝ}
    (h : IsAngleAxis (tf2.R.mul tf1.R.tr) aa) {b : AABB ℝ} (hb : b.Valid) :
    ∃ box, sweptBox (some (Interp.make tf1 tf2 ref aa).taylor) b = some box ∧ IsLeastBox box (Swept (interp (.make tf1 tf2 ref aa)) b) := by
  rw [← hr, one_of_rigid h1] at h
  exact interp_still ref (angle_of_one h) hb

/-- **C112.** The same for a `ScrewMotion` without rotation. -/
theorem C112_screw_partial {tf1 tf2 : Pose ℝ} {aa : ℝ × V3 ℝ} (h0 : |aa.1| < 1 / 10 ^ 10) {b : AABB ℝ} (hb : b.Valid) :
    ∃ box, sweptBox (some (Screw.make tf1 tf2 aa).taylor) b = some box ∧ IsLeastBox box (Swept (screw (.make tf1 tf2 aa)) b) := by
  have hc : (if aa.1 < 0 then -aa.1 else aa.1) < 1 / 10 ^ 10 := by
    split_ifs with c
    · rwa [abs_of_neg c] at h0
    · rwa [abs_of_nonneg (not_lt.1 c)] at h0
  have ha : (Screw.make tf1 tf2 aa).angVel = 0 := by
    rw [Screw.make]
    simp only [if_pos hc]
  generalize Screw.make tf1 tf2 aa = m at ha ⊢
  have e : m.taylor = (TMat.const m.tf1.R, TVec.linear m.tf1.t (m.linVel • m.axis)) := by
    rw [Screw.taylor, ha, deltaR_zero]
    simp only [const_mulMat, const_mulVec]
    simp [TVec.rsubV, TVec.neg, TM.neg, Iv.neg, TVec.add, TM.add, TVec.addV, TM.addS, TM.linear, TVec.linear, TVec.const, TM.const, Iv.add]
  rw [e]
  refine still_models (fun t h0 h1 => ?_) hb
  simp only [screw, clip_eq h1, ha, mul_zero, M3.angleAxis_zero, M3.one_mul, M3.one_mulVec]
  congr 1
  apply V3.ext' <;> simp <;> ring

/-- The hypotheses are met: a unit cube that moves by (3, 0, 0). -/
theorem C112_instance : ∃ box, sweptBox (some (Interp.make Pose.id ⟨M3.one, ⟨3, 0, 0⟩⟩ 0 (0, ⟨1, 0, 0⟩)).taylor) ⟨⟨0, 0, 0⟩, ⟨1, 1, 1⟩⟩ = some box ∧
    (⟨4, 1, 1⟩ : V3 ℝ) ∈ box.pts ∧ (⟨5, 1, 1⟩ : V3 ℝ) ∉ box.pts := by
  obtain ⟨box, e, h1, h2⟩ := interp_still (tf1 := Pose.id) (tf2 := ⟨M3.one, ⟨3, 0, 0⟩⟩) 0 (aa := (0, ⟨1, 0, 0⟩)) rfl
    (b := ⟨⟨0, 0, 0⟩, ⟨1, 1, 1⟩⟩) ⟨by norm_num, by norm_num, by norm_num⟩
  have hi : ∀ t, t ≤ 1 → ((interp (.make Pose.id ⟨M3.one, ⟨3, 0, 0⟩⟩ 0 (0, ⟨1, 0, 0⟩))).integrate t).tf = ⟨M3.one, ⟨3 * t, 0, 0⟩⟩ := by
    intro t ht
    simp only [interp, clip_eq ht, Interp.make, lt_irrefl, if_false, mul_zero, M3.angleAxis_zero, M3.one_mul, Pose.id]
    congr 1
    apply V3.ext' <;> simp [Pose.apply, M3.mulVec, M3.one, V3.dot] <;> ring
  refine ⟨box, e, h1 ⟨1, by norm_num, le_rfl, ⟨1, 1, 1⟩, ⟨⟨by norm_num, le_rfl⟩, ⟨by norm_num, le_rfl⟩, by norm_num, le_rfl⟩, ?_⟩, fun h => ?_⟩
  · rw [hi 1 le_rfl]
    apply V3.ext' <;> norm_num [Pose.apply, M3.mulVec, M3.one, V3.dot]
  · have := h2 ⟨⟨0, 0, 0⟩, ⟨4, 1, 1⟩⟩ ?_ h
    · norm_num [AABB.pts] at this
    · rintro q ⟨t, t0, t1, p, ⟨⟨x1, x2⟩, ⟨y1, y2⟩, z1, z2⟩, rfl⟩
      rw [hi t t1]
      refine ⟨⟨?_, ?_⟩, ⟨?_, ?_⟩, ?_, ?_⟩ <;> simp [Pose.apply, M3.mulVec, M3.one, V3.dot] at * <;> linarith

/-! ### What does not hold -/

/-- The rotation about the third axis by `w`. -/
noncomputable def exTurn (w : ℝ) : Pose ℝ := ⟨M3.angleAxis w ⟨0, 0, 1⟩, 0⟩

/-- A plate in the plane `x = 0`. -/
def exPlateBox : AABB ℝ := ⟨⟨0, 0, 0⟩, ⟨0, 1, 1⟩⟩

/-- The models of the rotation: the second column does not turn. -/
theorem deltaR_turn (w : ℝ) : (deltaR w ⟨0, 0, 1⟩).r0.y = TM.empty ∧ (deltaR w ⟨0, 0, 1⟩).r0.z = TM.empty := by
  simp [deltaR, hat, M3.mul, M3.col, V3.get, V3.dot, TMat.addM, TVec.addV, TM.addS, TMat.sub, TVec.sub, TM.sub, TMat.ofScalar, TM.scale, TM.empty, TM.subS, M3.one,
    Iv.scale, Iv.sub]

/-- If the models have no first coordinate for a body in the plane `x = 0`, neither has the box. -/
theorem flat_box {R : TMat ℝ} {T : TVec ℝ} (hy : R.r0.y = TM.empty) (hz : R.r0.z = TM.empty) (hT : T.x = TM.empty) :
    ∃ box, sweptBox (some (R, T)) exPlateBox = some box ∧ box.lo.x = 0 := by
  refine ⟨_, rfl, ?_⟩
  obtain ⟨⟨p, hp, e⟩, -⟩ := fold_ends IVec.x (fun _ _ => rfl) (fun p => ((R.mulVec p).add T).tight unitTime) (otherCorners exPlateBox) exPlateBox.lo
  have hx : p.x = 0 := by
    simp only [otherCorners, exPlateBox, List.mem_cons, List.not_mem_nil, or_false] at hp
    rcases hp with rfl | rfl | rfl | rfl | rfl | rfl | rfl | rfl <;> rfl
  have h0 : ((R.mulVec p).add T).x = TM.empty := by
    simp [TMat.mulVec, TVec.add, TVec.dotV, hy, hz, hT, hx, TM.scale, TM.add, TM.empty, Iv.scale, Iv.add]
  obtain ⟨⟨t, -, -, ht⟩, -⟩ := tight_ends (f := TM.empty) (g := fun _ => 0) rfl (fun t _ => by simp [TM.poly, TM.empty, Iv.set])
  refine e.trans ?_
  show (((R.mulVec p).add T).x.tight unitTime).lo = 0
  rw [h0, ht]

theorem exTurn_angle {w : ℝ} (h0 : 0 < w) (h1 : w < Real.pi) : IsAngleAxis ((exTurn w).R.mul (Pose.id : Pose ℝ).R.tr) (w, ⟨0, 0, 1⟩) := by
  have e1 : (Pose.id : Pose ℝ).R.tr = M3.one := by simp [Pose.id, M3.tr, M3.one, M3.col, V3.get]
  refine ⟨by norm_num [V3.nrm, V3.dot], ?_, by rw [e1, M3.mul_one]; rfl⟩
  rw [abs_of_pos h0]; linarith

theorem exTurn_corner : (⟨0, 1, 0⟩ : V3 ℝ) ∈ exPlateBox.pts := by norm_num [AABB.pts, exPlateBox]

/-- **A turning object leaves its box (`InterpMotion`).** A plate that turns about the third axis, by whatever angle: the box has no extent
below the plane of the plate, where the plate goes. The product of a matrix and a Taylor model (C59) loses a column. -/
theorem C112_violated_interp {w : ℝ} (h0 : 0 < w) (h1 : w < Real.pi) : ∃ box,
    sweptBox (some (Interp.make Pose.id (exTurn w) 0 (w, ⟨0, 0, 1⟩)).taylor) exPlateBox = some box ∧
    ¬ Swept (interp (.make Pose.id (exTurn w) 0 (w, ⟨0, 0, 1⟩))) exPlateBox ⊆ box.pts := by
  obtain ⟨d1, d2⟩ := deltaR_turn w
  have hm : Interp.make Pose.id (exTurn w) 0 (w, ⟨0, 0, 1⟩) = ⟨Pose.id, 0, w, ⟨0, 0, 1⟩, 0⟩ := by
    simp only [Interp.make, if_neg (not_lt.2 h0.le), exTurn, Pose.apply, Pose.id]
    congr 1
    apply V3.ext' <;> simp [M3.mulVec, V3.dot]
  rw [hm]
  obtain ⟨box, e, hx⟩ := flat_box (R := (Interp.taylor ⟨Pose.id, 0, w, ⟨0, 0, 1⟩, 0⟩).1) (T := (Interp.taylor ⟨Pose.id, 0, w, ⟨0, 0, 1⟩, 0⟩).2)
    (by simp [Interp.taylor, TMat.mulMat, TVec.dotV, d1, d2, Pose.id, M3.one, M3.col, V3.get, TM.scale, TM.add, TM.empty, Iv.scale, Iv.add])
    (by simp [Interp.taylor, TMat.mulMat, TVec.dotV, d1, d2, Pose.id, M3.one, M3.col, V3.get, TM.scale, TM.add, TM.empty, Iv.scale, Iv.add])
    (by simp [Interp.taylor, TMat.mulVec, TVec.dotV, d1, d2, Pose.id, Pose.apply, M3.one, M3.mulVec, V3.dot, TM.scale, TM.add, TM.empty, Iv.scale, Iv.add,
      TVec.addV, TVec.sub, TM.addS, TM.sub, TM.linear, Iv.sub])
  refine ⟨box, e, fun h => ?_⟩
  have := (h ⟨1, zero_le_one, le_rfl, _, exTurn_corner, rfl⟩).1.1
  rw [hx] at this
  simp [interp, clip_eq le_rfl, Pose.apply, Pose.id, M3.mul_one, M3.angleAxis, M3.mulVec, V3.dot] at this
  linarith [Real.sin_pos_of_pos_of_lt_pi h0 h1]

/-- **A turning object leaves its box (`ScrewMotion`).** -/
theorem C112_violated_screw {w : ℝ} (h0 : 1 / 10 ^ 10 ≤ w) (h1 : w < Real.pi) : ∃ box,
    sweptBox (some (Screw.make Pose.id (exTurn w) (w, ⟨0, 0, 1⟩)).taylor) exPlateBox = some box ∧
    ¬ Swept (screw (.make Pose.id (exTurn w) (w, ⟨0, 0, 1⟩))) exPlateBox ⊆ box.pts := by
  have hw : 0 < w := lt_of_lt_of_le (by norm_num) h0
  obtain ⟨d1, d2⟩ := deltaR_turn w
  have hm : Screw.make Pose.id (exTurn w) (w, ⟨0, 0, 1⟩) = ⟨Pose.id, 0, w, ⟨0, 0, 1⟩, 0⟩ := by
    simp only [Screw.make, if_neg (not_lt.2 hw.le), if_neg (not_lt.2 h0), exTurn, Pose.id]
    rw [Screw.mk.injEq]
    refine ⟨rfl, by simp [V3.dot], rfl, rfl, ?_⟩
    apply V3.ext' <;> simp [V3.cross]
  rw [hm]
  obtain ⟨box, e, hx⟩ := flat_box (R := (Screw.taylor ⟨Pose.id, 0, w, ⟨0, 0, 1⟩, 0⟩).1) (T := (Screw.taylor ⟨Pose.id, 0, w, ⟨0, 0, 1⟩, 0⟩).2)
    (by simp [Screw.taylor, TMat.mulMat, TVec.dotV, d1, d2, Pose.id, M3.one, M3.col, V3.get, TM.scale, TM.add, TM.empty, Iv.scale, Iv.add])
    (by simp [Screw.taylor, TMat.mulMat, TVec.dotV, d1, d2, Pose.id, M3.one, M3.col, V3.get, TM.scale, TM.add, TM.empty, Iv.scale, Iv.add])
    (by simp [Screw.taylor, TMat.mulVec, TVec.dotV, d1, d2, Pose.id, TM.scale, TM.add, TM.empty, Iv.scale, Iv.add,
      TVec.addV, TVec.rsubV, TVec.add, TVec.neg, TM.neg, Iv.neg, TM.addS, TM.linear])
  refine ⟨box, e, fun h => ?_⟩
  have := (h ⟨1, zero_le_one, le_rfl, _, exTurn_corner, rfl⟩).1.1
  rw [hx] at this
  simp [screw, clip_eq le_rfl, Pose.apply, Pose.id, M3.mul_one, M3.angleAxis, M3.mulVec, V3.dot] at this
  linarith [Real.sin_pos_of_pos_of_lt_pi hw h1]

/-- **No box for a `TranslationMotion`.** Its `getTaylorModel` does nothing, and `computeAABB` reads through a null pointer. -/
theorem C112_violated_translation (b : AABB ℝ) : sweptBox translationTaylor b = none := rfl

theorem taylorT_poly (m : Spline) {t : ℝ} : m.taylorT.x.poly t = (Spline.blend t m.t0 m.t1 m.t2 m.t3).x + m.t3.x / 6 := by
  simp [Spline.taylorT, TM.poly, Spline.blend]
  ring

/-- **An object on a spline leaves its box.** The constant coefficient of the Taylor model of the translation has the last control point too
much. So for every spline whose last control point is not at `x = 0` an object at its own origin leaves the box; whatever the model
of the rotation is. -/
theorem C112_violated_spline (eps : ℝ) (m : Spline) (h : m.t3.x ≠ 0) (R : TMat ℝ) : ∃ box,
    sweptBox (some (R, m.taylorT)) ⟨0, 0⟩ = some box ∧ ¬ Swept (spline eps m) ⟨0, 0⟩ ⊆ box.pts := by
  refine ⟨_, rfl, fun hs => ?_⟩
  have f := fold_ends IVec.x (fun _ _ => rfl) (fun p => ((R.mulVec p).add m.taylorT).tight unitTime) (otherCorners ⟨0, 0⟩) 0
  have hp0 : ∀ p ∈ (0 : V3 ℝ) :: otherCorners ⟨0, 0⟩, p = 0 := by
    intro p hp
    simp only [otherCorners, List.mem_cons, List.not_mem_nil, or_false] at hp
    rcases hp with rfl | rfl | rfl | rfl | rfl | rfl | rfl | rfl <;> rfl
  have hx : ((R.mulVec 0).add m.taylorT).x = m.taylorT.x := by
    simp [TMat.mulVec, TVec.add, TVec.dotV, TM.scale, TM.add, Iv.scale, Iv.add]
  have hpos : ∀ t, 0 ≤ t → t ≤ 1 → ((spline eps m).integrate t).tf.apply 0 = Spline.blend t m.t0 m.t1 m.t2 m.t3 := by
    intro t _ h1
    simp only [spline, Spline.integrate, clip_eq h1, Pose.apply]
    apply V3.ext' <;> simp [M3.mulVec, V3.dot]
  have hmem : (0 : V3 ℝ) ∈ (⟨0, 0⟩ : AABB ℝ).pts := by simp [AABB.pts]
  obtain ⟨⟨t, t0, t1, et⟩, u, u0, u1, eu⟩ := tight_ends (f := m.taylorT.x) (g := m.taylorT.x.poly) rfl (fun t _ => by simp [Iv.set, Spline.taylorT])
  rcases lt_or_gt_of_ne h with hn | hn
  · obtain ⟨-, p, hp, e⟩ := f
    have hq := (hs ⟨u, u0, u1, 0, hmem, rfl⟩).1.2
    rw [hpos u u0 u1] at hq
    have e' := e
    rw [hp0 p hp] at e'
    change _ = (((R.mulVec 0).add m.taylorT).x.tight unitTime).hi at e'
    rw [hx, eu, taylorT_poly] at e'
    have := hq.trans (le_of_eq e')
    linarith
  · obtain ⟨⟨p, hp, e⟩, -⟩ := f
    have hq := (hs ⟨t, t0, t1, 0, hmem, rfl⟩).1.1
    rw [hpos t t0 t1] at hq
    have e' := e
    rw [hp0 p hp] at e'
    change _ = (((R.mulVec 0).add m.taylorT).x.tight unitTime).lo at e'
    rw [hx, et, taylorT_poly] at e'
    have := (le_of_eq e'.symm).trans hq
    linarith

end Fcl.Motion
