import Verif.Morton.Slice
import Mathlib.Tactic.NormNum
import Mathlib.Data.Rat.Floor

/-!
# C26: Morton codes interleave and preserve order
-/

namespace Fcl.Morton

/-- **C26** (30-bit code): bit `3 i + k` of the code is bit `i` of coordinate `k`, and no other bit is set. -/
theorem C26_bits30 (x y z : BitVec 32) (hx : x.toNat < 2 ^ 10) (hy : y.toNat < 2 ^ 10) (hz : z.toNat < 2 ^ 10) :
    (∀ i < 10, (code30 x y z).getLsbD (3 * i) = x.getLsbD i ∧ (code30 x y z).getLsbD (3 * i + 1) = y.getLsbD i ∧
      (code30 x y z).getLsbD (3 * i + 2) = z.getLsbD i) ∧ (code30 x y z).toNat < 2 ^ 30 := by
  refine ⟨fun i hi => getLsbD_code30 hx hy hz i hi, ?_⟩
  have := code30_lt hx hy hz
  norm_num at this ⊢; exact this

/-- **C26** (60-bit code). -/
theorem C26_bits60 (x y z : BitVec 32) (hx : x.toNat < 2 ^ 20) (hy : y.toNat < 2 ^ 20) (hz : z.toNat < 2 ^ 20) :
    (∀ i < 20, (code60 x y z).getLsbD (3 * i) = x.getLsbD i ∧ (code60 x y z).getLsbD (3 * i + 1) = y.getLsbD i ∧
      (code60 x y z).getLsbD (3 * i + 2) = z.getLsbD i) ∧ (code60 x y z).toNat < 2 ^ 60 := by
  constructor
  · intro i hi
    simp only [BitVec.getLsbD, code60_eq hx hy hz]
    exact testBit_ilv 20 _ _ _ i hi
  · have := ilv_lt 20 x.toNat y.toNat z.toNat
    rw [code60_eq hx hy hz]; norm_num at this ⊢; exact this

/-- **C26**: different coordinates in range have different codes. -/
theorem C26_injective30 (x y z x' y' z' : BitVec 32) (hx : x.toNat < 2 ^ 10) (hy : y.toNat < 2 ^ 10)
    (hz : z.toNat < 2 ^ 10) (hx' : x'.toNat < 2 ^ 10) (hy' : y'.toNat < 2 ^ 10) (hz' : z'.toNat < 2 ^ 10)
    (h : code30 x y z = code30 x' y' z') : x = x' ∧ y = y' ∧ z = z' := by
  have h := congrArg BitVec.toNat h
  rw [code30_eq hx hy hz, code30_eq hx' hy' hz'] at h
  obtain ⟨h1, h2, h3⟩ := ilv_inj 10 hx hy hz hx' hy' hz' h
  exact ⟨BitVec.eq_of_toNat_eq h1, BitVec.eq_of_toNat_eq h2, BitVec.eq_of_toNat_eq h3⟩

theorem C26_injective60 (x y z x' y' z' : BitVec 32) (hx : x.toNat < 2 ^ 20) (hy : y.toNat < 2 ^ 20)
    (hz : z.toNat < 2 ^ 20) (hx' : x'.toNat < 2 ^ 20) (hy' : y'.toNat < 2 ^ 20) (hz' : z'.toNat < 2 ^ 20)
    (h : code60 x y z = code60 x' y' z') : x = x' ∧ y = y' ∧ z = z' := by
  have h := congrArg BitVec.toNat h
  rw [code60_eq hx hy hz, code60_eq hx' hy' hz'] at h
  obtain ⟨h1, h2, h3⟩ := ilv_inj 20 hx hy hz hx' hy' hz' h
  exact ⟨BitVec.eq_of_toNat_eq h1, BitVec.eq_of_toNat_eq h2, BitVec.eq_of_toNat_eq h3⟩

/-- **C26**: the code is monotone in each coordinate. -/
theorem C26_monotone30 (x y z x' y' z' : BitVec 32) (hx : x.toNat ≤ x'.toNat) (hy : y.toNat ≤ y'.toNat)
    (hz : z.toNat ≤ z'.toNat) (hx' : x'.toNat < 2 ^ 10) (hy' : y'.toNat < 2 ^ 10) (hz' : z'.toNat < 2 ^ 10) :
    (code30 x y z).toNat ≤ (code30 x' y' z').toNat := by
  rw [code30_eq (hx.trans_lt hx') (hy.trans_lt hy') (hz.trans_lt hz'), code30_eq hx' hy' hz']
  exact ilv_mono 10 hx hy hz hx' hy' hz'

theorem C26_monotone60 (x y z x' y' z' : BitVec 32) (hx : x.toNat ≤ x'.toNat) (hy : y.toNat ≤ y'.toNat)
    (hz : z.toNat ≤ z'.toNat) (hx' : x'.toNat < 2 ^ 20) (hy' : y'.toNat < 2 ^ 20) (hz' : z'.toNat < 2 ^ 20) :
    (code60 x y z).toNat ≤ (code60 x' y' z').toNat := by
  rw [code60_eq (hx.trans_lt hx') (hy.trans_lt hy') (hz.trans_lt hz'), code60_eq hx' hy' hz']
  exact ilv_mono 20 hx hy hz hx' hy' hz'

/-- **C26**: two codes agree above bit `3 j` iff the coordinates agree above bit `j`: the same octree cell of
side `2 ^ j`. -/
theorem C26_cell30 (j : ℕ) (hj : j ≤ 10) (x y z x' y' z' : BitVec 32) (hx : x.toNat < 2 ^ 10)
    (hy : y.toNat < 2 ^ 10) (hz : z.toNat < 2 ^ 10) (hx' : x'.toNat < 2 ^ 10) (hy' : y'.toNat < 2 ^ 10)
    (hz' : z'.toNat < 2 ^ 10) :
    (code30 x y z).toNat / 2 ^ (3 * j) = (code30 x' y' z').toNat / 2 ^ (3 * j) ↔
      x.toNat / 2 ^ j = x'.toNat / 2 ^ j ∧ y.toNat / 2 ^ j = y'.toNat / 2 ^ j ∧
      z.toNat / 2 ^ j = z'.toNat / 2 ^ j := by
  rw [code30_eq hx hy hz, code30_eq hx' hy' hz', pow_mul]
  exact ilv_cell 10 j hj hx hy hz hx' hy' hz'

theorem C26_cell60 (j : ℕ) (hj : j ≤ 20) (x y z x' y' z' : BitVec 32) (hx : x.toNat < 2 ^ 20)
    (hy : y.toNat < 2 ^ 20) (hz : z.toNat < 2 ^ 20) (hx' : x'.toNat < 2 ^ 20) (hy' : y'.toNat < 2 ^ 20)
    (hz' : z'.toNat < 2 ^ 20) :
    (code60 x y z).toNat / 2 ^ (3 * j) = (code60 x' y' z').toNat / 2 ^ (3 * j) ↔
      x.toNat / 2 ^ j = x'.toNat / 2 ^ j ∧ y.toNat / 2 ^ j = y'.toNat / 2 ^ j ∧
      z.toNat / 2 ^ j = z'.toNat / 2 ^ j := by
  rw [code60_eq hx hy hz, code60_eq hx' hy' hz', pow_mul]
  exact ilv_cell 20 j hj hx hy hz hx' hy' hz'

example : code30 5#32 3#32 6#32 = 0x173#32 ∧ code60 0x80401#32 3#32 6#32 ≠ code60 1#32 3#32 6#32 := by
  decide +kernel

/-! ### The functors, on points of a box -/

section
variable {K : Type*} [Field K] [LinearOrder K] [IsStrictOrderedRing K] [FloorSemiring K]

/-- Specification: relative position of a coordinate within an interval. -/
def rel (lo hi p : K) : K := (p - lo) / (hi - lo)

/-- Specification: the point lies in the box, which is not flat. -/
def InBox (b : AABB K) (p : V3 K) : Prop :=
  b.lo.x < b.hi.x ∧ b.lo.y < b.hi.y ∧ b.lo.z < b.hi.z ∧ b.lo.x ≤ p.x ∧ p.x ≤ b.hi.x ∧ b.lo.y ≤ p.y ∧
    p.y ≤ b.hi.y ∧ b.lo.z ≤ p.z ∧ p.z ≤ b.hi.z

/-- Specification: the cell, of the `2 ^ n` by `2 ^ n` by `2 ^ n` grid over the box, that contains the point. -/
def cell (n : ℕ) (b : AABB K) (p : V3 K) : V3 ℕ :=
  ⟨slice n (rel b.lo.x b.hi.x p.x), slice n (rel b.lo.y b.hi.y p.y), slice n (rel b.lo.z b.hi.z p.z)⟩

theorem rel_mem {lo hi p : K} (h : lo < hi) (h0 : lo ≤ p) (h1 : p ≤ hi) : 0 ≤ rel lo hi p ∧ rel lo hi p ≤ 1 := by
  have : 0 < hi - lo := by linarith
  exact ⟨div_nonneg (by linarith) this.le, (div_le_one this).mpr (by linarith)⟩

theorem functor_some {b : AABB K} (h : b.lo.x < b.hi.x ∧ b.lo.y < b.hi.y ∧ b.lo.z < b.hi.z) :
    ∃ f, Functor.mk? b = some f ∧ ∀ p, f.scale p =
      ⟨rel b.lo.x b.hi.x p.x, rel b.lo.y b.hi.y p.y, rel b.lo.z b.hi.z p.z⟩ := by
  refine ⟨⟨b.lo, ⟨1 / (b.hi.x - b.lo.x), 1 / (b.hi.y - b.lo.y), 1 / (b.hi.z - b.lo.z)⟩⟩, ?_, ?_⟩
  · rw [Functor.mk?, if_neg]
    rintro (h' | h' | h') <;> linarith [h.1, h.2.1, h.2.2]
  · intro p; simp only [Functor.scale, rel, mul_one_div]

theorem call30_eq {b : AABB K} {p : V3 K} (h : InBox b p) {f : Functor K}
    (hs : ∀ p, f.scale p = ⟨rel b.lo.x b.hi.x p.x, rel b.lo.y b.hi.y p.y, rel b.lo.z b.hi.z p.z⟩) :
    ∃ x y z, f.call30 p = some (code30 x y z) ∧ x.toNat = (cell 10 b p).x ∧ y.toNat = (cell 10 b p).y ∧
      z.toNat = (cell 10 b p).z := by
  obtain ⟨h1, h2, h3, h4, h5, h6, h7, h8, h9⟩ := h
  obtain ⟨a, ea, va⟩ := quantize_eq 10 (by norm_num) 1024#32 rfl (rel_mem h1 h4 h5).1 (rel_mem h1 h4 h5).2
  obtain ⟨c, ec, vc⟩ := quantize_eq 10 (by norm_num) 1024#32 rfl (rel_mem h2 h6 h7).1 (rel_mem h2 h6 h7).2
  obtain ⟨d, ed, vd⟩ := quantize_eq 10 (by norm_num) 1024#32 rfl (rel_mem h3 h8 h9).1 (rel_mem h3 h8 h9).2
  exact ⟨a, c, d, by rw [Functor.call30, hs]; simp only [ea, ec, ed], va, vc, vd⟩

theorem call60_eq {b : AABB K} {p : V3 K} (h : InBox b p) {f : Functor K}
    (hs : ∀ p, f.scale p = ⟨rel b.lo.x b.hi.x p.x, rel b.lo.y b.hi.y p.y, rel b.lo.z b.hi.z p.z⟩) :
    ∃ x y z, f.call60 p = some (code60 x y z) ∧ x.toNat = (cell 20 b p).x ∧ y.toNat = (cell 20 b p).y ∧
      z.toNat = (cell 20 b p).z := by
  obtain ⟨h1, h2, h3, h4, h5, h6, h7, h8, h9⟩ := h
  have hv : (1#32 <<< 20).toNat = 2 ^ 20 := by decide
  obtain ⟨a, ea, va⟩ := quantize_eq 20 (by norm_num) _ hv (rel_mem h1 h4 h5).1 (rel_mem h1 h4 h5).2
  obtain ⟨c, ec, vc⟩ := quantize_eq 20 (by norm_num) _ hv (rel_mem h2 h6 h7).1 (rel_mem h2 h6 h7).2
  obtain ⟨d, ed, vd⟩ := quantize_eq 20 (by norm_num) _ hv (rel_mem h3 h8 h9).1 (rel_mem h3 h8 h9).2
  exact ⟨a, c, d, by rw [Functor.call60, hs]; simp only [ea, ec, ed], va, vc, vd⟩

/-- **C26** (points, `uint32` functor): for a box that is not flat the functor is defined on every point of the
box, its code interleaves the grid cell of the point, codes grow with the point, and two points share the
leading `3 j` bits of 30 iff they lie in the same cell of the grid with `2 ^ j` cells a side. -/
theorem C26_points30 (b : AABB K) (hb : b.lo.x < b.hi.x ∧ b.lo.y < b.hi.y ∧ b.lo.z < b.hi.z) :
    ∃ f, Functor.mk? b = some f ∧ ∀ p, InBox b p → ∃ c, f.call30 p = some c ∧
      (∀ i < 10, c.getLsbD (3 * i) = (cell 10 b p).x.testBit i ∧
        c.getLsbD (3 * i + 1) = (cell 10 b p).y.testBit i ∧ c.getLsbD (3 * i + 2) = (cell 10 b p).z.testBit i) ∧
      ∀ q, InBox b q → ∃ d, f.call30 q = some d ∧
        (p.x ≤ q.x → p.y ≤ q.y → p.z ≤ q.z → c.toNat ≤ d.toNat) ∧
        ∀ j ≤ 10, (c.toNat / 2 ^ (30 - 3 * j) = d.toNat / 2 ^ (30 - 3 * j) ↔ cell j b p = cell j b q) := by
  obtain ⟨f, hf, hs⟩ := functor_some hb
  refine ⟨f, hf, fun p hp => ?_⟩
  obtain ⟨x, y, z, e, ex, ey, ez⟩ := call30_eq hp hs
  have hx : x.toNat < 2 ^ 10 := ex ▸ slice_lt _ _
  have hy : y.toNat < 2 ^ 10 := ey ▸ slice_lt _ _
  have hz : z.toNat < 2 ^ 10 := ez ▸ slice_lt _ _
  refine ⟨_, e, fun i hi => ?_, fun q hq => ?_⟩
  · rw [← ex, ← ey, ← ez]; exact (C26_bits30 x y z hx hy hz).1 i hi
  obtain ⟨x', y', z', e', ex', ey', ez'⟩ := call30_eq hq hs
  have hx' : x'.toNat < 2 ^ 10 := ex' ▸ slice_lt _ _
  have hy' : y'.toNat < 2 ^ 10 := ey' ▸ slice_lt _ _
  have hz' : z'.toNat < 2 ^ 10 := ez' ▸ slice_lt _ _
  refine ⟨_, e', fun h1 h2 h3 => ?_, fun j hj => ?_⟩
  · refine C26_monotone30 _ _ _ _ _ _ ?_ ?_ ?_ hx' hy' hz'
    · rw [ex, ex']; exact slice_mono _ (div_le_div_of_nonneg_right (by linarith) (by linarith [hb.1]))
    · rw [ey, ey']; exact slice_mono _ (div_le_div_of_nonneg_right (by linarith) (by linarith [hb.2.1]))
    · rw [ez, ez']; exact slice_mono _ (div_le_div_of_nonneg_right (by linarith) (by linarith [hb.2.2]))
  · have hc := C26_cell30 (10 - j) (by omega) x y z x' y' z' hx hy hz hx' hy' hz'
    rw [show 30 - 3 * j = 3 * (10 - j) by omega, hc, ex, ey, ez, ex', ey', ez']
    have key : ∀ t : K, slice 10 t / 2 ^ (10 - j) = slice j t := fun t => by
      have := slice_div j (10 - j) t
      rwa [show j + (10 - j) = 10 by omega] at this
    simp only [cell, key, V3.mk.injEq]

/-- **C26** (points, `uint64` functor). -/
theorem C26_points60 (b : AABB K) (hb : b.lo.x < b.hi.x ∧ b.lo.y < b.hi.y ∧ b.lo.z < b.hi.z) :
    ∃ f, Functor.mk? b = some f ∧ ∀ p, InBox b p → ∃ c, f.call60 p = some c ∧
      (∀ i < 20, c.getLsbD (3 * i) = (cell 20 b p).x.testBit i ∧
        c.getLsbD (3 * i + 1) = (cell 20 b p).y.testBit i ∧ c.getLsbD (3 * i + 2) = (cell 20 b p).z.testBit i) ∧
      ∀ q, InBox b q → ∃ d, f.call60 q = some d ∧
        (p.x ≤ q.x → p.y ≤ q.y → p.z ≤ q.z → c.toNat ≤ d.toNat) ∧
        ∀ j ≤ 20, (c.toNat / 2 ^ (60 - 3 * j) = d.toNat / 2 ^ (60 - 3 * j) ↔ cell j b p = cell j b q) := by
  obtain ⟨f, hf, hs⟩ := functor_some hb
  refine ⟨f, hf, fun p hp => ?_⟩
  obtain ⟨x, y, z, e, ex, ey, ez⟩ := call60_eq hp hs
  have hx : x.toNat < 2 ^ 20 := ex ▸ slice_lt _ _
  have hy : y.toNat < 2 ^ 20 := ey ▸ slice_lt _ _
  have hz : z.toNat < 2 ^ 20 := ez ▸ slice_lt _ _
  refine ⟨_, e, fun i hi => ?_, fun q hq => ?_⟩
  · rw [← ex, ← ey, ← ez]; exact (C26_bits60 x y z hx hy hz).1 i hi
  obtain ⟨x', y', z', e', ex', ey', ez'⟩ := call60_eq hq hs
  have hx' : x'.toNat < 2 ^ 20 := ex' ▸ slice_lt _ _
  have hy' : y'.toNat < 2 ^ 20 := ey' ▸ slice_lt _ _
  have hz' : z'.toNat < 2 ^ 20 := ez' ▸ slice_lt _ _
  refine ⟨_, e', fun h1 h2 h3 => ?_, fun j hj => ?_⟩
  · refine C26_monotone60 _ _ _ _ _ _ ?_ ?_ ?_ hx' hy' hz'
    · rw [ex, ex']; exact slice_mono _ (div_le_div_of_nonneg_right (by linarith) (by linarith [hb.1]))
    · rw [ey, ey']; exact slice_mono _ (div_le_div_of_nonneg_right (by linarith) (by linarith [hb.2.1]))
    · rw [ez, ez']; exact slice_mono _ (div_le_div_of_nonneg_right (by linarith) (by linarith [hb.2.2]))
  · have hc := C26_cell60 (20 - j) (by omega) x y z x' y' z' hx hy hz hx' hy' hz'
    rw [show 60 - 3 * j = 3 * (20 - j) by omega, hc, ex, ey, ez, ex', ey', ez']
    have key : ∀ t : K, slice 20 t / 2 ^ (20 - j) = slice j t := fun t => by
      have := slice_div j (20 - j) t
      rwa [show j + (20 - j) = 20 by omega] at this
    simp only [cell, key, V3.mk.injEq]

/-- **C26** (points, `std::bitset<3 n>` functor): bit `3 i + k`, counted from the least significant end, is bit `i`
of the grid cell of the point, for every width. -/
theorem C26_pointsBits (n : ℕ) (b : AABB K) (hb : b.lo.x < b.hi.x ∧ b.lo.y < b.hi.y ∧ b.lo.z < b.hi.z) :
    ∃ f, Functor.mk? b = some f ∧ ∀ p, InBox b p → (f.callBits n p).length = 3 * n ∧ ∀ i < n,
      (f.callBits n p)[3 * n - 1 - 3 * i]? = some ((cell n b p).x.testBit i) ∧
      (f.callBits n p)[3 * n - 1 - (3 * i + 1)]? = some ((cell n b p).y.testBit i) ∧
      (f.callBits n p)[3 * n - 1 - (3 * i + 2)]? = some ((cell n b p).z.testBit i) := by
  obtain ⟨f, hf, hs⟩ := functor_some hb
  refine ⟨f, hf, fun p hp => ?_⟩
  obtain ⟨h1, h2, h3, h4, h5, h6, h7, h8, h9⟩ := hp
  have := bitLoop_spec n (rel_mem h1 h4 h5).1 (rel_mem h1 h4 h5).2 (rel_mem h2 h6 h7).1 (rel_mem h2 h6 h7).2
    (rel_mem h3 h8 h9).1 (rel_mem h3 h8 h9).2
  rw [Functor.callBits, hs]
  exact this

/-- The remaining inputs: for a flat box (all leaves in one axis-aligned plane, say) the code is undefined. -/
theorem C26_flat (b : AABB K) (h : b.lo.x = b.hi.x ∨ b.lo.y = b.hi.y ∨ b.lo.z = b.hi.z) :
    Functor.mk? b = none := by
  rw [Functor.mk?, if_pos]
  rcases h with h | h | h
  · exact .inl (by rw [h]; ring)
  · exact .inr (.inl (by rw [h]; ring))
  · exact .inr (.inr (by rw [h]; ring))

end

/-- A concrete box and point. -/
example : InBox (K := ℚ) ⟨⟨-1, 0, 2⟩, ⟨1, 4, 3⟩⟩ ⟨1 / 2, 4, 2⟩ ∧
    cell (K := ℚ) 10 ⟨⟨-1, 0, 2⟩, ⟨1, 4, 3⟩⟩ ⟨1 / 2, 4, 2⟩ = ⟨768, 1023, 0⟩ := by
  constructor
  · unfold InBox; norm_num
  · simp only [cell, slice, rel]; norm_num

end Fcl.Morton
