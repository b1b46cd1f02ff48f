import Verif.RSS.DistLemmas

/-!
# Fitting a rectangle swept sphere to points
-/

namespace Fcl
open V3
namespace RSS

/-! ### The extent along the normal -/

theorem rangeZ_spec (P0 : V3 ℝ) (P : List (V3 ℝ)) :
    (∀ p ∈ P0 :: P, (rangeZ P0 P).1 ≤ p.z ∧ p.z ≤ (rangeZ P0 P).2) ∧ (∃ p ∈ P0 :: P, p.z = (rangeZ P0 P).2) := by
  have gen : ∀ (P : List (V3 ℝ)) (s : ℝ × ℝ), s.1 ≤ s.2 →
      let s' := P.foldl (fun s p => if p.z < s.1 then (p.z, s.2) else if p.z > s.2 then (s.1, p.z) else s) s
      s'.1 ≤ s.1 ∧ s.2 ≤ s'.2 ∧ (∀ p ∈ P, s'.1 ≤ p.z ∧ p.z ≤ s'.2) ∧ (s'.2 = s.2 ∨ ∃ p ∈ P, p.z = s'.2) := by
    intro P
    induction P with
    | nil => intro s hs; exact ⟨le_rfl, le_rfl, fun _ h => absurd h List.not_mem_nil, .inl rfl⟩
    | cons a l ih =>
      intro s hs
      rw [List.foldl_cons]
      dsimp only
      split_ifs with h1 h2
      · obtain ⟨i1, i2, i3, i4⟩ := ih (a.z, s.2) (by dsimp only; linarith)
        refine ⟨i1.trans h1.le, i2, ?_, ?_⟩
        · intro p hp
          rcases List.mem_cons.1 hp with rfl | hp
          · exact ⟨i1, (by dsimp only at i2; linarith : p.z ≤ _)⟩
          · exact i3 p hp
        · rcases i4 with i4 | ⟨p, hp, e⟩
          · exact .inl i4
          · exact .inr ⟨p, List.mem_cons_of_mem _ hp, e⟩
      · obtain ⟨i1, i2, i3, i4⟩ := ih (s.1, a.z) (by dsimp only; linarith)
        refine ⟨i1, (le_of_lt h2).trans i2, ?_, ?_⟩
        · intro p hp
          rcases List.mem_cons.1 hp with rfl | hp
          · exact ⟨i1.trans (not_lt.1 h1), i2⟩
          · exact i3 p hp
        · rcases i4 with i4 | ⟨p, hp, e⟩
          · exact .inr ⟨a, List.mem_cons_self, i4.symm⟩
          · exact .inr ⟨p, List.mem_cons_of_mem _ hp, e⟩
      · obtain ⟨i1, i2, i3, i4⟩ := ih s hs
        refine ⟨i1, i2, ?_, ?_⟩
        · intro p hp
          rcases List.mem_cons.1 hp with rfl | hp
          · exact ⟨i1.trans (not_lt.1 h1), (not_lt.1 h2).trans i2⟩
          · exact i3 p hp
        · rcases i4 with i4 | ⟨p, hp, e⟩
          · exact .inl i4
          · exact .inr ⟨p, List.mem_cons_of_mem _ hp, e⟩
  obtain ⟨h1, h2, h3, h4⟩ := gen P (P0.z, P0.z) le_rfl
  refine ⟨fun p hp => ?_, ?_⟩
  · rcases List.mem_cons.1 hp with rfl | hp
    · exact ⟨h1, h2⟩
    · exact h3 p hp
  · rcases h4 with h4 | ⟨p, hp, e⟩
    · exact ⟨P0, List.mem_cons_self, h4.symm⟩
    · exact ⟨p, List.mem_cons_of_mem _ hp, e⟩

/-! ### The range along a side -/

theorem reach_nonneg (rr cz : ℝ) (p : V3 ℝ) : 0 ≤ reach rr cz p := Real.sqrt_nonneg _

theorem reach_sq {r cz : ℝ} {p : V3 ℝ} (h : |p.z - cz| ≤ r) :
    reach (r * r) cz p * reach (r * r) cz p + (p.z - cz) * (p.z - cz) = r * r := by
  have h' : 0 ≤ r * r - (p.z - cz) * (p.z - cz) := by
    have := abs_le.1 h
    nlinarith
  rw [reach, max_eq_left h', Real.mul_self_sqrt h']
  ring

theorem lo_spec (c g : V3 ℝ → ℝ) (hg : ∀ p, 0 ≤ g p) (P : List (V3 ℝ)) (m : ℝ) :
    let m' := P.foldl (fun m p => if c p < m then (if c p + g p < m then c p + g p else m) else m) m
    m' ≤ m ∧ ∀ p ∈ P, m' ≤ c p + g p := by
  induction P generalizing m with
  | nil => exact ⟨le_rfl, fun _ h => absurd h List.not_mem_nil⟩
  | cons a l ih =>
    rw [List.foldl_cons]
    dsimp only
    have ha := hg a
    split_ifs with h1 h2
    · obtain ⟨i1, i2⟩ := ih (c a + g a)
      exact ⟨i1.trans h2.le, fun p hp => by
        rcases List.mem_cons.1 hp with rfl | hp
        · exact i1
        · exact i2 p hp⟩
    · obtain ⟨i1, i2⟩ := ih m
      exact ⟨i1, fun p hp => by
        rcases List.mem_cons.1 hp with rfl | hp
        · exact i1.trans (not_lt.1 h2)
        · exact i2 p hp⟩
    · obtain ⟨i1, i2⟩ := ih m
      exact ⟨i1, fun p hp => by
        rcases List.mem_cons.1 hp with rfl | hp
        · exact i1.trans (by linarith [not_lt.1 h1])
        · exact i2 p hp⟩

theorem hi_spec (c g : V3 ℝ → ℝ) (hg : ∀ p, 0 ≤ g p) (P : List (V3 ℝ)) (m : ℝ) :
    let m' := P.foldl (fun m p => if c p > m then (if c p - g p > m then c p - g p else m) else m) m
    m ≤ m' ∧ ∀ p ∈ P, c p - g p ≤ m' := by
  induction P generalizing m with
  | nil => exact ⟨le_rfl, fun _ h => absurd h List.not_mem_nil⟩
  | cons a l ih =>
    rw [List.foldl_cons]
    dsimp only
    have ha := hg a
    split_ifs with h1 h2
    · obtain ⟨i1, i2⟩ := ih (c a - g a)
      exact ⟨(le_of_lt h2).trans i1, fun p hp => by
        rcases List.mem_cons.1 hp with rfl | hp
        · exact i1
        · exact i2 p hp⟩
    · obtain ⟨i1, i2⟩ := ih m
      exact ⟨i1, fun p hp => by
        rcases List.mem_cons.1 hp with rfl | hp
        · exact (not_lt.1 h2).trans i1
        · exact i2 p hp⟩
    · obtain ⟨i1, i2⟩ := ih m
      exact ⟨i1, fun p hp => by
        rcases List.mem_cons.1 hp with rfl | hp
        · exact le_trans (by linarith [not_lt.1 h1]) i1
        · exact i2 p hp⟩

theorem range_spec (c : V3 ℝ → ℝ) (rr cz : ℝ) (P0 : V3 ℝ) (P : List (V3 ℝ)) :
    ∀ p ∈ P0 :: P, (range c rr cz P0 P).1 ≤ c p + reach rr cz p ∧ c p - reach rr cz p ≤ (range c rr cz P0 P).2 := fun p hp =>
  ⟨(lo_spec c (reach rr cz) (reach_nonneg rr cz) (P0 :: P) _).2 p hp, (hi_spec c (reach rr cz) (reach_nonneg rr cz) (P0 :: P) _).2 p hp⟩

/-! ### The corners -/

/-- The point is at most `√rr` from a point of the box at height `cz`. -/
def Covered (rr cz : ℝ) (b : Box) (p : V3 ℝ) : Prop :=
  ∃ x y, b.minx ≤ x ∧ x ≤ b.maxx ∧ b.miny ≤ y ∧ y ≤ b.maxy ∧
    (p.x - x) * (p.x - x) + (p.y - y) * (p.y - y) + (p.z - cz) * (p.z - cz) ≤ rr

/-- One box inside the other. -/
structure Sub (b b' : Box) : Prop where
  minx : b'.minx ≤ b.minx
  maxx : b.maxx ≤ b'.maxx
  miny : b'.miny ≤ b.miny
  maxy : b.maxy ≤ b'.maxy

theorem Covered.sub {rr cz : ℝ} {b b' : Box} {p : V3 ℝ} (h : Covered rr cz b p) (hs : Sub b b') : Covered rr cz b' p := by
  obtain ⟨x, y, h1, h2, h3, h4, h5⟩ := h
  exact ⟨x, y, hs.minx.trans h1, h2.trans hs.maxx, hs.miny.trans h3, h4.trans hs.maxy, h5⟩

theorem growth_stay {rr dx dy dz s : ℝ} (hs : s * s + dz * dz = rr) (x0 : 0 ≤ dx) (x1 : dx ≤ s) (y0 : 0 ≤ dy) (y1 : dy ≤ s)
    (h : ¬ growth rr dx dy dz > 0) : dx * dx + dy * dy + dz * dz ≤ rr := by
  unfold growth at h
  have ha : Real.sqrt (1 / 2) * Real.sqrt (1 / 2) = 1 / 2 := Real.mul_self_sqrt (by norm_num)
  have ha0 := Real.sqrt_nonneg (1 / 2 : ℝ)
  generalize Real.sqrt (1 / 2 : ℝ) = a at *
  dsimp only at h
  obtain ⟨t, ht⟩ : ∃ t, t = (a * (dx * a + dy * a) - dx) * (a * (dx * a + dy * a) - dx) + (a * (dx * a + dy * a) - dy) * (a * (dx * a + dy * a) - dy) + dz * dz := ⟨_, rfl⟩
  rw [← ht] at h
  have et : t = (dx - dy) * (dx - dy) / 2 + dz * dz := by
    have e1 : a * (dx * a + dy * a) = (dx + dy) / 2 := by linear_combination (dx + dy) * ha
    rw [ht, e1]; ring
  have hle : 0 ≤ rr - t := by
    rw [et, ← hs]
    have : (dx - dy) * (dx - dy) ≤ s * s := by nlinarith
    nlinarith [mul_self_nonneg (dx - dy)]
  rw [max_eq_left hle] at h
  have hq := Real.mul_self_sqrt hle
  have hq0 := Real.sqrt_nonneg (rr - t)
  generalize Real.sqrt (rr - t) = w at *
  have hu : dx * a + dy * a ≤ w := by linarith [not_lt.1 h]
  have hu0 : 0 ≤ dx * a + dy * a := by positivity
  have h2 : (dx * a + dy * a) * (dx * a + dy * a) ≤ w * w := mul_self_le_mul_self hu0 hu
  have e2 : (dx * a + dy * a) * (dx * a + dy * a) = (dx + dy) * (dx + dy) / 2 := by linear_combination (dx + dy) * (dx + dy) * ha
  rw [e2, hq, et] at h2
  nlinarith

theorem growth_move {rr dx dy dz s : ℝ} (hs : s * s + dz * dz = rr) (x0 : 0 ≤ dx) (x1 : dx ≤ s) (y0 : 0 ≤ dy) (y1 : dy ≤ s) :
    (dx - growth rr dx dy dz * Real.sqrt (1 / 2)) * (dx - growth rr dx dy dz * Real.sqrt (1 / 2)) +
      (dy - growth rr dx dy dz * Real.sqrt (1 / 2)) * (dy - growth rr dx dy dz * Real.sqrt (1 / 2)) + dz * dz ≤ rr := by
  unfold growth
  have ha : Real.sqrt (1 / 2) * Real.sqrt (1 / 2) = 1 / 2 := Real.mul_self_sqrt (by norm_num)
  have ha0 := Real.sqrt_nonneg (1 / 2 : ℝ)
  generalize Real.sqrt (1 / 2 : ℝ) = a at *
  dsimp only
  obtain ⟨t, ht⟩ : ∃ t, t = (a * (dx * a + dy * a) - dx) * (a * (dx * a + dy * a) - dx) + (a * (dx * a + dy * a) - dy) * (a * (dx * a + dy * a) - dy) + dz * dz := ⟨_, rfl⟩
  rw [← ht]
  have et : t = (dx - dy) * (dx - dy) / 2 + dz * dz := by
    have e1 : a * (dx * a + dy * a) = (dx + dy) / 2 := by linear_combination (dx + dy) * ha
    rw [ht, e1]; ring
  have hle : 0 ≤ rr - t := by
    rw [et, ← hs]
    have : (dx - dy) * (dx - dy) ≤ s * s := by nlinarith
    nlinarith [mul_self_nonneg (dx - dy)]
  rw [max_eq_left hle]
  have hq := Real.mul_self_sqrt hle
  generalize Real.sqrt (rr - t) = w at *
  have e1 : (dx * a + dy * a - w) * a = (dx + dy) / 2 - w * a := by linear_combination (dx + dy) * ha
  rw [e1]
  apply le_of_eq
  have : (w * a) * (w * a) = (rr - t) / 2 := by rw [← hq]; linear_combination w * w * ha
  rw [et] at this
  linear_combination 2 * this

/-- The box is not empty and no point is further from it along a side than its reach. -/
structure BoxInv (rr cz : ℝ) (P : List (V3 ℝ)) (b : Box) : Prop where
  x : b.minx ≤ b.maxx
  y : b.miny ≤ b.maxy
  lox : ∀ p ∈ P, b.minx ≤ p.x + reach rr cz p
  hix : ∀ p ∈ P, p.x - reach rr cz p ≤ b.maxx
  loy : ∀ p ∈ P, b.miny ≤ p.y + reach rr cz p
  hiy : ∀ p ∈ P, p.y - reach rr cz p ≤ b.maxy

theorem BoxInv.sub {rr cz : ℝ} {P : List (V3 ℝ)} {b b' : Box} (h : BoxInv rr cz P b) (hs : Sub b b') : BoxInv rr cz P b' :=
  ⟨hs.minx.trans (h.x.trans hs.maxx), hs.miny.trans (h.y.trans hs.maxy), fun p hp => hs.minx.trans (h.lox p hp),
    fun p hp => (h.hix p hp).trans hs.maxx, fun p hp => hs.miny.trans (h.loy p hp), fun p hp => (h.hiy p hp).trans hs.maxy⟩

theorem sub_refl (b : Box) : Sub b b := ⟨le_rfl, le_rfl, le_rfl, le_rfl⟩

theorem Sub.trans {a b c : Box} (h : Sub a b) (h' : Sub b c) : Sub a c :=
  ⟨h'.minx.trans h.minx, h.maxx.trans h'.maxx, h'.miny.trans h.miny, h.maxy.trans h'.maxy⟩

theorem cornerStep_sub (rr cz : ℝ) (b : Box) (p : V3 ℝ) : Sub b (cornerStep rr cz b p) := by
  have ha0 := Real.sqrt_nonneg (1 / 2 : ℝ)
  unfold cornerStep
  dsimp only
  split_ifs
  all_goals first | exact sub_refl b | skip
  all_goals
    rename_i hu
    have := mul_nonneg (le_of_lt hu) ha0
    constructor <;> dsimp only <;> linarith

theorem cornerStep_covers {r cz : ℝ} {P : List (V3 ℝ)} {b : Box} (h : BoxInv (r * r) cz P b) {p : V3 ℝ} (hp : p ∈ P)
    (hz : |p.z - cz| ≤ r) : Covered (r * r) cz (cornerStep (r * r) cz b p) p := by
  have hs := reach_sq hz
  have hs0 := reach_nonneg (r * r) cz p
  have k1 := h.lox p hp
  have k2 := h.hix p hp
  have k3 := h.loy p hp
  have k4 := h.hiy p hp
  have hxy := h.x
  have hyy := h.y
  have ha0 := Real.sqrt_nonneg (1 / 2 : ℝ)
  generalize reach (r * r) cz p = s at *
  have hs' : s * s + (cz - p.z) * (cz - p.z) = r * r := by rw [← hs]; ring
  unfold cornerStep
  dsimp only
  by_cases c1 : p.x > b.maxx
  · rw [if_pos c1]
    by_cases c2 : p.y > b.maxy
    · rw [if_pos c2]
      by_cases hu : growth (r * r) (p.x - b.maxx) (p.y - b.maxy) (cz - p.z) > 0
      · rw [if_pos hu]
        have g := growth_move hs' (x0 := by linarith) (x1 := by linarith) (y0 := by linarith) (y1 := by linarith) (dx := p.x - b.maxx) (dy := p.y - b.maxy)
        have hg := mul_nonneg hu.le ha0
        refine ⟨b.maxx + growth (r * r) (p.x - b.maxx) (p.y - b.maxy) (cz - p.z) * Real.sqrt (1 / 2),
          b.maxy + growth (r * r) (p.x - b.maxx) (p.y - b.maxy) (cz - p.z) * Real.sqrt (1 / 2), by dsimp only; linarith, le_rfl, by dsimp only; linarith, le_rfl, ?_⟩
        refine le_of_eq_of_le ?_ g
        ring
      · rw [if_neg hu]
        have g := growth_stay hs' (by linarith) (by linarith) (by linarith) (by linarith) hu
        exact ⟨b.maxx, b.maxy, hxy, le_rfl, hyy, le_rfl, by linarith⟩
    · rw [if_neg c2]
      by_cases c3 : p.y < b.miny
      · rw [if_pos c3]
        by_cases hu : growth (r * r) (p.x - b.maxx) (-(p.y - b.miny)) (cz - p.z) > 0
        · rw [if_pos hu]
          have g := growth_move hs' (x0 := by linarith) (x1 := by linarith) (y0 := by linarith) (y1 := by linarith) (dx := p.x - b.maxx) (dy := -(p.y - b.miny))
          have hg := mul_nonneg hu.le ha0
          refine ⟨b.maxx + growth (r * r) (p.x - b.maxx) (-(p.y - b.miny)) (cz - p.z) * Real.sqrt (1 / 2),
            b.miny - growth (r * r) (p.x - b.maxx) (-(p.y - b.miny)) (cz - p.z) * Real.sqrt (1 / 2), by dsimp only; linarith, le_rfl, le_rfl, by dsimp only; linarith, ?_⟩
          refine le_of_eq_of_le ?_ g
          ring
        · rw [if_neg hu]
          have g := growth_stay hs' (by linarith) (by linarith) (by linarith) (by linarith) hu
          exact ⟨b.maxx, b.miny, hxy, le_rfl, le_rfl, hyy, by linarith⟩
      · rw [if_neg c3]
        refine ⟨b.maxx, p.y, hxy, le_rfl, not_lt.1 c3, not_lt.1 c2, ?_⟩
        nlinarith
  · rw [if_neg c1]
    by_cases c4 : p.x < b.minx
    · rw [if_pos c4]
      by_cases c2 : p.y > b.maxy
      · rw [if_pos c2]
        by_cases hu : growth (r * r) (-(p.x - b.minx)) (p.y - b.maxy) (cz - p.z) > 0
        · rw [if_pos hu]
          have g := growth_move hs' (x0 := by linarith) (x1 := by linarith) (y0 := by linarith) (y1 := by linarith) (dx := -(p.x - b.minx)) (dy := p.y - b.maxy)
          have hg := mul_nonneg hu.le ha0
          refine ⟨b.minx - growth (r * r) (-(p.x - b.minx)) (p.y - b.maxy) (cz - p.z) * Real.sqrt (1 / 2),
            b.maxy + growth (r * r) (-(p.x - b.minx)) (p.y - b.maxy) (cz - p.z) * Real.sqrt (1 / 2), le_rfl, by dsimp only; linarith, by dsimp only; linarith, le_rfl, ?_⟩
          refine le_of_eq_of_le ?_ g
          ring
        · rw [if_neg hu]
          have g := growth_stay hs' (by linarith) (by linarith) (by linarith) (by linarith) hu
          exact ⟨b.minx, b.maxy, le_rfl, hxy, hyy, le_rfl, by linarith⟩
      · rw [if_neg c2]
        by_cases c3 : p.y < b.miny
        · rw [if_pos c3]
          by_cases hu : growth (r * r) (-(p.x - b.minx)) (-(p.y - b.miny)) (cz - p.z) > 0
          · rw [if_pos hu]
            have g := growth_move hs' (x0 := by linarith) (x1 := by linarith) (y0 := by linarith) (y1 := by linarith) (dx := -(p.x - b.minx)) (dy := -(p.y - b.miny))
            have hg := mul_nonneg hu.le ha0
            refine ⟨b.minx - growth (r * r) (-(p.x - b.minx)) (-(p.y - b.miny)) (cz - p.z) * Real.sqrt (1 / 2),
              b.miny - growth (r * r) (-(p.x - b.minx)) (-(p.y - b.miny)) (cz - p.z) * Real.sqrt (1 / 2), le_rfl, by dsimp only; linarith, le_rfl, by dsimp only; linarith, ?_⟩
            refine le_of_eq_of_le ?_ g
            ring
          · rw [if_neg hu]
            have g := growth_stay hs' (by linarith) (by linarith) (by linarith) (by linarith) hu
            exact ⟨b.minx, b.miny, le_rfl, hxy, le_rfl, hyy, by linarith⟩
        · rw [if_neg c3]
          refine ⟨b.minx, p.y, le_rfl, hxy, not_lt.1 c3, not_lt.1 c2, ?_⟩
          nlinarith
    · rw [if_neg c4]
      rcases lt_or_ge b.maxy p.y with c2 | c2
      · exact ⟨p.x, b.maxy, not_lt.1 c4, not_lt.1 c1, hyy, le_rfl, by nlinarith⟩
      · rcases lt_or_ge p.y b.miny with c3 | c3
        · exact ⟨p.x, b.miny, not_lt.1 c4, not_lt.1 c1, le_rfl, hyy, by nlinarith⟩
        · exact ⟨p.x, p.y, not_lt.1 c4, not_lt.1 c1, c3, c2, by nlinarith⟩

theorem corners_spec {r cz : ℝ} {Q : List (V3 ℝ)} (hz : ∀ p ∈ Q, |p.z - cz| ≤ r) :
    ∀ (P : List (V3 ℝ)) (b : Box), (∀ p ∈ P, p ∈ Q) → BoxInv (r * r) cz Q b →
      Sub b (P.foldl (cornerStep (r * r) cz) b) ∧ ∀ p ∈ P, Covered (r * r) cz (P.foldl (cornerStep (r * r) cz) b) p := by
  intro P
  induction P with
  | nil => intro b _ _; exact ⟨sub_refl b, fun _ h => absurd h List.not_mem_nil⟩
  | cons a l ih =>
    intro b hP h
    rw [List.foldl_cons]
    have hs := cornerStep_sub (r * r) cz b a
    obtain ⟨i1, i2⟩ := ih (cornerStep (r * r) cz b a) (fun p hp => hP p (List.mem_cons_of_mem _ hp)) (h.sub hs)
    refine ⟨hs.trans i1, fun p hp => ?_⟩
    rcases List.mem_cons.1 hp with rfl | hp
    · exact (cornerStep_covers h (hP p List.mem_cons_self) (hz p (hP p List.mem_cons_self))).sub i1
    · exact i2 p hp

/-! ### The volume -/

theorem fitAxis_spec {axis : M3 ℝ} (ha : axis.Orthonormal) (p0 : V3 ℝ) (ps : List (V3 ℝ)) :
    (fitAxis axis p0 ps).WF ∧ ∀ p ∈ p0 :: ps, p ∈ (fitAxis axis p0 ps).pts := by
  obtain ⟨P0, hP0⟩ : ∃ P0, P0 = axis.tr.mulVec p0 := ⟨_, rfl⟩
  obtain ⟨P, hP⟩ : ∃ P, P = ps.map axis.tr.mulVec := ⟨_, rfl⟩
  have hmem : ∀ p ∈ p0 :: ps, axis.tr.mulVec p ∈ P0 :: P := by
    intro p hp
    rcases List.mem_cons.1 hp with rfl | hp
    · rw [hP0]; exact List.mem_cons_self
    · rw [hP]; exact List.mem_cons_of_mem _ (List.mem_map_of_mem hp)
  obtain ⟨hz, top, htop, etop⟩ := rangeZ_spec P0 P
  obtain ⟨zr, hzr⟩ : ∃ zr, zr = rangeZ P0 P := ⟨_, rfl⟩
  obtain ⟨r, hr⟩ : ∃ r, r = (1 / 2) * (zr.2 - zr.1) := ⟨_, rfl⟩
  obtain ⟨cz, hcz⟩ : ∃ cz, cz = (1 / 2) * (zr.2 + zr.1) := ⟨_, rfl⟩
  rw [← hzr] at hz etop
  have hdz : ∀ p ∈ P0 :: P, |p.z - cz| ≤ r := by
    intro p hp
    have := hz p hp
    rw [abs_le, hr, hcz]
    constructor <;> linarith
  have hr0 : 0 ≤ r := (abs_nonneg _).trans (hdz P0 List.mem_cons_self)
  have htr : reach (r * r) cz top = 0 := by
    have e : top.z - cz = r := by rw [etop, hr, hcz]; ring
    rw [reach, e, _root_.sub_self, max_self, Real.sqrt_zero]
  have hx := range_spec V3.x (r * r) cz P0 P
  have hy := range_spec V3.y (r * r) cz P0 P
  obtain ⟨B, hB⟩ : ∃ B, B = (⟨(range V3.x (r * r) cz P0 P).1, (range V3.x (r * r) cz P0 P).2, (range V3.y (r * r) cz P0 P).1,
    (range V3.y (r * r) cz P0 P).2⟩ : Box) := ⟨_, rfl⟩
  have hinv : BoxInv (r * r) cz (P0 :: P) B := by
    have tx := hx top htop
    have ty := hy top htop
    rw [htr] at tx ty
    rw [hB]
    refine ⟨?_, ?_, fun p hp => (hx p hp).1, fun p hp => (hx p hp).2, fun p hp => (hy p hp).1, fun p hp => (hy p hp).2⟩ <;>
      dsimp only <;> linarith
  obtain ⟨hs, hcov⟩ := corners_spec hdz (P0 :: P) B (fun _ h => h) hinv
  obtain ⟨B', hB'⟩ : ∃ B', B' = (P0 :: P).foldl (cornerStep (r * r) cz) B := ⟨_, rfl⟩
  rw [← hB'] at hs hcov
  have hinv' := hinv.sub hs
  have e : fitAxis axis p0 ps = ⟨axis, B'.minx • axis.col 0 + B'.miny • axis.col 1 + cz • axis.col 2, B'.maxx - B'.minx, B'.maxy - B'.miny, r⟩ := by
    have e1 : ¬ B'.maxx - B'.minx < 0 := by linarith [hinv'.x]
    have e2 : ¬ B'.maxy - B'.miny < 0 := by linarith [hinv'.y]
    unfold fitAxis
    dsimp only
    rw [← hP0, ← hP, ← hzr, ← hr, ← hcz, ← hB, ← hB', if_neg e1, if_neg e2]
  rw [e]
  refine ⟨⟨ha, sub_nonneg.2 hinv'.x, sub_nonneg.2 hinv'.y, hr0⟩, fun p hp => ?_⟩
  obtain ⟨x, y, h1, h2, h3, h4, h5⟩ := hcov _ (hmem p hp)
  refine ⟨_, ⟨x - B'.minx, y - B'.miny, by linarith, by dsimp only; linarith, by linarith, by dsimp only; linarith, rfl⟩, ?_⟩
  have ep : p = axis.mulVec (axis.tr.mulVec p) := (ha.mul_tr p).symm
  have ed : p - (B'.minx • axis.col 0 + B'.miny • axis.col 1 + cz • axis.col 2 + (x - B'.minx) • axis.col 0 + (y - B'.miny) • axis.col 1) =
      axis.mulVec (axis.tr.mulVec p - ⟨x, y, cz⟩) := by
    rw [M3.mulVec_sub, ← ep, mulVec_cols axis ⟨x, y, cz⟩]
    v3
  dsimp only
  rw [ed, ha.dot]
  simpa [V3.dot] using h5

end RSS
end Fcl
