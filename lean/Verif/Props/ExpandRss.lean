import Verif.Props.Expand

/-!
# C117: the expansion of a hierarchy of rectangle swept spheres
-/

namespace Fcl

private theorem points_zero (u : Variance3 ℝ) (v : V3 ℝ) : u.points 0 v = [v, v, v, v, v, v] := by
  have h1 : ∀ k, v + (0 * u.sigma k) • u.axis k = v := fun k => by apply V3.ext' <;> simp
  have h2 : ∀ k, v - (0 * u.sigma k) • u.axis k = v := fun k => by apply V3.ext' <;> simp
  simp only [Variance3.points, h1, h2]

/-- The volume fitted to six times the origin is the origin. -/
private theorem fit_origin (prec : ℝ) (absorb : ℝ → ℝ → Bool) : ∃ b : RSS ℝ,
    RSS.fit prec (Jacobi.eigenOld absorb) [⟨0, 0, 0⟩, ⟨0, 0, 0⟩, ⟨0, 0, 0⟩, ⟨0, 0, 0⟩, ⟨0, 0, 0⟩, ⟨0, 0, 0⟩] = some b ∧
      ∀ p ∈ b.pts, p = ⟨0, 0, 0⟩ := by
  have hc : OBB.covariance ([⟨0, 0, 0⟩, ⟨0, 0, 0⟩, ⟨0, 0, 0⟩, ⟨0, 0, 0⟩, ⟨0, 0, 0⟩, ⟨0, 0, 0⟩] : List (V3 ℝ)) =
      ⟨⟨0, 0, 0⟩, ⟨0, 0, 0⟩, ⟨0, 0, 0⟩⟩ := by
    rw [OBB.covariance]
    simp only [List.map_cons, List.map_nil, List.foldl_cons, List.foldl_nil, List.length_cons, List.length_nil, M3.mk.injEq, V3.mk.injEq]
    norm_num
  simp only [RSS.fit, RSS.fitn, hc]
  rw [Jacobi.eigenOld_diag absorb ⟨0, 0, 0⟩]
  refine ⟨_, rfl, ?_⟩
  have e : ∀ A : M3 ℝ, RSS.fitAxis A ⟨0, 0, 0⟩ [⟨0, 0, 0⟩, ⟨0, 0, 0⟩, ⟨0, 0, 0⟩, ⟨0, 0, 0⟩, ⟨0, 0, 0⟩] = ⟨A, ⟨0, 0, 0⟩, 0, 0, 0⟩ := by
    intro A
    have h0 : A.tr.mulVec ⟨0, 0, 0⟩ = ⟨0, 0, 0⟩ := by apply V3.ext' <;> simp [M3.mulVec, V3.dot]
    simp only [RSS.fitAxis, List.map_cons, List.map_nil, h0]
    norm_num [RSS.rangeZ, RSS.range, RSS.extremes, RSS.reach, RSS.cornerStep]
    apply V3.ext' <;> simp
  rw [e]
  rintro p ⟨q, ⟨x, y, x0, x1, y0, y1, rfl⟩, h⟩
  obtain rfl : x = 0 := le_antisymm x1 x0
  obtain rfl : y = 0 := le_antisymm y1 y0
  simp only [V3.dot, V3.sub_x, V3.sub_y, V3.sub_z, V3.add_x, V3.add_y, V3.add_z, V3.smul_x, V3.smul_y, V3.smul_z] at h
  apply V3.ext' <;> simp only <;> nlinarith [sq_nonneg p.x, sq_nonneg p.y, sq_nonneg p.z]

private theorem fit_left (prec : ℝ) (absorb : ℝ → ℝ → Bool) : ∃ b : RSS ℝ,
    RSS.fit prec (Jacobi.eigenOld absorb) [⟨-10, 0, 0⟩, ⟨-10, 0, 0⟩, ⟨-10, 0, 0⟩, ⟨-10, 0, 0⟩, ⟨-10, 0, 0⟩, ⟨-10, 0, 0⟩] = some b := by
  have hc : OBB.covariance ([⟨-10, 0, 0⟩, ⟨-10, 0, 0⟩, ⟨-10, 0, 0⟩, ⟨-10, 0, 0⟩, ⟨-10, 0, 0⟩, ⟨-10, 0, 0⟩] : List (V3 ℝ)) =
      ⟨⟨0, 0, 0⟩, ⟨0, 0, 0⟩, ⟨0, 0, 0⟩⟩ := by
    rw [OBB.covariance]
    simp only [List.map_cons, List.map_nil, List.foldl_cons, List.foldl_nil, List.length_cons, List.length_nil, M3.mk.injEq, V3.mk.injEq]
    norm_num
  simp only [RSS.fit, RSS.fitn, hc]
  rw [Jacobi.eigenOld_diag absorb ⟨0, 0, 0⟩]
  exact ⟨_, rfl⟩

private theorem fit_both (prec : ℝ) (absorb : ℝ → ℝ → Bool) : ∃ b : RSS ℝ,
    RSS.fit prec (Jacobi.eigenOld absorb) [⟨0, 0, 0⟩, ⟨0, 0, 0⟩, ⟨0, 0, 0⟩, ⟨0, 0, 0⟩, ⟨0, 0, 0⟩, ⟨0, 0, 0⟩,
      ⟨-10, 0, 0⟩, ⟨-10, 0, 0⟩, ⟨-10, 0, 0⟩, ⟨-10, 0, 0⟩, ⟨-10, 0, 0⟩, ⟨-10, 0, 0⟩] = some b := by
  have hc : OBB.covariance ([⟨0, 0, 0⟩, ⟨0, 0, 0⟩, ⟨0, 0, 0⟩, ⟨0, 0, 0⟩, ⟨0, 0, 0⟩, ⟨0, 0, 0⟩,
      ⟨-10, 0, 0⟩, ⟨-10, 0, 0⟩, ⟨-10, 0, 0⟩, ⟨-10, 0, 0⟩, ⟨-10, 0, 0⟩, ⟨-10, 0, 0⟩] : List (V3 ℝ)) =
      ⟨⟨300, 0, 0⟩, ⟨0, 0, 0⟩, ⟨0, 0, 0⟩⟩ := by
    rw [OBB.covariance]
    simp only [List.map_cons, List.map_nil, List.foldl_cons, List.foldl_nil, List.length_cons, List.length_nil, M3.mk.injEq, V3.mk.injEq]
    norm_num
  simp only [RSS.fit, RSS.fitn, hc]
  rw [Jacobi.eigenOld_diag absorb ⟨300, 0, 0⟩]
  exact ⟨_, rfl⟩

/-- **C117 is violated** for rectangle swept spheres, even with radius 0 and whatever the uncertainties are: two points,
the first at the origin and the second to the left of it, and any construction that puts the second into the left child.
The expansion ends, and afterwards the leaf of the second point does not hold it. -/
theorem C117_violated_rss (prec : ℝ) (absorb : ℝ → ℝ → Bool) (u0 u1 : Variance3 ℝ) (B : Builder (RSS ℝ))
    (h0 : ∀ bv l, B.right bv l 0 = true) (h1 : ∀ bv l, B.right bv l 1 = false) (n0 n1 n2 : BVNode (RSS ℝ)) :
    ∃ s bvs' t ids, buildTree B 2 2 [n0, n1, n2] [0, 0, 0] = some s ∧
      bvhExpand (RSS.fit prec (Jacobi.eigenOld absorb)) [⟨0, 0, 0⟩, ⟨-10, 0, 0⟩] [u0, u1] 0 s.numBvs 0 s.bvs = some bvs' ∧
      IsTree bvs' s.prims 0 0 2 ids t ∧ ∃ bv, BT.Below (.leaf bv 1) t ∧ (⟨-10, 0, 0⟩ : V3 ℝ) ∉ bv.pts := by
  obtain ⟨b0, e0, hb⟩ := fit_origin prec absorb
  obtain ⟨b1, e1⟩ := fit_left prec absorb
  obtain ⟨b, e⟩ := fit_both prec absorb
  refine ⟨⟨[⟨B.fit [0, 1], 0, 2, 1⟩, ⟨B.fit [1], 0, 1, -2⟩, ⟨B.fit [0], 1, 1, -1⟩], 3, [1, 0, 0]⟩,
    [⟨b, 0, 2, 1⟩, ⟨b0, 0, 1, -2⟩, ⟨b1, 1, 1, -1⟩], .node b (.leaf b0 1) (.leaf b1 0), [0, 1, 2], ?_, ?_, ?_,
    b0, .left (.refl _), fun h => ?_⟩
  · simp [buildTree, recursiveBuildTree, partLoop, h0, h1, List.range_succ]
  · simp [bvhExpand, expandPoints, points_zero, e0, e1, e]
  · exact .node (c := 1) (n1 := 1) (n2 := 1) (ids1 := [1]) (ids2 := [2]) rfl (.leaf rfl rfl) (.leaf rfl rfl) rfl
  · have := congrArg V3.x (hb _ h)
    norm_num at this

/-- The split at the mean of the two points is such a construction. -/
example (fit : List ℕ → RSS ℝ) (prec : ℝ) (absorb : ℝ → ℝ → Bool) (u0 u1 : Variance3 ℝ) :=
  C117_violated_rss prec absorb u0 u1 ⟨fit, fun _ _ p => match ([⟨0, 0, 0⟩, ⟨-10, 0, 0⟩] : List (V3 ℝ))[p]? with
    | some v => decide (v.x > -5)
    | none => false⟩ (by simp) (by intro _ _; simp; norm_num)

end Fcl
