import Verif.Motion.ContinuousSpec
import Verif.Motion.Lemmas
import Verif.Geom.Convexity
import Verif.Props.Motion
import Verif.Props.SphereQueries
import Verif.Props.ShapeVolumes
import Verif.Props.TriDist

/-!
# C97, C98: continuous collision
-/

namespace Fcl

namespace Motion
open V3

/-! ### The motions as conservative advancement needs them -/

theorem good_translation {tf1 tf2 : Pose ℝ} (h1 : tf1.Rigid) (hr : tf1.R = tf2.R) : (translation tf1 tf2).Good := by
  obtain ⟨l, b⟩ := C96_translation h1 hr
  refine ⟨?_, l.rigid, b, fun s v => by simp [translation, V3.dot]⟩
  have h3 := l.start
  have h4 := l.init
  have : (translation tf1 tf2).init.tf = ((translation tf1 tf2).integrate 0).tf := by rw [h3, h4]
  simp only [translation] at *
  rw [MotionState.mk.injEq]
  exact ⟨this, rfl⟩

theorem cross_zero' (a : V3 ℝ) : (a.cross 0).nrm = 0 := by
  have : a.cross 0 = 0 := by apply V3.ext' <;> simp [V3.cross]
  rw [this, V3.nrm_zero]

theorem good_interp {tf1 tf2 : Pose ℝ} (h1 : tf1.Rigid) (ref : V3 ℝ) {aa : ℝ × V3 ℝ} (h : IsAngleAxis (tf2.R.mul tf1.R.tr) aa) :
    (interp (.make tf1 tf2 ref aa)).Good := by
  obtain ⟨l, b⟩ := C96_interp h1 ref h
  refine ⟨?_, l.rigid, b, fun s v => by simp [interp, cross_zero', V3.dot]⟩
  have h3 := l.start
  have h4 := l.init
  have : (interp (.make tf1 tf2 ref aa)).init.tf = ((interp (.make tf1 tf2 ref aa)).integrate 0).tf := by rw [h3, h4]
  simp only [interp] at *
  rw [MotionState.mk.injEq]
  exact ⟨this, rfl⟩

theorem good_screw {tf1 tf2 : Pose ℝ} (h1 : tf1.Rigid) {aa : ℝ × V3 ℝ} (h : IsAngleAxis (tf2.R.mul tf1.R.tr) aa)
    (hl : 1 / 10 ^ 10 ≤ |aa.1|) : (screw (.make tf1 tf2 aa)).Good := by
  obtain ⟨l, b⟩ := C96_screw h1 h hl
  refine ⟨?_, l.rigid, b, fun s v => by simp [screw, cross_zero', V3.dot]⟩
  have h3 := l.start
  have h4 := l.init
  have : (screw (.make tf1 tf2 aa)).init.tf = ((screw (.make tf1 tf2 aa)).integrate 0).tf := by rw [h3, h4]
  simp only [screw] at *
  rw [MotionState.mk.injEq]
  exact ⟨this, rfl⟩

end Motion

namespace Continuous
open V3 Motion

/-! ### Sampling -/

theorem naiveLoop_spec {hit : Pose ℝ → Pose ℝ → Bool} {m1 m2 : Motion} {n : ℕ} : ∀ {k i : ℕ},
    (naiveLoop hit m1 m2 n k i = none → ∀ j, i ≤ j → j < i + k → hit (m1.integrate (sample n j)).tf (m2.integrate (sample n j)).tf = false) ∧
    ∀ o, naiveLoop hit m1 m2 n k i = some o → ∃ j, i ≤ j ∧ j < i + k ∧
      o = (sample n j, (m1.integrate (sample n j)).tf, (m2.integrate (sample n j)).tf) ∧
      hit (m1.integrate (sample n j)).tf (m2.integrate (sample n j)).tf = true ∧
      ∀ l, i ≤ l → l < j → hit (m1.integrate (sample n l)).tf (m2.integrate (sample n l)).tf = false := by
  intro k
  induction k with
  | zero => exact fun {i} => ⟨fun _ j h1 h2 => absurd h2 (by omega), fun o h => by simp [naiveLoop] at h⟩
  | succ k ih =>
    intro i
    simp only [naiveLoop]
    change (((if hit (m1.integrate (sample n i)).tf (m2.integrate (sample n i)).tf = true then _ else _) = none → _) ∧
      ∀ o, ((if hit (m1.integrate (sample n i)).tf (m2.integrate (sample n i)).tf = true then _ else _) = some o → _))
    by_cases c : hit (m1.integrate (sample n i)).tf (m2.integrate (sample n i)).tf = true
    · simp only [c, if_true]
      refine ⟨fun h => (by cases h), fun o h => ?_⟩
      cases h
      exact ⟨i, le_rfl, by omega, rfl, c, fun l h1 h2 => by omega⟩
    · simp only [c, if_false, Bool.false_eq_true]
      have c' : hit (m1.integrate (sample n i)).tf (m2.integrate (sample n i)).tf = false := by simpa using c
      obtain ⟨h1, h2⟩ := @ih (i + 1)
      refine ⟨fun h j hj hk => ?_, fun o h => ?_⟩
      · rcases hj.eq_or_lt with e | e
        · rw [← e]; exact c'
        · exact h1 h j e (by omega)
      · obtain ⟨j, hj, hk, ho, hh, hl⟩ := h2 o h
        refine ⟨j, by omega, by omega, ho, hh, fun l h3 h4 => ?_⟩
        rcases h3.eq_or_lt with e | e
        · rw [← e]; exact c'
        · exact hl l e h4

/-- **C97.** Naive continuous collision is exact at its samples: with an exact collision test it reports the first sample at which the
bodies touch. The number of samples is `n = min(num_max_iterations, ⌈1 / toc_err⌉)`, from 2 on. -/
theorem C97_naive {hit : Pose ℝ → Pose ℝ → Bool} {m1 m2 : Motion} {A B : Set (V3 ℝ)} {maxIter : ℕ} {tocErr : ℝ} (r0 : CCResult)
    (h1 : ∀ t, 0 ≤ t → t ≤ 1 → (m1.integrate t).tf.Rigid) (h2 : ∀ t, 0 ≤ t → t ≤ 1 → (m2.integrate t).tf.Rigid)
    (hh : ∀ X Y : Pose ℝ, X.Rigid → Y.Rigid → (hit X Y = true ↔ Touch (Placed X.R X.t A) (Placed Y.R Y.t B)))
    (hn : 2 ≤ numIter maxIter tocErr) : Sampled m1 m2 A B (numIter maxIter tocErr) r0 (naive hit m1 m2 maxIter tocErr r0) := by
  simp only [naive]
  generalize numIter maxIter tocErr = n at *
  have hn' : (2 : ℝ) ≤ n := by exact_mod_cast hn
  have hs : ∀ i < n, hit (m1.integrate (sample n i)).tf (m2.integrate (sample n i)).tf = true ↔ TouchAt m1 m2 A B (sample n i) := fun i hi => by
    have hi' : (i : ℝ) + 1 ≤ n := by exact_mod_cast hi
    have a : 0 ≤ sample n i := div_nonneg (Nat.cast_nonneg i) (by linarith)
    have b : sample n i ≤ 1 := by rw [sample, div_le_one (by linarith)]; linarith
    exact hh _ _ (h1 _ a b) (h2 _ a b)
  have hs' : ∀ i < n, hit (m1.integrate (sample n i)).tf (m2.integrate (sample n i)).tf = false ↔ ¬ TouchAt m1 m2 A B (sample n i) := fun i hi => by
    rw [← hs i hi]; simp
  obtain ⟨k1, k2⟩ := @naiveLoop_spec hit m1 m2 n n 0
  cases e : naiveLoop hit m1 m2 n n 0 with
  | none =>
    have := k1 e
    exact ⟨⟨fun h => by simp at h, fun ⟨i, hi, ht⟩ => absurd ht ((hs' i hi).1 (this i (by omega) (by omega)))⟩, fun h => by simp at h, fun _ => ⟨rfl, rfl, rfl⟩⟩
  | some o =>
    obtain ⟨j, -, hj, rfl, hhit, hl⟩ := k2 o e
    replace hj : j < n := by omega
    have ht := (hs j hj).1 hhit
    exact ⟨⟨fun _ => ⟨j, hj, ht⟩, fun _ => rfl⟩,
      fun _ => ⟨j, hj, rfl, ht, fun l h => (hs' l (by omega)).1 (hl l (by omega) h), rfl, rfl⟩, fun h => by simp at h⟩

/-! ### Conservative advancement -/

/-- **Conservative advancement ends**, whatever the traversal gives: `1 / terr` rounds and one more are enough. -/
theorem advance_some {X : Type*} {terr : ℝ} {m1 m2 : Motion} {round : X → MotionState → MotionState → ℝ × X} : ∀ {fuel : ℕ} {x : X} {toc : ℝ}
    {s1 s2 : MotionState}, 1 - toc < fuel * terr → 0 < fuel → ∃ o, advance terr m1 m2 round fuel x toc s1 s2 = some o := by
  intro fuel
  induction fuel with
  | zero => intro x toc s1 s2 _ h; cases h
  | succ fuel ih =>
    intro x toc s1 s2 h _
    simp only [advance]
    split_ifs with c1 c2
    · exact ⟨_, rfl⟩
    · exact ⟨_, rfl⟩
    · push_cast at h
      push Not at c1 c2
      refine ih (by linarith) (Nat.pos_of_ne_zero fun h0 => ?_)
      rw [h0] at h
      norm_num at h
      linarith

theorem stepTime_le_one (nz : Bool) (d b : ℝ) : stepTime nz d b ≤ 1 := by
  simp only [stepTime]
  split_ifs with h1 h2 h3 h4
  all_goals first | exact le_rfl | exact h4.le | norm_num

/-- What a distance above zero and a bound give. -/
theorem stepTime_pos {nz : Bool} {d b u : ℝ} (hd : 0 < d) (hu : 0 ≤ u) (h : u < stepTime nz d b) : u * b < d := by
  have h1 := stepTime_le_one nz d b
  rcases le_or_gt b d with hb | hb
  · rcases le_or_gt b 0 with hb0 | hb0
    · have := mul_nonneg hu (neg_nonneg.2 hb0); linarith
    · have := mul_lt_mul_of_pos_right (lt_of_lt_of_le h h1) hb0; linarith
  · have hb0 : 0 < b := hd.trans hb
    have : stepTime nz d b ≤ d / b := by
      simp only [stepTime, if_neg (not_le.2 hb), hb0.ne', false_and, if_false]
      split_ifs with c
      · exact le_rfl
      · exact not_lt.1 c
    rw [← lt_div_iff₀ hb0]
    exact lt_of_lt_of_le h this

theorem stepTime_small {nz : Bool} {d b e : ℝ} (hd : 0 < d) (he : e < 1) (h : stepTime nz d b ≤ e) : d ≤ e * b := by
  simp only [stepTime] at h
  by_cases hb : b ≤ d
  · rw [if_pos hb] at h; linarith
  · have hb0 : 0 < b := hd.trans (not_le.1 hb)
    simp only [if_neg hb, hb0.ne', false_and, if_false] at h
    split_ifs at h
    · rwa [div_le_iff₀ hb0] at h
    · linarith

section
variable {m1 m2 : Motion} {A B : Set (V3 ℝ)} {b1 b2 : RSS ℝ} {dist : Pose ℝ → Pose ℝ → DistOut}

/-- What one round at time `t` gives. -/
theorem shapeRound_spec (g1 : m1.Good) (g2 : m2.Good) (cA : ConvexSet A) (cB : ConvexSet B) (w1 : b1.WF) (w2 : b2.WF) (hA : A ⊆ b1.pts)
    (hB : B ⊆ b2.pts) (hd : ∀ X Y : Pose ℝ, X.Rigid → Y.Rigid → DistSpec (Placed X.R X.t A) (Placed Y.R Y.t B) (dist X Y)) {t : ℝ}
    (h0 : 0 ≤ t) (h1 : t ≤ 1) :
    (TouchAt m1 m2 A B t ∧ shapeRound false dist b1 b2 m1 m2 (m1.integrate t) (m2.integrate t) = -1) ∨
    ((∀ u, t ≤ u → u ≤ 1 → u < t + shapeRound false dist b1 b2 m1 m2 (m1.integrate t) (m2.integrate t) → ¬ TouchAt m1 m2 A B u) ∧
      ∀ e < 1, shapeRound false dist b1 b2 m1 m2 (m1.integrate t) (m2.integrate t) ≤ e → ∃ p ∈ m1.bodyAt A t, ∃ q ∈ m2.bodyAt B t, ∃ n : V3 ℝ,
        n.nrm = 1 ∧ p.dist q ≤ e * (m1.bvBound (m1.integrate t) b1 n + m2.bvBound (m2.integrate t) b2 (-n))) := by
  have r1 := g1.rigid t h0 h1
  have r2 := g2.rigid t h0 h1
  have s := hd _ _ r1 r2
  simp only [shapeRound]
  generalize ho : dist (m1.integrate t).tf (m2.integrate t).tf = o at *
  cases hr : o.ret
  · left
    obtain ⟨hm, hp⟩ := s.contact hr
    refine ⟨by_contra fun hn => (by rw [(s.ret.2 hn)] at hr; cases hr), ?_⟩
    have e0 : (0 : V3 ℝ) - 0 = 0 := by v3
    have e1 : -(0 : V3 ℝ) = 0 := by v3
    have e2 : (0 : V3 ℝ).dot 0 = 0 := by simp [V3.dot]
    simp only [hp, hm, Option.getD_none, e0, e2, lt_irrefl, if_false, e1, g1.still, g2.still, stepTime]
    norm_num
  · right
    obtain ⟨hpos, p, q, hp, hi⟩ := s.apart hr
    simp only [hp, Option.getD_some]
    have hn : (q - p).nrm = o.dist := by rw [← V3.dist_eq, V3.dist_comm, hi.attained]
    have hq : (q - p).dot (q - p) > 0 := by rw [← V3.nrm_mul_self, hn]; exact mul_pos hpos hpos
    have hs : Real.sqrt ((q - p).dot (q - p)) = o.dist := hn
    rw [if_pos hq, hs]
    obtain ⟨un, hsep⟩ := isDist_direction (placed_convex cA (m1.integrate t).tf.R (m1.integrate t).tf.t)
      (placed_convex cB (m2.integrate t).tf.R (m2.integrate t).tf.t) hi hpos
    generalize (1 / o.dist) • (q - p) = n at *
    refine ⟨fun u h2 h3 h4 => ?_, fun e he h => ⟨p, hi.left, q, hi.right, n, un, ?_⟩⟩
    · rintro ⟨z, ⟨x, hx, hzx⟩, y, hy, hzy⟩
      have k := stepTime_pos hpos (sub_nonneg.2 h2) (by linarith : u - t < _)
      have k1 := g1.bounds.bv t u h0 h2 h3 b1 w1 n x (hA hx)
      have k2 := g2.bounds.bv t u h0 h2 h3 b2 w2 (-n) y (hB hy)
      have k3 := hsep _ ⟨x, hx, rfl⟩ _ ⟨y, hy, rfl⟩
      simp only [Pose.apply] at k1 k2
      rw [← hzx] at k1
      rw [← hzy] at k2
      rw [neg_dot] at k2
      rw [dot_sub] at k1 k2 k3
      linarith
    · rw [hi.attained]
      exact stepTime_small hpos he h

theorem advance_safe (g1 : m1.Good) (g2 : m2.Good) (cA : ConvexSet A) (cB : ConvexSet B) (w1 : b1.WF) (w2 : b2.WF) (hA : A ⊆ b1.pts)
    (hB : B ⊆ b2.pts) (hd : ∀ X Y : Pose ℝ, X.Rigid → Y.Rigid → DistSpec (Placed X.R X.t A) (Placed Y.R Y.t B) (dist X Y)) {terr : ℝ}
    (he : 0 ≤ terr) (he1 : terr < 1) : ∀ {fuel : ℕ} {toc toc' : ℝ} {s1 s2 : MotionState}, 0 ≤ toc → toc ≤ 1 →
      (∀ u, 0 ≤ u → u < toc → ¬ TouchAt m1 m2 A B u) →
      advance terr m1 m2 (fun (_ : Unit) s1 s2 => (shapeRound false dist b1 b2 m1 m2 s1 s2, ())) fuel () toc (m1.integrate toc) (m2.integrate toc) =
        some (toc', s1, s2) → 0 ≤ toc' ∧ toc' ≤ 1 ∧ (∀ u, 0 ≤ u → u < toc' → ¬ TouchAt m1 m2 A B u) ∧
        (toc' < 1 → TouchAt m1 m2 A B toc' ∨ ∃ p ∈ m1.bodyAt A toc', ∃ q ∈ m2.bodyAt B toc', ∃ n : V3 ℝ, n.nrm = 1 ∧
          p.dist q ≤ terr * (m1.bvBound (m1.integrate toc') b1 n + m2.bvBound (m2.integrate toc') b2 (-n))) := by
  intro fuel
  induction fuel with
  | zero => intro toc toc' s1 s2 _ _ _ h; simp [advance] at h
  | succ fuel ih =>
    intro toc toc' s1 s2 h0 h1 hf h
    simp only [advance] at h
    have k := shapeRound_spec g1 g2 cA cB w1 w2 hA hB hd h0 h1
    generalize shapeRound false dist b1 b2 m1 m2 (m1.integrate toc) (m2.integrate toc) = delta at *
    split_ifs at h with c1 c2
    · simp only [Option.some.injEq, Prod.mk.injEq] at h
      obtain ⟨rfl, -, -⟩ := h
      exact ⟨h0, h1, hf, fun _ => k.imp (·.1) fun k => k.2 terr he1 c1⟩
    · simp only [Option.some.injEq, Prod.mk.injEq] at h
      obtain ⟨rfl, -, -⟩ := h
      refine ⟨zero_le_one, le_rfl, fun u hu hu1 => ?_, fun h => absurd h (lt_irrefl _)⟩
      rcases lt_or_ge u toc with hl | hl
      · exact hf u hu hl
      · rcases k with ⟨-, k⟩ | ⟨k, -⟩
        · rw [k] at c1; exact absurd (by linarith) c1
        · exact k u hl hu1.le (by linarith)
    · push Not at c1 c2
      refine ih (by linarith) c2 (fun u hu hu1 => ?_) h
      rcases lt_or_ge u toc with hl | hl
      · exact hf u hu hl
      · rcases k with ⟨-, k⟩ | ⟨k, -⟩
        · rw [k] at c1; linarith
        · exact k u hl (by linarith) hu1

/-- **C98 for two convex shapes**, with an exact collision test and an exact distance, for motions in their initial state: the loop ends
after at most 10001 rounds, the answer is never too late, and a reported contact is one up to a gap of a 10000th of the greatest speed of
approach that the motion bounds allow. Missing: a contact at time 1 only (`C98_violated_end`); that there is a contact if one is
reported (`C98_violated_graze`); negative zeros (`C98_violated_zero`). -/
theorem C98_shapes_partial {hit : Pose ℝ → Pose ℝ → Bool} (g1 : m1.Good) (g2 : m2.Good) (cA : ConvexSet A) (cB : ConvexSet B) (w1 : b1.WF)
    (w2 : b2.WF) (hA : A ⊆ b1.pts) (hB : B ⊆ b2.pts)
    (hd : ∀ X Y : Pose ℝ, X.Rigid → Y.Rigid → DistSpec (Placed X.R X.t A) (Placed Y.R Y.t B) (dist X Y))
    (hh : ∀ X Y : Pose ℝ, X.Rigid → Y.Rigid → (hit X Y = true ↔ Touch (Placed X.R X.t A) (Placed Y.R Y.t B)))
    {fuel : ℕ} (hfuel : 10001 ≤ fuel) (r0 : CCResult) :
    ∃ r s1 s2, shapes false hit dist b1 b2 m1 m2 fuel m1.init m2.init r0 = some (r, s1, s2) ∧ Safe m1 m2 A B r ∧
      ∀ v, (∀ t n, 0 ≤ t → t ≤ 1 → n.nrm = 1 → m1.bvBound (m1.integrate t) b1 n + m2.bvBound (m2.integrate t) b2 (-n) ≤ v) → 0 ≤ v →
        Near m1 m2 A B (v / 10000) r := by
  have hs : hit m1.init.tf m2.init.tf = true ↔ TouchAt m1 m2 A B 0 := by
    rw [g1.init, g2.init]
    exact hh _ _ (g1.rigid 0 le_rfl zero_le_one) (g2.rigid 0 le_rfl zero_le_one)
  simp only [shapes, conservative]
  by_cases c : hit m1.init.tf m2.init.tf = true
  · simp only [c, if_true, Option.map_some, true_or]
    refine ⟨_, _, _, rfl, ⟨⟨le_rfl, zero_le_one⟩, fun t h h' => absurd h (not_le.2 h'), fun h => by simp at h, fun _ => ⟨rfl, rfl⟩, fun _ => ⟨rfl, rfl⟩⟩,
      fun v _ hv _ => ?_⟩
    obtain ⟨p, hp, hq⟩ := hs.1 c
    exact ⟨p, hp, p, hq, by rw [V3.dist_self]; positivity⟩
  · have hf' : (10001 : ℝ) ≤ fuel := by exact_mod_cast hfuel
    obtain ⟨⟨toc, s1, s2⟩, ho⟩ := advance_some (m1 := m1) (m2 := m2) (terr := shapeErr) (x := ()) (s1 := m1.init) (s2 := m2.init) (toc := 0)
      (fuel := fuel) (round := fun (_ : Unit) s1 s2 => (shapeRound false dist b1 b2 m1 m2 s1 s2, ())) (by rw [shapeErr]; linarith) (by omega)
    have hns : ¬ TouchAt m1 m2 A B 0 := fun h => c (hs.2 h)
    obtain ⟨k0, k1, kf, kn⟩ := advance_safe g1 g2 cA cB w1 w2 hA hB hd (terr := shapeErr) (by norm_num [shapeErr]) (by norm_num [shapeErr]) le_rfl
      zero_le_one (fun u hu hu0 => absurd hu (not_le.2 hu0)) (by rw [← g1.init, ← g2.init]; exact ho)
    simp only [c, if_false, ho, Option.map_some, Bool.false_eq_true, false_or]
    by_cases ht : toc < 1
    · simp only [ht, if_true]
      refine ⟨_, _, _, rfl, ⟨⟨k0, k1⟩, kf, fun h => by simp at h, fun h => absurd h hns, fun _ => ⟨rfl, rfl⟩⟩, fun v hv hv0 _ => ?_⟩
      rcases kn ht with ⟨p, hp, hq⟩ | ⟨p, hp, q, hq, n, hn, h⟩
      · exact ⟨p, hp, p, hq, by rw [V3.dist_self]; positivity⟩
      · refine ⟨p, hp, q, hq, h.trans ?_⟩
        have := hv toc n k0 k1 hn
        rw [shapeErr]; linarith
    · simp only [ht, if_false]
      exact ⟨_, _, _, rfl, ⟨⟨k0, k1⟩, kf, fun _ => le_antisymm k1 (not_lt.1 ht), fun h => absurd h hns, fun h => by simp at h⟩,
        fun v _ _ h => by simp at h⟩

end

/-! ### Spheres -/

theorem sphereHit_iff {eps r : ℝ} (he : 0 ≤ eps) (hr : 0 ≤ r) {g : Geo ℝ} (hg : Simple g) (hw : g.WF) {X Y : Pose ℝ} (hX : X.Rigid) (hY : Y.Rigid) :
    sphereHit eps r g X Y = true ↔ Touch (Placed X.R X.t (Geo.sphere r).pts) (Placed Y.R Y.t g.pts) := by
  cases g with
  | sphere r2 => exact (C40_intersect r r2 hr hw X Y hX hY none _ _ rfl rfl).ret
  | capsule r2 lz => exact (C41_intersect_partial r r2 lz hr hw.1 hw.2 X Y hX hY none _ _ rfl rfl).ret
  | box side => exact (C42_intersect eps r he hr side hw X Y hX hY none _ _ rfl rfl).ret
  | cylinder r2 lz => exact (C63_intersect eps r he hr r2 lz hw X Y hX hY none _ _ rfl rfl).ret
  | _ => exact hg.elim

theorem sphereDist_spec {r : ℝ} (hr : 0 ≤ r) {g : Geo ℝ} (hg : Simple g) (hw : g.WF) {X Y : Pose ℝ} (hX : X.Rigid) (hY : Y.Rigid) :
    DistSpec (Placed X.R X.t (Geo.sphere r).pts) (Placed Y.R Y.t g.pts) (sphereDist r g X Y) := by
  cases g with
  | sphere r2 => exact C40_distance r r2 hr hw X Y hX hY
  | capsule r2 lz => exact C41_distance r r2 lz hr hw.1 hw.2 X Y hX hY
  | box side => exact C42_distance r hr side hw X Y hX hY
  | cylinder r2 lz => exact C63_distance r hr r2 lz hw X Y hX hY
  | _ => exact hg.elim

/-- **C97 for a sphere** and a sphere, capsule, box or cylinder. -/
theorem C97_sphere {eps r : ℝ} (he : 0 ≤ eps) (hr : 0 ≤ r) {g : Geo ℝ} (hg : Simple g) (hw : g.WF) {m1 m2 : Motion} {maxIter : ℕ} {tocErr : ℝ}
    (r0 : CCResult) (h1 : ∀ t, 0 ≤ t → t ≤ 1 → (m1.integrate t).tf.Rigid) (h2 : ∀ t, 0 ≤ t → t ≤ 1 → (m2.integrate t).tf.Rigid)
    (hn : 2 ≤ numIter maxIter tocErr) :
    Sampled m1 m2 (Geo.sphere r).pts g.pts (numIter maxIter tocErr) r0 (naive (sphereHit eps r g) m1 m2 maxIter tocErr r0) :=
  C97_naive r0 h1 h2 (fun _ _ hX hY => sphereHit_iff he hr hg hw hX hY) hn

/-- **C98 for a sphere** and a sphere, capsule, box or cylinder, with the volumes that the library makes for them, and for any two of the
motions of `C96`. Missing: as in `C98_shapes_partial`. -/
theorem C98_sphere_partial {eps r big prec : ℝ} {absorb : ℝ → ℝ → Bool} (he : 0 ≤ eps) (hr : 0 ≤ r) {g : Geo ℝ} (hg : Simple g) (hw : g.WF)
    {m1 m2 : Motion} (g1 : m1.Good) (g2 : m2.Good) {b1 b2 : RSS ℝ}
    (hb1 : ComputeBV.rss big prec (Jacobi.eigenOld absorb) (.sphere r) Pose.id = some b1)
    (hb2 : ComputeBV.rss big prec (Jacobi.eigenOld absorb) g Pose.id = some b2) {fuel : ℕ} (hfuel : 10001 ≤ fuel) (r0 : CCResult) :
    ∃ o s1 s2, shapes false (sphereHit eps r g) (sphereDist r g) b1 b2 m1 m2 fuel m1.init m2.init r0 = some (o, s1, s2) ∧
      Safe m1 m2 (Geo.sphere r).pts g.pts o ∧
      ∀ v, (∀ t n, 0 ≤ t → t ≤ 1 → n.nrm = 1 → m1.bvBound (m1.integrate t) b1 n + m2.bvBound (m2.integrate t) b2 (-n) ≤ v) → 0 ≤ v →
        Near m1 m2 (Geo.sphere r).pts g.pts (v / 10000) o := by
  have hplace : ∀ S : Set (V3 ℝ), Placed (Pose.id : Pose ℝ).R (Pose.id : Pose ℝ).t S = S := fun S => by
    ext p
    constructor
    · rintro ⟨q, hq, rfl⟩
      have : (Pose.id : Pose ℝ).R.mulVec q + (Pose.id : Pose ℝ).t = q := Pose.id_apply q
      rw [this]; exact hq
    · exact fun hp => ⟨p, hp, (Pose.id_apply p).symm⟩
  have hs : (Geo.sphere r).WF := hr
  obtain ⟨w1, k1⟩ := C89_rss_partial (g := .sphere r) hs trivial trivial Pose.id_rigid hb1
  obtain ⟨w2, k2⟩ := C89_rss_partial hw (by cases g <;> trivial) (by cases g <;> trivial)
    Pose.id_rigid hb2
  rw [hplace] at k1 k2
  exact C98_shapes_partial g1 g2 (Geo.pts_convex _) (Geo.pts_convex _) w1 w2 k1 k2 (fun _ _ hX hY => sphereDist_spec hr hg hw hX hY)
    (fun _ _ hX hY => sphereHit_iff he hr hg hw hX hY) hfuel r0

/-- **C98 for translations**: a contact that is reported is one up to a 10000th of the relative velocity. -/
theorem C98_translation_partial {eps r big prec : ℝ} {absorb : ℝ → ℝ → Bool} (he : 0 ≤ eps) (hr : 0 ≤ r) {g : Geo ℝ} (hg : Simple g) (hw : g.WF)
    {X1 Y1 X2 Y2 : Pose ℝ} (h1 : X1.Rigid) (h2 : X2.Rigid) (e1 : X1.R = Y1.R) (e2 : X2.R = Y2.R) {b1 b2 : RSS ℝ}
    (hb1 : ComputeBV.rss big prec (Jacobi.eigenOld absorb) (.sphere r) Pose.id = some b1)
    (hb2 : ComputeBV.rss big prec (Jacobi.eigenOld absorb) g Pose.id = some b2) {fuel : ℕ} (hfuel : 10001 ≤ fuel) (r0 : CCResult) :
    ∃ o s1 s2, shapes false (sphereHit eps r g) (sphereDist r g) b1 b2 (translation X1 Y1) (translation X2 Y2) fuel ⟨X1, 0⟩ ⟨X2, 0⟩ r0 =
        some (o, s1, s2) ∧ Safe (translation X1 Y1) (translation X2 Y2) (Geo.sphere r).pts g.pts o ∧
      Near (translation X1 Y1) (translation X2 Y2) (Geo.sphere r).pts g.pts (((Y1.t - X1.t) - (Y2.t - X2.t)).nrm / 10000) o := by
  obtain ⟨o, s1, s2, k1, k2, k3⟩ := C98_sphere_partial he hr hg hw (good_translation h1 e1) (good_translation h2 e2) hb1 hb2 hfuel r0
  refine ⟨o, s1, s2, k1, k2, k3 _ (fun t n _ _ hn => ?_) (V3.nrm_nonneg _)⟩
  have := V3.unit_dot_le (v := (Y1.t - X1.t) - (Y2.t - X2.t)) hn
  simp only [translation, dot_neg]
  rw [dot_sub, dot_comm n, dot_comm n] at this
  linarith

/-- The library makes a volume for every sphere, so that the hypotheses of `C98_sphere_partial` are met. -/
theorem exSphere_rss (big prec r : ℝ) (absorb : ℝ → ℝ → Bool) : ∃ b, ComputeBV.rss big prec (Jacobi.eigenOld absorb) (.sphere r) Pose.id = some b := by
  have hc : ∃ x y z : ℝ, OBB.covariance ((Geo.sphere r : Geo ℝ).boundVertices Pose.id) = ⟨⟨x, 0, 0⟩, ⟨0, y, 0⟩, ⟨0, 0, z⟩⟩ := by
    have key : ∀ M : M3 ℝ, M.r0.y = 0 → M.r0.z = 0 → M.r1.x = 0 → M.r1.z = 0 → M.r2.x = 0 → M.r2.y = 0 →
        ∃ x y z : ℝ, M = ⟨⟨x, 0, 0⟩, ⟨0, y, 0⟩, ⟨0, 0, z⟩⟩ := by
      rintro ⟨⟨a, b, c⟩, ⟨d, e, f⟩, ⟨g, h, i⟩⟩ h1 h2 h3 h4 h5 h6
      exact ⟨a, e, i, by simp only at *; rw [h1, h2, h3, h4, h5, h6]⟩
    have hb : (Geo.sphere r : Geo ℝ).boundVertices Pose.id = BoundVertices.ofGeo (.sphere r) := by
      rw [Geo.boundVertices]
      exact (List.map_congr_left fun p _ => Pose.id_apply p).trans (List.map_id _)
    rw [hb]
    apply key <;>
    · simp only [OBB.covariance, BoundVertices.ofGeo, BoundVertices.sphere, BoundVertices.icosahedron, List.map_cons, List.map_nil, List.foldl_cons,
        List.foldl_nil, List.length_cons, List.length_nil, V3.add_x, V3.add_y, V3.add_z]
      ring
  obtain ⟨x, y, z, hc⟩ := hc
  have he := Jacobi.eigenOld_diag absorb ⟨x, y, z⟩
  simp only [Geo.boundVertices, BoundVertices.ofGeo, BoundVertices.sphere, BoundVertices.icosahedron, List.map_cons, List.map_nil] at hc
  simp only [ComputeBV.rss, Geo.boundVertices, BoundVertices.ofGeo, BoundVertices.sphere, BoundVertices.icosahedron, List.map_cons, List.map_nil, RSS.fit, RSS.fitn, hc, he]
  exact ⟨_, rfl⟩

/-- The bound of a round for two spheres that are apart. -/
theorem sphereRound {nz : Bool} {r1 r2 l : ℝ} {X Y : Pose ℝ} (hl : (Y.t - X.t).nrm = l) (h0 : 0 < l) (h : r1 + r2 < l) (b1 b2 : RSS ℝ) (m1 m2 : Motion)
    (u1 u2 : ℝ) : shapeRound nz (sphereDist r1 (.sphere r2)) b1 b2 m1 m2 ⟨X, u1⟩ ⟨Y, u2⟩ =
      stepTime nz (l - (r1 + r2)) (m1.bvBound ⟨X, u1⟩ b1 ((1 / l) • (Y.t - X.t)) + m2.bvBound ⟨Y, u2⟩ b2 (-((1 / l) • (Y.t - X.t)))) := by
  have hl' : (X.t - Y.t).nrm = l := by rw [← hl, ← V3.nrm_neg]; congr 1; v3
  have e : (Y.t + (r2 / l) • (X.t - Y.t)) - (X.t - (r1 / l) • (X.t - Y.t)) = ((l - (r1 + r2)) / l) • (Y.t - X.t) := by
    apply V3.ext' <;> simp <;> field_simp <;> ring
  have hp : 0 < (l - (r1 + r2)) / l := div_pos (by linarith) h0
  have en : (((l - (r1 + r2)) / l) • (Y.t - X.t)).nrm = l - (r1 + r2) := by
    rw [V3.nrm_smul, hl, abs_of_pos hp]; field_simp
  have hs : Real.sqrt ((((l - (r1 + r2)) / l) • (Y.t - X.t)).dot (((l - (r1 + r2)) / l) • (Y.t - X.t))) = l - (r1 + r2) := en
  have hq : (((l - (r1 + r2)) / l) • (Y.t - X.t)).dot (((l - (r1 + r2)) / l) • (Y.t - X.t)) > 0 := by
    rw [← V3.nrm_mul_self, en]; exact mul_pos (by linarith) (by linarith)
  simp only [shapeRound, sphereDist, Prim.sphereSphereDistance, hl', gt_iff_lt, h, if_true, Option.getD_some, e]
  rw [if_pos hq, hs]
  have e2 : (1 / (l - (r1 + r2))) • ((l - (r1 + r2)) / l) • (Y.t - X.t) = (1 / l) • (Y.t - X.t) := by
    have : l - (r1 + r2) ≠ 0 := by linarith
    apply V3.ext' <;> simp <;> field_simp
  rw [e2]

/-- … and for two spheres that touch. -/
theorem sphereRound_touch {nz : Bool} {r1 r2 : ℝ} {X Y : Pose ℝ} (h : (Y.t - X.t).nrm ≤ r1 + r2) (b1 b2 : RSS ℝ) {m1 m2 : Motion} (g1 : m1.Good)
    (g2 : m2.Good) (u1 u2 : ℝ) : shapeRound nz (sphereDist r1 (.sphere r2)) b1 b2 m1 m2 ⟨X, u1⟩ ⟨Y, u2⟩ = if nz then 1 else -1 := by
  have hl' : (X.t - Y.t).nrm = (Y.t - X.t).nrm := by rw [← V3.nrm_neg]; congr 1; v3
  have e0 : (0 : V3 ℝ) - 0 = 0 := by v3
  have e1 : -(0 : V3 ℝ) = 0 := by v3
  have e2 : (0 : V3 ℝ).dot 0 = 0 := by simp [V3.dot]
  simp only [shapeRound, sphereDist, Prim.sphereSphereDistance, hl', gt_iff_lt, not_lt.2 h, if_false, Option.getD_none, e0, e2, e1, lt_irrefl,
    g1.still, g2.still, stepTime]
  cases nz <;> norm_num

theorem sphereHit_spheres {eps r1 r2 : ℝ} {X Y : Pose ℝ} : sphereHit eps r1 (.sphere r2) X Y = decide ((Y.t - X.t).nrm ≤ r1 + r2) := by
  simp only [sphereHit, Prim.sphereSphereIntersect, gt_iff_lt]
  by_cases h : r1 + r2 < (Y.t - X.t).nrm
  · simp [h]
  · simp only [h, if_false]
    simp [not_lt.1 h]

theorem spheres_touch {r1 r2 : ℝ} (h1 : 0 ≤ r1) (h2 : 0 ≤ r2) {m1 m2 : Motion} {t : ℝ} (k1 : (m1.integrate t).tf.Rigid) (k2 : (m2.integrate t).tf.Rigid) :
    TouchAt m1 m2 (Geo.sphere r1).pts (Geo.sphere r2).pts t ↔ ((m2.integrate t).tf.t - (m1.integrate t).tf.t).nrm ≤ r1 + r2 := by
  have := sphereHit_iff (eps := 0) le_rfl h1 (g := .sphere r2) trivial h2 k1 k2
  rw [sphereHit_spheres, decide_eq_true_iff] at this
  exact this.symm

/-- From `a` to `b` without turning. -/
noncomputable def exMove (a b : V3 ℝ) : Motion := translation ⟨M3.one, a⟩ ⟨M3.one, b⟩

theorem exMove_good (a b : V3 ℝ) : (exMove a b).Good := good_translation (exDistPose_rigid a) rfl

theorem exMove_at {a b : V3 ℝ} {t : ℝ} (h : t ≤ 1) : (exMove a b).integrate t = ⟨⟨M3.one, a + t • (b - a)⟩, 0⟩ := by
  simp only [exMove, translation, clip_eq h]

theorem exMove_bound (a b : V3 ℝ) (s : MotionState) (v : RSS ℝ) (n : V3 ℝ) : (exMove a b).bvBound s v n = (b - a).dot n := rfl

theorem exMove_touch {r1 r2 : ℝ} (h1 : 0 ≤ r1) (h2 : 0 ≤ r2) {a b c d : V3 ℝ} {t : ℝ} (h0 : 0 ≤ t) (h : t ≤ 1) :
    TouchAt (exMove a b) (exMove c d) (Geo.sphere r1).pts (Geo.sphere r2).pts t ↔ ((c + t • (d - c)) - (a + t • (b - a))).nrm ≤ r1 + r2 := by
  rw [spheres_touch h1 h2 ((exMove_good a b).rigid t h0 h) ((exMove_good c d).rigid t h0 h), exMove_at h, exMove_at h]

/-- **A contact at time 1 is not reported.** A unit sphere comes to rest at another one. -/
theorem C98_violated_end (nz : Bool) (eps : ℝ) (b1 b2 : RSS ℝ) (fuel : ℕ) (r0 : CCResult) : ∃ o s1 s2,
    shapes nz (sphereHit eps 1 (.sphere 1)) (sphereDist 1 (.sphere 1)) b1 b2 (exMove ⟨-4, 0, 0⟩ ⟨-2, 0, 0⟩) (exMove 0 0) (fuel + 2)
      (exMove ⟨-4, 0, 0⟩ ⟨-2, 0, 0⟩).init (exMove 0 0).init r0 = some (o, s1, s2) ∧ o.isCollide = false ∧
    TouchAt (exMove ⟨-4, 0, 0⟩ ⟨-2, 0, 0⟩) (exMove 0 0) (Geo.sphere 1).pts (Geo.sphere 1).pts 1 := by
  have n4 : ((0 : V3 ℝ) - ⟨-4, 0, 0⟩).nrm = 4 := V3.nrm_unique (by norm_num) (by norm_num [V3.dot])
  have n2 : ((0 : V3 ℝ) - ⟨-2, 0, 0⟩).nrm = 2 := V3.nrm_unique (by norm_num) (by norm_num [V3.dot])
  have e1 : (exMove ⟨-4, 0, 0⟩ ⟨-2, 0, 0⟩).integrate 1 = ⟨⟨M3.one, ⟨-2, 0, 0⟩⟩, 0⟩ := by
    rw [exMove_at le_rfl]; congr 2; apply V3.ext' <;> simp
  have e2 : (exMove 0 0).integrate 1 = ⟨⟨M3.one, 0⟩, 0⟩ := by
    rw [exMove_at le_rfl]; congr 2; apply V3.ext' <;> simp
  have k1 := sphereRound (nz := nz) (r1 := 1) (r2 := 1) (X := ⟨M3.one, ⟨-4, 0, 0⟩⟩) (Y := ⟨M3.one, 0⟩) n4 (by norm_num) (by norm_num) b1 b2
    (exMove ⟨-4, 0, 0⟩ ⟨-2, 0, 0⟩) (exMove 0 0) 0 0
  have k2 := sphereRound_touch (nz := nz) (r1 := 1) (r2 := 1) (X := ⟨M3.one, ⟨-2, 0, 0⟩⟩) (Y := ⟨M3.one, 0⟩) (by rw [n2]; norm_num) b1 b2
    (exMove_good ⟨-4, 0, 0⟩ ⟨-2, 0, 0⟩) (exMove_good 0 0) 0 0
  have s1 : stepTime nz (4 - (1 + 1)) (((⟨-2, 0, 0⟩ : V3 ℝ) - ⟨-4, 0, 0⟩).dot ((1 / 4 : ℝ) • (0 - ⟨-4, 0, 0⟩)) +
      ((0 : V3 ℝ) - 0).dot (-((1 / 4 : ℝ) • (0 - ⟨-4, 0, 0⟩)))) = 1 := by
    norm_num [stepTime, V3.dot]
  simp only [exMove_bound, s1] at k1
  have i1 : (exMove ⟨-4, 0, 0⟩ ⟨-2, 0, 0⟩).init = ⟨⟨M3.one, ⟨-4, 0, 0⟩⟩, 0⟩ := rfl
  have i2 : (exMove 0 0).init = ⟨⟨M3.one, 0⟩, 0⟩ := rfl
  refine ⟨⟨false, 1, r0.tf1, r0.tf2⟩, ⟨⟨M3.one, ⟨-2, 0, 0⟩⟩, 0⟩, ⟨⟨M3.one, 0⟩, 0⟩, ?_, rfl, ?_⟩
  · have hh : sphereHit eps 1 (.sphere 1) (⟨M3.one, ⟨-4, 0, 0⟩⟩ : Pose ℝ) ⟨M3.one, 0⟩ = false := by
      rw [sphereHit_spheres, n4]; norm_num
    simp only [shapes, conservative, i1, i2, hh, Bool.false_eq_true, if_false, false_or]
    simp only [advance, k1, zero_add, e1, e2, k2, shapeErr]
    cases nz <;> norm_num
  · rw [exMove_touch zero_le_one zero_le_one zero_le_one le_rfl]
    have : ((0 : V3 ℝ) + (1 : ℝ) • (0 - 0) - (⟨-4, 0, 0⟩ + (1 : ℝ) • (⟨-2, 0, 0⟩ - ⟨-4, 0, 0⟩))) = 0 - ⟨-2, 0, 0⟩ := by
      apply V3.ext' <;> norm_num
    rw [this, n2]; norm_num

/-- **A contact is reported where there is none.** A sphere that grazes another one at a distance of a millionth, and never touches it. -/
theorem C98_violated_graze (nz : Bool) (eps : ℝ) (b1 b2 : RSS ℝ) (fuel : ℕ) (r0 : CCResult) : ∃ o s1 s2,
    shapes nz (sphereHit eps (1 / 2) (.sphere (1 / 2))) (sphereDist (1 / 2) (.sphere (1 / 2))) b1 b2
      (exMove ⟨-(1 + 1 / 10 ^ 6), 0, 0⟩ ⟨-(1 + 1 / 10 ^ 6) + 1 / 50, 16, 0⟩) (exMove 0 0) (fuel + 1)
      (exMove ⟨-(1 + 1 / 10 ^ 6), 0, 0⟩ ⟨-(1 + 1 / 10 ^ 6) + 1 / 50, 16, 0⟩).init (exMove 0 0).init r0 = some (o, s1, s2) ∧ o.isCollide = true ∧
    ∀ t, 0 ≤ t → t ≤ 1 → ¬ TouchAt (exMove ⟨-(1 + 1 / 10 ^ 6), 0, 0⟩ ⟨-(1 + 1 / 10 ^ 6) + 1 / 50, 16, 0⟩) (exMove 0 0) (Geo.sphere (1 / 2)).pts
      (Geo.sphere (1 / 2)).pts t := by
  have n0 : ((0 : V3 ℝ) - ⟨-(1 + 1 / 10 ^ 6), 0, 0⟩).nrm = 1 + 1 / 10 ^ 6 := V3.nrm_unique (by norm_num) (by norm_num [V3.dot])
  have k1 := sphereRound (nz := nz) (r1 := 1 / 2) (r2 := 1 / 2) (X := ⟨M3.one, ⟨-(1 + 1 / 10 ^ 6), 0, 0⟩⟩) (Y := ⟨M3.one, 0⟩) n0 (by norm_num)
    (by norm_num) b1 b2 (exMove ⟨-(1 + 1 / 10 ^ 6), 0, 0⟩ ⟨-(1 + 1 / 10 ^ 6) + 1 / 50, 16, 0⟩) (exMove 0 0) 0 0
  have s1 : stepTime nz (1 + 1 / 10 ^ 6 - (1 / 2 + 1 / 2)) (((⟨-(1 + 1 / 10 ^ 6) + 1 / 50, 16, 0⟩ : V3 ℝ) - ⟨-(1 + 1 / 10 ^ 6), 0, 0⟩).dot
      ((1 / (1 + 1 / 10 ^ 6) : ℝ) • (0 - ⟨-(1 + 1 / 10 ^ 6), 0, 0⟩)) +
      ((0 : V3 ℝ) - 0).dot (-((1 / (1 + 1 / 10 ^ 6) : ℝ) • (0 - ⟨-(1 + 1 / 10 ^ 6), 0, 0⟩)))) = 1 / 20000 := by
    norm_num [stepTime, V3.dot]
  simp only [exMove_bound, s1] at k1
  have hh : sphereHit eps (1 / 2) (.sphere (1 / 2)) (⟨M3.one, ⟨-(1 + 1 / 10 ^ 6), 0, 0⟩⟩ : Pose ℝ) ⟨M3.one, 0⟩ = false := by
    rw [sphereHit_spheres, n0]; norm_num
  have i1 : (exMove ⟨-(1 + 1 / 10 ^ 6), 0, 0⟩ ⟨-(1 + 1 / 10 ^ 6) + 1 / 50, 16, 0⟩).init = ⟨⟨M3.one, ⟨-(1 + 1 / 10 ^ 6), 0, 0⟩⟩, 0⟩ := rfl
  have i2 : (exMove 0 0).init = ⟨⟨M3.one, 0⟩, 0⟩ := rfl
  have hlt : (1 / 20000 : ℝ) ≤ 1 / 10000 := by norm_num
  have hcall : advance shapeErr (exMove ⟨-(1 + 1 / 10 ^ 6), 0, 0⟩ ⟨-(1 + 1 / 10 ^ 6) + 1 / 50, 16, 0⟩) (exMove 0 0)
      (fun (_ : Unit) s1 s2 => (shapeRound nz (sphereDist (1 / 2) (.sphere (1 / 2))) b1 b2
        (exMove ⟨-(1 + 1 / 10 ^ 6), 0, 0⟩ ⟨-(1 + 1 / 10 ^ 6) + 1 / 50, 16, 0⟩) (exMove 0 0) s1 s2, ())) (fuel + 1) () 0
      ⟨⟨M3.one, ⟨-(1 + 1 / 10 ^ 6), 0, 0⟩⟩, 0⟩ ⟨⟨M3.one, 0⟩, 0⟩ = some (0, ⟨⟨M3.one, ⟨-(1 + 1 / 10 ^ 6), 0, 0⟩⟩, 0⟩, ⟨⟨M3.one, 0⟩, 0⟩) := by
    simp only [advance, k1, shapeErr, hlt, if_true]
  refine ⟨⟨true, 0, ((exMove ⟨-(1 + 1 / 10 ^ 6), 0, 0⟩ ⟨-(1 + 1 / 10 ^ 6) + 1 / 50, 16, 0⟩).integrate 0).tf, ((exMove 0 0).integrate 0).tf⟩,
    (exMove ⟨-(1 + 1 / 10 ^ 6), 0, 0⟩ ⟨-(1 + 1 / 10 ^ 6) + 1 / 50, 16, 0⟩).integrate 0, (exMove 0 0).integrate 0, ?_, rfl, fun t h0 h1 => ?_⟩
  · simp only [shapes, conservative, i1, i2, hh, Bool.false_eq_true, if_false, false_or, hcall, Option.map_some, zero_lt_one, if_true]
  rw [exMove_touch (by norm_num) (by norm_num) h0 h1, V3.nrm_le_iff (by norm_num)]
  simp only [V3.dot, V3.sub_x, V3.sub_y, V3.sub_z, V3.add_x, V3.add_y, V3.add_z, V3.smul_x, V3.smul_y, V3.smul_z, V3.zero_x, V3.zero_y, V3.zero_z]
  norm_num
  nlinarith [sq_nonneg (t - 1 / 12800)]

/-- **A negative zero makes the loop skip a contact.** The spheres touch at the end of the first step; the bound in the direction zero is a
negative zero, as all coordinates of the first velocity are negative and the second sphere is at rest, and the step after it is a
whole unit of time. The spheres go through one another. -/
theorem C98_violated_zero (eps : ℝ) (b1 b2 : RSS ℝ) (fuel : ℕ) (r0 : CCResult) : ∃ o s1 s2,
    shapes true (sphereHit eps (3 / 2) (.sphere (3 / 2))) (sphereDist (3 / 2) (.sphere (3 / 2))) b1 b2 (exMove ⟨2, 4, 4⟩ ⟨-2, -4, -4⟩) (exMove 0 0)
      (fuel + 2) (exMove ⟨2, 4, 4⟩ ⟨-2, -4, -4⟩).init (exMove 0 0).init r0 = some (o, s1, s2) ∧ o.isCollide = false ∧
    ∀ t, 1 / 4 ≤ t → t ≤ 3 / 4 → TouchAt (exMove ⟨2, 4, 4⟩ ⟨-2, -4, -4⟩) (exMove 0 0) (Geo.sphere (3 / 2)).pts (Geo.sphere (3 / 2)).pts t := by
  have n6 : ((0 : V3 ℝ) - ⟨2, 4, 4⟩).nrm = 6 := V3.nrm_unique (by norm_num) (by norm_num [V3.dot])
  have n3 : ((0 : V3 ℝ) - ⟨1, 2, 2⟩).nrm = 3 := V3.nrm_unique (by norm_num) (by norm_num [V3.dot])
  have e1 : (exMove ⟨2, 4, 4⟩ ⟨-2, -4, -4⟩).integrate (1 / 4) = ⟨⟨M3.one, ⟨1, 2, 2⟩⟩, 0⟩ := by
    rw [exMove_at (by norm_num)]; congr 2; apply V3.ext' <;> norm_num
  have e2 : (exMove 0 0).integrate (1 / 4) = ⟨⟨M3.one, 0⟩, 0⟩ := by
    rw [exMove_at (by norm_num)]; congr 2; apply V3.ext' <;> simp
  have k1 := sphereRound (nz := true) (r1 := 3 / 2) (r2 := 3 / 2) (X := ⟨M3.one, ⟨2, 4, 4⟩⟩) (Y := ⟨M3.one, 0⟩) n6 (by norm_num) (by norm_num) b1 b2
    (exMove ⟨2, 4, 4⟩ ⟨-2, -4, -4⟩) (exMove 0 0) 0 0
  have k2 := sphereRound_touch (nz := true) (r1 := 3 / 2) (r2 := 3 / 2) (X := ⟨M3.one, ⟨1, 2, 2⟩⟩) (Y := ⟨M3.one, 0⟩) (by rw [n3]; norm_num) b1 b2
    (exMove_good ⟨2, 4, 4⟩ ⟨-2, -4, -4⟩) (exMove_good 0 0) 0 0
  have s1 : stepTime true (6 - (3 / 2 + 3 / 2)) (((⟨-2, -4, -4⟩ : V3 ℝ) - ⟨2, 4, 4⟩).dot ((1 / 6 : ℝ) • (0 - ⟨2, 4, 4⟩)) +
      ((0 : V3 ℝ) - 0).dot (-((1 / 6 : ℝ) • (0 - ⟨2, 4, 4⟩)))) = 1 / 4 := by
    norm_num [stepTime, V3.dot]
  simp only [exMove_bound, s1] at k1
  have i1 : (exMove ⟨2, 4, 4⟩ ⟨-2, -4, -4⟩).init = ⟨⟨M3.one, ⟨2, 4, 4⟩⟩, 0⟩ := rfl
  have i2 : (exMove 0 0).init = ⟨⟨M3.one, 0⟩, 0⟩ := rfl
  refine ⟨⟨false, 1, r0.tf1, r0.tf2⟩, ⟨⟨M3.one, ⟨1, 2, 2⟩⟩, 0⟩, ⟨⟨M3.one, 0⟩, 0⟩, ?_, rfl, fun t h0 h1 => ?_⟩
  · have hh : sphereHit eps (3 / 2) (.sphere (3 / 2)) (⟨M3.one, ⟨2, 4, 4⟩⟩ : Pose ℝ) ⟨M3.one, 0⟩ = false := by
      rw [sphereHit_spheres, n6]; norm_num
    simp only [shapes, conservative, i1, i2, hh, Bool.false_eq_true, if_false, false_or]
    have c1 : ¬ (1 / 4 : ℝ) ≤ 1 / 10000 := by norm_num
    have c2 : ¬ (1 / 4 : ℝ) > 1 := by norm_num
    simp only [advance, k1, zero_add, shapeErr, if_neg c1, if_neg c2, e1, e2, k2]
    norm_num
  · rw [exMove_touch (by norm_num) (by norm_num) (by linarith) (by linarith), V3.nrm_le_iff (by norm_num)]
    simp only [V3.dot, V3.sub_x, V3.sub_y, V3.sub_z, V3.add_x, V3.add_y, V3.add_z, V3.smul_x, V3.smul_y, V3.smul_z, V3.zero_x, V3.zero_y, V3.zero_z]
    nlinarith

/-- **A second query on the same motions gives another answer.** The first one leaves the motions where the contact is; the second one
reports a contact at time 0, with the poses at time 0, where there is none. -/
theorem C98_violated_state (eps : ℝ) (b1 b2 : RSS ℝ) (fuel : ℕ) (r0 : CCResult) : ∃ o s1 s2 o' s1' s2',
    shapes false (sphereHit eps 1 (.sphere 1)) (sphereDist 1 (.sphere 1)) b1 b2 (exMove ⟨-4, 0, 0⟩ ⟨4, 0, 0⟩) (exMove 0 0) (fuel + 2)
      (exMove ⟨-4, 0, 0⟩ ⟨4, 0, 0⟩).init (exMove 0 0).init r0 = some (o, s1, s2) ∧ o.isCollide = true ∧ o.toc = 1 / 4 ∧
    shapes false (sphereHit eps 1 (.sphere 1)) (sphereDist 1 (.sphere 1)) b1 b2 (exMove ⟨-4, 0, 0⟩ ⟨4, 0, 0⟩) (exMove 0 0) (fuel + 2) s1 s2 r0 =
      some (o', s1', s2') ∧ o'.isCollide = true ∧ o'.toc = 0 ∧ o'.tf1 = ⟨M3.one, ⟨-4, 0, 0⟩⟩ ∧ o'.tf2 = ⟨M3.one, 0⟩ ∧
    ¬ TouchAt (exMove ⟨-4, 0, 0⟩ ⟨4, 0, 0⟩) (exMove 0 0) (Geo.sphere 1).pts (Geo.sphere 1).pts 0 := by
  have n4 : ((0 : V3 ℝ) - ⟨-4, 0, 0⟩).nrm = 4 := V3.nrm_unique (by norm_num) (by norm_num [V3.dot])
  have n2 : ((0 : V3 ℝ) - ⟨-2, 0, 0⟩).nrm = 2 := V3.nrm_unique (by norm_num) (by norm_num [V3.dot])
  have e1 : (exMove ⟨-4, 0, 0⟩ ⟨4, 0, 0⟩).integrate (1 / 4) = ⟨⟨M3.one, ⟨-2, 0, 0⟩⟩, 0⟩ := by
    rw [exMove_at (by norm_num)]; congr 2; apply V3.ext' <;> norm_num
  have e2 : (exMove 0 0).integrate (1 / 4) = ⟨⟨M3.one, 0⟩, 0⟩ := by
    rw [exMove_at (by norm_num)]; congr 2; apply V3.ext' <;> simp
  have z1 : (exMove ⟨-4, 0, 0⟩ ⟨4, 0, 0⟩).integrate 0 = ⟨⟨M3.one, ⟨-4, 0, 0⟩⟩, 0⟩ := by
    rw [exMove_at (by norm_num)]; congr 2; apply V3.ext' <;> norm_num
  have z2 : (exMove 0 0).integrate 0 = ⟨⟨M3.one, 0⟩, 0⟩ := by
    rw [exMove_at (by norm_num)]; congr 2; apply V3.ext' <;> simp
  have k1 := sphereRound (nz := false) (r1 := 1) (r2 := 1) (X := ⟨M3.one, ⟨-4, 0, 0⟩⟩) (Y := ⟨M3.one, 0⟩) n4 (by norm_num) (by norm_num) b1 b2
    (exMove ⟨-4, 0, 0⟩ ⟨4, 0, 0⟩) (exMove 0 0) 0 0
  have k2 := sphereRound_touch (nz := false) (r1 := 1) (r2 := 1) (X := ⟨M3.one, ⟨-2, 0, 0⟩⟩) (Y := ⟨M3.one, 0⟩) (by rw [n2]; norm_num) b1 b2
    (exMove_good ⟨-4, 0, 0⟩ ⟨4, 0, 0⟩) (exMove_good 0 0) 0 0
  have s1 : stepTime false (4 - (1 + 1)) (((⟨4, 0, 0⟩ : V3 ℝ) - ⟨-4, 0, 0⟩).dot ((1 / 4 : ℝ) • (0 - ⟨-4, 0, 0⟩)) +
      ((0 : V3 ℝ) - 0).dot (-((1 / 4 : ℝ) • (0 - ⟨-4, 0, 0⟩)))) = 1 / 4 := by
    norm_num [stepTime, V3.dot]
  simp only [exMove_bound, s1] at k1
  have i1 : (exMove ⟨-4, 0, 0⟩ ⟨4, 0, 0⟩).init = ⟨⟨M3.one, ⟨-4, 0, 0⟩⟩, 0⟩ := rfl
  have i2 : (exMove 0 0).init = ⟨⟨M3.one, 0⟩, 0⟩ := rfl
  have hh : sphereHit eps 1 (.sphere 1) (⟨M3.one, ⟨-4, 0, 0⟩⟩ : Pose ℝ) ⟨M3.one, 0⟩ = false := by
    rw [sphereHit_spheres, n4]; norm_num
  have hh2 : sphereHit eps 1 (.sphere 1) (⟨M3.one, ⟨-2, 0, 0⟩⟩ : Pose ℝ) ⟨M3.one, 0⟩ = true := by
    rw [sphereHit_spheres, n2]; norm_num
  refine ⟨⟨true, 1 / 4, ⟨M3.one, ⟨-2, 0, 0⟩⟩, ⟨M3.one, 0⟩⟩, ⟨⟨M3.one, ⟨-2, 0, 0⟩⟩, 0⟩, ⟨⟨M3.one, 0⟩, 0⟩,
    ⟨true, 0, ⟨M3.one, ⟨-4, 0, 0⟩⟩, ⟨M3.one, 0⟩⟩, ⟨⟨M3.one, ⟨-4, 0, 0⟩⟩, 0⟩, ⟨⟨M3.one, 0⟩, 0⟩, ?_, rfl, rfl, ?_, rfl, rfl, rfl, rfl, ?_⟩
  · simp only [shapes, conservative, i1, i2, hh, Bool.false_eq_true, if_false, false_or]
    have c1 : ¬ (1 / 4 : ℝ) ≤ 1 / 10000 := by norm_num
    have c2 : ¬ (1 / 4 : ℝ) > 1 := by norm_num
    have c3 : (-1 : ℝ) ≤ 1 / 10000 := by norm_num
    have c4 : (1 / 4 : ℝ) < 1 := by norm_num
    simp only [advance, k1, zero_add, shapeErr, if_neg c1, if_neg c2, e1, e2, k2, Bool.false_eq_true, if_false, if_pos c3, Option.map_some, c4, if_true]
  · simp only [shapes, conservative, hh2, if_true, Option.map_some, true_or, z1, z2]
  · rw [exMove_touch zero_le_one zero_le_one le_rfl zero_le_one]
    have : ((0 : V3 ℝ) + (0 : ℝ) • (0 - 0) - (⟨-4, 0, 0⟩ + (0 : ℝ) • (⟨4, 0, 0⟩ - ⟨-4, 0, 0⟩))) = 0 - ⟨-4, 0, 0⟩ := by
      apply V3.ext' <;> norm_num
    rw [this, n4]; norm_num

/-- **A body on a spline is missed.** It starts fast and its bound is how far it still goes: half way it is behind the sphere that it went
through. -/
theorem C98_violated_spline {eps' : ℝ} (he : 0 < eps') (nz : Bool) (eps : ℝ) (b1 b2 : RSS ℝ) (fuel : ℕ) (r0 : CCResult) : ∃ o s1 s2,
    shapes nz (sphereHit eps (1 / 20) (.sphere (1 / 20))) (sphereDist (1 / 20) (.sphere (1 / 20))) b1 b2 (spline eps' exSpline)
      (exMove ⟨8 / 5, 0, 0⟩ ⟨8 / 5, 0, 0⟩) (fuel + 2) ((spline eps' exSpline).integrate 0) (exMove ⟨8 / 5, 0, 0⟩ ⟨8 / 5, 0, 0⟩).init r0 =
      some (o, s1, s2) ∧ o.isCollide = false ∧
    TouchAt (spline eps' exSpline) (exMove ⟨8 / 5, 0, 0⟩ ⟨8 / 5, 0, 0⟩) (Geo.sphere (1 / 20)).pts (Geo.sphere (1 / 20)).pts (3 / 10) := by
  have e0 : (spline eps' exSpline).integrate 0 = ⟨⟨M3.one, 0⟩, 0⟩ := by
    rw [show (spline eps' exSpline).integrate 0 = _ from exSpline_integrate zero_le_one]; congr 2; apply V3.ext' <;> norm_num
  have e1 : (spline eps' exSpline).integrate (1 / 2) = ⟨⟨M3.one, ⟨9 / 4, 0, 0⟩⟩, 1 / 2⟩ := by
    rw [show (spline eps' exSpline).integrate (1 / 2) = _ from exSpline_integrate (by norm_num)]; congr 2; apply V3.ext' <;> norm_num
  have e3 : (spline eps' exSpline).integrate (3 / 10) = ⟨⟨M3.one, ⟨153 / 100, 0, 0⟩⟩, 3 / 10⟩ := by
    rw [show (spline eps' exSpline).integrate (3 / 10) = _ from exSpline_integrate (by norm_num)]; congr 2; apply V3.ext' <;> norm_num
  have f1 : ∀ t ≤ 1, (exMove ⟨8 / 5, 0, 0⟩ ⟨8 / 5, 0, 0⟩).integrate t = ⟨⟨M3.one, ⟨8 / 5, 0, 0⟩⟩, 0⟩ := fun t ht => by
    rw [exMove_at ht]; congr 2; apply V3.ext' <;> simp
  have n1 : ((⟨8 / 5, 0, 0⟩ : V3 ℝ) - 0).nrm = 8 / 5 := V3.nrm_unique (by norm_num) (by norm_num [V3.dot])
  have n2 : ((⟨8 / 5, 0, 0⟩ : V3 ℝ) - ⟨9 / 4, 0, 0⟩).nrm = 13 / 20 := V3.nrm_unique (by norm_num) (by norm_num [V3.dot])
  have n3 : ((⟨8 / 5, 0, 0⟩ : V3 ℝ) - ⟨153 / 100, 0, 0⟩).nrm = 7 / 100 := V3.nrm_unique (by norm_num) (by norm_num [V3.dot])
  have k1 := sphereRound (nz := nz) (r1 := 1 / 20) (r2 := 1 / 20) (X := ⟨M3.one, 0⟩) (Y := ⟨M3.one, ⟨8 / 5, 0, 0⟩⟩) n1 (by norm_num) (by norm_num) b1 b2
    (spline eps' exSpline) (exMove ⟨8 / 5, 0, 0⟩ ⟨8 / 5, 0, 0⟩) 0 0
  have k2 := sphereRound (nz := nz) (r1 := 1 / 20) (r2 := 1 / 20) (X := ⟨M3.one, ⟨9 / 4, 0, 0⟩⟩) (Y := ⟨M3.one, ⟨8 / 5, 0, 0⟩⟩) n2 (by norm_num)
    (by norm_num) b1 b2 (spline eps' exSpline) (exMove ⟨8 / 5, 0, 0⟩ ⟨8 / 5, 0, 0⟩) (1 / 2) 0
  have q1 : ∀ n, (spline eps' exSpline).bvBound ⟨⟨M3.one, 0⟩, 0⟩ b1 n = if 0 ≤ n.x then 3 * (1 - 0) * (1 - 0) * n.x else 0 := fun n => by
    rw [← exSpline_bound he b1 n zero_lt_one]; congr 3; apply V3.ext' <;> norm_num
  have q2 : ∀ n, (spline eps' exSpline).bvBound ⟨⟨M3.one, ⟨9 / 4, 0, 0⟩⟩, 1 / 2⟩ b1 n =
      if 0 ≤ n.x then 3 * (1 - 1 / 2) * (1 - 1 / 2) * n.x else 0 := fun n => by
    rw [← exSpline_bound he b1 n (by norm_num)]; congr 3; apply V3.ext' <;> norm_num
  rw [q1, exMove_bound] at k1
  rw [q2, exMove_bound] at k2
  have s1 : shapeRound nz (sphereDist (1 / 20) (.sphere (1 / 20))) b1 b2 (spline eps' exSpline) (exMove ⟨8 / 5, 0, 0⟩ ⟨8 / 5, 0, 0⟩) ⟨⟨M3.one, 0⟩, 0⟩
      ⟨⟨M3.one, ⟨8 / 5, 0, 0⟩⟩, 0⟩ = 1 / 2 := by
    rw [k1]; norm_num [stepTime, V3.dot]
  have s2 : shapeRound nz (sphereDist (1 / 20) (.sphere (1 / 20))) b1 b2 (spline eps' exSpline) (exMove ⟨8 / 5, 0, 0⟩ ⟨8 / 5, 0, 0⟩)
      ⟨⟨M3.one, ⟨9 / 4, 0, 0⟩⟩, 1 / 2⟩ ⟨⟨M3.one, ⟨8 / 5, 0, 0⟩⟩, 0⟩ = 1 := by
    rw [k2]; norm_num [stepTime, V3.dot]
  have i2 : (exMove ⟨8 / 5, 0, 0⟩ ⟨8 / 5, 0, 0⟩).init = ⟨⟨M3.one, ⟨8 / 5, 0, 0⟩⟩, 0⟩ := rfl
  refine ⟨⟨false, 1, r0.tf1, r0.tf2⟩, ⟨⟨M3.one, ⟨9 / 4, 0, 0⟩⟩, 1 / 2⟩, ⟨⟨M3.one, ⟨8 / 5, 0, 0⟩⟩, 0⟩, ?_, rfl, ?_⟩
  · have hh : sphereHit eps (1 / 20) (.sphere (1 / 20)) (⟨M3.one, 0⟩ : Pose ℝ) ⟨M3.one, ⟨8 / 5, 0, 0⟩⟩ = false := by
      rw [sphereHit_spheres, n1]; norm_num
    simp only [shapes, conservative, e0, i2, hh, Bool.false_eq_true, if_false, false_or]
    have c1 : ¬ (1 / 2 : ℝ) ≤ 1 / 10000 := by norm_num
    have c2 : ¬ (1 / 2 : ℝ) > 1 := by norm_num
    simp only [advance, s1, zero_add, shapeErr, if_neg c1, if_neg c2, e1, f1 (1 / 2) (by norm_num), s2]
    norm_num
  · rw [spheres_touch (by norm_num) (by norm_num) (by rw [e3]; exact exDistPose_rigid _) (by rw [f1 _ (by norm_num)]; exact exDistPose_rigid _), e3,
      f1 _ (by norm_num), n3]
    norm_num

/-! ### What sampling misses -/

theorem numIter_default : numIter 10 (1 / 10000) = 10 := by
  have : ⌈(1 : ℝ) / (1 / 10000)⌉₊ = 10000 := by
    rw [show (1 : ℝ) / (1 / 10000) = ((10000 : ℕ) : ℝ) by norm_num, Nat.ceil_natCast]
  rw [numIter, this]; norm_num

theorem exMove_rigid (a b : V3 ℝ) (t : ℝ) (h0 : 0 ≤ t) (h1 : t ≤ 1) : ((exMove a b).integrate t).tf.Rigid := (exMove_good a b).rigid t h0 h1

/-- The hypotheses of `C97_sphere` and `C98_translation_partial` are met: a moving and a resting sphere, and the default request. -/
example (eps : ℝ) (he : 0 ≤ eps) (r0 : CCResult) :
    Sampled (exMove ⟨-4, 0, 0⟩ ⟨4, 0, 0⟩) (exMove 0 0) (Geo.sphere 1).pts (Geo.sphere 1).pts (numIter 10 (1 / 10000)) r0
      (naive (sphereHit eps 1 (.sphere 1)) (exMove ⟨-4, 0, 0⟩ ⟨4, 0, 0⟩) (exMove 0 0) 10 (1 / 10000) r0) :=
  C97_sphere he zero_le_one (g := .sphere 1) trivial zero_le_one r0 (exMove_rigid _ _) (exMove_rigid _ _) (by rw [numIter_default]; norm_num)

example (eps big prec : ℝ) (he : 0 ≤ eps) (absorb : ℝ → ℝ → Bool) (r0 : CCResult) : ∃ b o s1 s2,
    shapes false (sphereHit eps 1 (.sphere 1)) (sphereDist 1 (.sphere 1)) b b (exMove ⟨-4, 0, 0⟩ ⟨4, 0, 0⟩) (exMove 0 0) 10001 ⟨⟨M3.one, ⟨-4, 0, 0⟩⟩, 0⟩
      ⟨⟨M3.one, 0⟩, 0⟩ r0 = some (o, s1, s2) ∧ Safe (exMove ⟨-4, 0, 0⟩ ⟨4, 0, 0⟩) (exMove 0 0) (Geo.sphere 1).pts (Geo.sphere 1).pts o ∧
    o.isCollide = true ∧ o.toc ≤ 1 / 4 := by
  obtain ⟨b, hb⟩ := exSphere_rss big prec 1 absorb
  obtain ⟨o, s1, s2, h1, h2, -⟩ := C98_translation_partial he zero_le_one (g := .sphere 1) trivial zero_le_one (exDistPose_rigid ⟨-4, 0, 0⟩)
    (exDistPose_rigid 0) (Y1 := ⟨M3.one, ⟨4, 0, 0⟩⟩) (Y2 := ⟨M3.one, 0⟩) rfl rfl hb hb le_rfl r0
  have ht : TouchAt (exMove ⟨-4, 0, 0⟩ ⟨4, 0, 0⟩) (exMove 0 0) (Geo.sphere 1).pts (Geo.sphere 1).pts (1 / 4) := by
    rw [exMove_touch zero_le_one zero_le_one (by norm_num) (by norm_num), V3.nrm_le_iff (by norm_num)]
    norm_num [V3.dot]
  have hc : o.toc ≤ 1 / 4 := not_lt.1 fun h => h2.free _ (by norm_num) h ht
  refine ⟨b, o, s1, s2, h1, h2, ?_, hc⟩
  cases h : o.isCollide
  · have := h2.miss h
    linarith
  · rfl

/-- **Sampling misses a body that goes through another one between two samples.** With the default request there are ten samples, and the
tolerance `toc_err` has no effect. -/
theorem C97_violated_tunnel (eps : ℝ) (he : 0 ≤ eps) (r0 : CCResult) :
    (naive (sphereHit eps 1 (.sphere 1)) (exMove ⟨-90, 0, 0⟩ ⟨90, 0, 0⟩) (exMove 0 0) 10 (1 / 10000) r0).isCollide = false ∧
    TouchAt (exMove ⟨-90, 0, 0⟩ ⟨90, 0, 0⟩) (exMove 0 0) (Geo.sphere 1).pts (Geo.sphere 1).pts (1 / 2) := by
  constructor
  · have h := C97_sphere he zero_le_one (g := .sphere 1) trivial zero_le_one r0 (exMove_rigid ⟨-90, 0, 0⟩ ⟨90, 0, 0⟩) (exMove_rigid 0 0)
      (maxIter := 10) (tocErr := 1 / 10000) (by rw [numIter_default]; norm_num)
    rw [numIter_default] at h
    rw [← Bool.not_eq_true, h.iff]
    rintro ⟨i, hi, ht⟩
    have h0 : 0 ≤ sample 10 i := div_nonneg (Nat.cast_nonneg i) (by norm_num)
    have h1 : sample 10 i ≤ 1 := by
      rw [sample, div_le_one (by norm_num)]
      have : (i : ℝ) + 1 ≤ 10 := by exact_mod_cast hi
      push_cast; linarith
    rw [exMove_touch zero_le_one zero_le_one h0 h1, V3.nrm_le_iff (by norm_num)] at ht
    simp only [V3.dot, V3.sub_x, V3.sub_y, V3.sub_z, V3.add_x, V3.add_y, V3.add_z, V3.smul_x, V3.smul_y, V3.smul_z, V3.zero_x, V3.zero_y, V3.zero_z,
      sample] at ht
    interval_cases i <;> norm_num at ht
  · rw [exMove_touch zero_le_one zero_le_one (by norm_num) (by norm_num), V3.nrm_le_iff (by norm_num)]
    norm_num [V3.dot]

/-- **The time of contact is off by more than `toc_err`.** -/
theorem C97_violated_error (eps : ℝ) (he : 0 ≤ eps) (r0 : CCResult) :
    (naive (sphereHit eps 1 (.sphere 1)) (exMove ⟨-3, 0, 0⟩ ⟨15, 0, 0⟩) (exMove 0 0) 10 (1 / 10000) r0).isCollide = true ∧
    (naive (sphereHit eps 1 (.sphere 1)) (exMove ⟨-3, 0, 0⟩ ⟨15, 0, 0⟩) (exMove 0 0) 10 (1 / 10000) r0).toc = 1 / 9 ∧
    TouchAt (exMove ⟨-3, 0, 0⟩ ⟨15, 0, 0⟩) (exMove 0 0) (Geo.sphere 1).pts (Geo.sphere 1).pts (1 / 18) := by
  have h := C97_sphere he zero_le_one (g := .sphere 1) trivial zero_le_one r0 (exMove_rigid ⟨-3, 0, 0⟩ ⟨15, 0, 0⟩) (exMove_rigid 0 0)
    (maxIter := 10) (tocErr := 1 / 10000) (by rw [numIter_default]; norm_num)
  rw [numIter_default] at h
  have t0 : ¬ TouchAt (exMove ⟨-3, 0, 0⟩ ⟨15, 0, 0⟩) (exMove 0 0) (Geo.sphere 1).pts (Geo.sphere 1).pts (sample 10 0) := by
    rw [show sample 10 0 = 0 by norm_num [sample], exMove_touch zero_le_one zero_le_one le_rfl zero_le_one, V3.nrm_le_iff (by norm_num)]
    norm_num [V3.dot]
  have t1 : TouchAt (exMove ⟨-3, 0, 0⟩ ⟨15, 0, 0⟩) (exMove 0 0) (Geo.sphere 1).pts (Geo.sphere 1).pts (sample 10 1) := by
    rw [show sample 10 1 = 1 / 9 by norm_num [sample], exMove_touch zero_le_one zero_le_one (by norm_num) (by norm_num), V3.nrm_le_iff (by norm_num)]
    norm_num [V3.dot]
  have hc := h.iff.2 ⟨1, by norm_num, t1⟩
  refine ⟨hc, ?_, ?_⟩
  · obtain ⟨i, hi, ht, htt, hb, -⟩ := h.hit hc
    rw [ht] at htt ⊢
    have : i = 1 := by
      rcases lt_trichotomy i 1 with hl | hl | hl
      · obtain rfl : i = 0 := by omega
        exact absurd htt t0
      · exact hl
      · exact absurd t1 (hb 1 hl)
    rw [this]; norm_num [sample]
  · rw [exMove_touch zero_le_one zero_le_one (by norm_num) (by norm_num), V3.nrm_le_iff (by norm_num)]
    norm_num [V3.dot]

/-- **Without samples nothing is tested**: with `num_max_iterations = 0` bodies that touch all the time are reported apart. -/
theorem C97_violated_none (hit : Pose ℝ → Pose ℝ → Bool) (m1 m2 : Motion) (tocErr : ℝ) (r0 : CCResult) :
    (naive hit m1 m2 0 tocErr r0).isCollide = false := by
  simp [naive, numIter, naiveLoop]

/-! ### Two meshes -/

/-- A triangle in the plane `x = c`. -/
def exFlat (c : ℝ) : Tri ℝ := ⟨⟨c, 0, 0⟩, ⟨c, 1, 0⟩, ⟨c, 0, 1⟩⟩

theorem exFlat_x {c : ℝ} {p : V3 ℝ} (h : p ∈ (exFlat c).pts) : p.x = c := by
  obtain ⟨u, v, w, h1, h2, h3, h4, rfl⟩ := hull_triangle _ _ _ _ |>.1 h
  simp [exFlat]
  linear_combination c * h4

/-- The value and the points that `triDistance` gives for two such triangles. -/
theorem exFlat_dist {a b : ℝ} (h : a ≠ b) : (Tri.triDist (1 / 10 ^ 15) (exFlat a) (exFlat b)).1 = |b - a| ∧
    (Tri.triDist (1 / 10 ^ 15) (exFlat a) (exFlat b)).2.2 - (Tri.triDist (1 / 10 ^ 15) (exFlat a) (exFlat b)).2.1 = ⟨b - a, 0, 0⟩ := by
  have hn : ∀ c : ℝ, 1 / 10 ^ 15 < (exFlat c).nor.dot (exFlat c).nor := fun c => by
    norm_num [exFlat, Tri.nor, Tri.e1, Tri.e2, Tri.e3, V3.cross, V3.dot]
  obtain ⟨-, k2, k3⟩ := Tri.C83_distance_partial (thin := 1 / 10 ^ 15) (by norm_num) (fun _ => hn a) (fun _ => hn b)
  have hnt : ¬ Touch (exFlat a).pts (exFlat b).pts := fun ⟨p, hp, hq⟩ => h (by rw [← exFlat_x hp, exFlat_x hq])
  have h0 := (Tri.C83_any (thin := 1 / 10 ^ 15) (by norm_num) (exFlat a) (exFlat b)).1
  have i := k2 (lt_of_le_of_ne h0 fun e => hnt (k3.1 e.symm))
  generalize Tri.triDist (1 / 10 ^ 15) (exFlat a) (exFlat b) = r at *
  have x1 := exFlat_x i.left
  have x2 := exFlat_x i.right
  have hm : ∀ c : ℝ, (⟨c, 0, 0⟩ : V3 ℝ) ∈ (exFlat c).pts := fun c =>
    (hull_triangle _ _ _ _).2 ⟨1, 0, 0, zero_le_one, le_rfl, le_rfl, by norm_num, by simp only [exFlat]; v3⟩
  have l : r.1 ≤ |b - a| := by
    refine (i.least _ (hm a) _ (hm b)).trans (le_of_eq ?_)
    rw [V3.dist_eq]
    exact V3.nrm_unique (abs_nonneg _) (by rw [abs_mul_abs_self]; simp [V3.dot]; ring)
  have hq : (r.2.2 - r.2.1).nrm = r.1 := by rw [← V3.dist_eq, V3.dist_comm, i.attained]
  have hs := V3.nrm_mul_self (r.2.2 - r.2.1)
  rw [hq] at hs
  have hab : r.1 * r.1 ≤ (b - a) * (b - a) := by
    rw [← abs_mul_abs_self (b - a)]
    exact mul_le_mul l l h0 (abs_nonneg _)
  simp only [V3.dot, V3.sub_x, V3.sub_y, V3.sub_z, x1, x2] at hs
  have hy : (r.2.2.y - r.2.1.y) * (r.2.2.y - r.2.1.y) = 0 :=
    le_antisymm (by nlinarith [mul_self_nonneg (r.2.2.z - r.2.1.z)]) (mul_self_nonneg _)
  have hz : (r.2.2.z - r.2.1.z) * (r.2.2.z - r.2.1.z) = 0 :=
    le_antisymm (by nlinarith [mul_self_nonneg (r.2.2.y - r.2.1.y)]) (mul_self_nonneg _)
  refine ⟨le_antisymm l (abs_le_of_sq_le_sq (by nlinarith) h0), ?_⟩
  · apply V3.ext'
    · simp only [V3.sub_x, x1, x2]
    · exact mul_self_eq_zero.1 hy
    · exact mul_self_eq_zero.1 hz

theorem exFlat_move (a c : ℝ) : (⟨(⟨M3.one, ⟨c, 0, 0⟩⟩ : Pose ℝ).apply (exFlat a).a, (⟨M3.one, ⟨c, 0, 0⟩⟩ : Pose ℝ).apply (exFlat a).b,
    (⟨M3.one, ⟨c, 0, 0⟩⟩ : Pose ℝ).apply (exFlat a).c⟩ : Tri ℝ) = exFlat (a + c) := by
  simp only [exPose_apply, exFlat]
  congr 1 <;> apply V3.ext' <;> simp

/-- One round of two such meshes. -/
theorem exFlat_round {a b c d : ℝ} (h : a + c ≠ b + d) (m1 m2 : Motion) (u1 u2 : ℝ) :
    meshRound (Tri.triDist (1 / 10 ^ 15)) m1 m2 (exFlat a, exFlat b) ⟨⟨M3.one, ⟨c, 0, 0⟩⟩, u1⟩ ⟨⟨M3.one, ⟨d, 0, 0⟩⟩, u2⟩ =
      (stepTime false |b + d - (a + c)| (m1.triBound ⟨⟨M3.one, ⟨c, 0, 0⟩⟩, u1⟩ (exFlat (a + c)).a (exFlat (a + c)).b (exFlat (a + c)).c
        (⟨b + d - (a + c), 0, 0⟩ : V3 ℝ).normalized + m2.triBound ⟨⟨M3.one, ⟨d, 0, 0⟩⟩, u2⟩ (exFlat (b + d)).a (exFlat (b + d)).b (exFlat (b + d)).c
        (⟨b + d - (a + c), 0, 0⟩ : V3 ℝ).normalized), exFlat (a + c), exFlat (b + d)) := by
  obtain ⟨h1, h2⟩ := exFlat_dist h
  have ea : ∀ a c : ℝ, (⟨M3.one, ⟨c, 0, 0⟩⟩ : Pose ℝ).apply (exFlat a).a = (exFlat (a + c)).a := fun a c => congrArg Tri.a (exFlat_move a c)
  have eb : ∀ a c : ℝ, (⟨M3.one, ⟨c, 0, 0⟩⟩ : Pose ℝ).apply (exFlat a).b = (exFlat (a + c)).b := fun a c => congrArg Tri.b (exFlat_move a c)
  have ec : ∀ a c : ℝ, (⟨M3.one, ⟨c, 0, 0⟩⟩ : Pose ℝ).apply (exFlat a).c = (exFlat (a + c)).c := fun a c => congrArg Tri.c (exFlat_move a c)
  simp only [meshRound, ea, eb, ec, h1, h2]

theorem exAxis_normalized {x s : ℝ} (hs : s * s = 1) (hx : 0 < x) : (⟨s * x, 0, 0⟩ : V3 ℝ).normalized = ⟨s, 0, 0⟩ := by
  have h : (⟨s * x, 0, 0⟩ : V3 ℝ).nrm = x := V3.nrm_unique hx.le (by simp [V3.dot]; linear_combination (x * x) * hs)
  rw [V3.normalized, h, if_neg hx.ne']
  apply V3.ext' <;> simp
  field_simp

theorem exFlat_touch {a b t : ℝ} {p q r s : ℝ} (ht : t ≤ 1) (h : a + (p + t * (q - p)) = b + (r + t * (s - r))) :
    TouchAt (exMove ⟨p, 0, 0⟩ ⟨q, 0, 0⟩) (exMove ⟨r, 0, 0⟩ ⟨s, 0, 0⟩) (exFlat a).pts (exFlat b).pts t := by
  have hm : ∀ c : ℝ, (⟨c, 0, 0⟩ : V3 ℝ) ∈ (exFlat c).pts := fun c =>
    (hull_triangle _ _ _ _).2 ⟨1, 0, 0, zero_le_one, le_rfl, le_rfl, by norm_num, by simp only [exFlat]; v3⟩
  rw [TouchAt, Motion.bodyAt, Motion.bodyAt, exMove_at ht, exMove_at ht]
  refine ⟨⟨a + (p + t * (q - p)), 0, 0⟩, ⟨_, hm a, ?_⟩, _, hm b, ?_⟩
  · rw [M3.one_mulVec]; apply V3.ext' <;> simp
  · rw [h, M3.one_mulVec]; apply V3.ext' <;> simp

/-- **A moving second mesh is missed.** The bound of the second mesh is taken along the direction to it, not from it: a mesh that comes
towards a resting one counts as going away, the first step is a whole unit of time, and the meshes go through one another. -/
theorem C98_violated_mesh {hit : Pose ℝ → Pose ℝ → Bool} (hh : hit ⟨M3.one, 0⟩ ⟨M3.one, ⟨3, 0, 0⟩⟩ = false) (fuel : ℕ) (r0 : CCResult) : ∃ o s1 s2,
    meshes hit (Tri.triDist (1 / 10 ^ 15)) (exFlat 0) (exFlat 0) (exMove 0 0) (exMove ⟨3, 0, 0⟩ ⟨-3, 0, 0⟩) (fuel + 2) (exMove 0 0).init
      (exMove ⟨3, 0, 0⟩ ⟨-3, 0, 0⟩).init r0 = some (o, s1, s2) ∧ o.isCollide = false ∧
    TouchAt (exMove 0 0) (exMove ⟨3, 0, 0⟩ ⟨-3, 0, 0⟩) (exFlat 0).pts (exFlat 0).pts (1 / 2) := by
  have k1 := exFlat_round (a := 0) (b := 0) (c := 0) (d := 3) (by norm_num) (exMove 0 0) (exMove ⟨3, 0, 0⟩ ⟨-3, 0, 0⟩) 0 0
  have hnn : (⟨3, 0, 0⟩ : V3 ℝ).normalized = ⟨1, 0, 0⟩ := by
    simpa using exAxis_normalized (x := 3) (s := 1) (by norm_num) (by norm_num)
  have i1 : (exMove 0 0).init = ⟨⟨M3.one, ⟨0, 0, 0⟩⟩, 0⟩ := rfl
  have i2 : (exMove ⟨3, 0, 0⟩ ⟨-3, 0, 0⟩).init = ⟨⟨M3.one, ⟨3, 0, 0⟩⟩, 0⟩ := rfl
  have e1 : (exMove 0 0).integrate 1 = ⟨⟨M3.one, ⟨0, 0, 0⟩⟩, 0⟩ := by
    rw [exMove_at le_rfl]; congr 2; apply V3.ext' <;> simp
  have e2 : (exMove ⟨3, 0, 0⟩ ⟨-3, 0, 0⟩).integrate 1 = ⟨⟨M3.one, ⟨-3, 0, 0⟩⟩, 0⟩ := by
    rw [exMove_at le_rfl]; congr 2; apply V3.ext' <;> norm_num
  have s1 : meshRound (Tri.triDist (1 / 10 ^ 15)) (exMove 0 0) (exMove ⟨3, 0, 0⟩ ⟨-3, 0, 0⟩) (exFlat 0, exFlat 0) ⟨⟨M3.one, ⟨0, 0, 0⟩⟩, 0⟩
      ⟨⟨M3.one, ⟨3, 0, 0⟩⟩, 0⟩ = (1, exFlat 0, exFlat 3) := by
    rw [k1]; simp only [zero_add, sub_zero, add_zero, hnn]
    norm_num [stepTime, exMove, translation, V3.dot]
  have s2 : ∃ x, x ≤ 1 ∧ ∃ y, meshRound (Tri.triDist (1 / 10 ^ 15)) (exMove 0 0) (exMove ⟨3, 0, 0⟩ ⟨-3, 0, 0⟩) (exFlat 0, exFlat 3)
      ⟨⟨M3.one, ⟨0, 0, 0⟩⟩, 0⟩ ⟨⟨M3.one, ⟨-3, 0, 0⟩⟩, 0⟩ = (x, y) := ⟨_, stepTime_le_one _ _ _, _, rfl⟩
  obtain ⟨x, -, y, s2⟩ := s2
  refine ⟨⟨false, 1, r0.tf1, r0.tf2⟩, ⟨⟨M3.one, ⟨0, 0, 0⟩⟩, 0⟩, ⟨⟨M3.one, ⟨-3, 0, 0⟩⟩, 0⟩, ?_, rfl, exFlat_touch (by norm_num) (by norm_num)⟩
  have hh' : hit ⟨M3.one, ⟨0, 0, 0⟩⟩ ⟨M3.one, ⟨3, 0, 0⟩⟩ = false := hh
  simp only [meshes, conservative, i1, i2, hh', Bool.false_eq_true, if_false, false_or]
  have c1 : ¬ (1 : ℝ) ≤ 1 / 100000 := by norm_num
  have c2 : ¬ (1 : ℝ) > 1 := by norm_num
  simp only [advance, s1, zero_add, meshErr, if_neg c1, if_neg c2, e1, e2, s2]
  split_ifs with h3 h4
  · simp
  · simp
  · exact absurd (by have := not_le.1 h3; linarith [show (0 : ℝ) < 1 / 100000 by norm_num]) h4

/-- **The working copy of a mesh is moved again in every round.** The second mesh is at rest; after the first step the first one touches it,
but its copy has been moved twice and is behind it, the bound is negative, and the contact is missed. -/
theorem C98_violated_copy {hit : Pose ℝ → Pose ℝ → Bool} (hh : hit ⟨M3.one, ⟨5, 0, 0⟩⟩ ⟨M3.one, 0⟩ = false) (fuel : ℕ) (r0 : CCResult) : ∃ o s1 s2,
    meshes hit (Tri.triDist (1 / 10 ^ 15)) (exFlat 0) (exFlat 10) (exMove ⟨5, 0, 0⟩ ⟨25, 0, 0⟩) (exMove 0 0) (fuel + 2)
      (exMove ⟨5, 0, 0⟩ ⟨25, 0, 0⟩).init (exMove 0 0).init r0 = some (o, s1, s2) ∧ o.isCollide = false ∧
    TouchAt (exMove ⟨5, 0, 0⟩ ⟨25, 0, 0⟩) (exMove 0 0) (exFlat 0).pts (exFlat 10).pts (1 / 4) := by
  have k1 := exFlat_round (a := 0) (b := 10) (c := 5) (d := 0) (by norm_num) (exMove ⟨5, 0, 0⟩ ⟨25, 0, 0⟩) (exMove 0 0) 0 0
  have k2 := exFlat_round (a := 5) (b := 10) (c := 10) (d := 0) (by norm_num) (exMove ⟨5, 0, 0⟩ ⟨25, 0, 0⟩) (exMove 0 0) 0 0
  have hn1 : (⟨5, 0, 0⟩ : V3 ℝ).normalized = ⟨1, 0, 0⟩ := by
    simpa using exAxis_normalized (x := 5) (s := 1) (by norm_num) (by norm_num)
  have hn2 : (⟨-5, 0, 0⟩ : V3 ℝ).normalized = ⟨-1, 0, 0⟩ := by
    simpa using exAxis_normalized (x := 5) (s := -1) (by norm_num) (by norm_num)
  have i1 : (exMove 0 0).init = ⟨⟨M3.one, ⟨0, 0, 0⟩⟩, 0⟩ := rfl
  have i2 : (exMove ⟨5, 0, 0⟩ ⟨25, 0, 0⟩).init = ⟨⟨M3.one, ⟨5, 0, 0⟩⟩, 0⟩ := rfl
  have e1 : (exMove 0 0).integrate (1 / 4) = ⟨⟨M3.one, ⟨0, 0, 0⟩⟩, 0⟩ := by
    rw [exMove_at (by norm_num)]; congr 2; apply V3.ext' <;> simp
  have e2 : (exMove ⟨5, 0, 0⟩ ⟨25, 0, 0⟩).integrate (1 / 4) = ⟨⟨M3.one, ⟨10, 0, 0⟩⟩, 0⟩ := by
    rw [exMove_at (by norm_num)]; congr 2; apply V3.ext' <;> norm_num
  have s1 : meshRound (Tri.triDist (1 / 10 ^ 15)) (exMove ⟨5, 0, 0⟩ ⟨25, 0, 0⟩) (exMove 0 0) (exFlat 0, exFlat 10) ⟨⟨M3.one, ⟨5, 0, 0⟩⟩, 0⟩
      ⟨⟨M3.one, ⟨0, 0, 0⟩⟩, 0⟩ = (1 / 4, exFlat 5, exFlat 10) := by
    rw [k1]; simp only [zero_add, add_zero, show (10 : ℝ) - 5 = 5 by norm_num, hn1]
    norm_num [stepTime, exMove, translation, V3.dot]
  have s2 : meshRound (Tri.triDist (1 / 10 ^ 15)) (exMove ⟨5, 0, 0⟩ ⟨25, 0, 0⟩) (exMove 0 0) (exFlat 5, exFlat 10) ⟨⟨M3.one, ⟨10, 0, 0⟩⟩, 0⟩
      ⟨⟨M3.one, ⟨0, 0, 0⟩⟩, 0⟩ = (1, exFlat 15, exFlat 10) := by
    rw [k2]; simp only [add_zero, show (10 : ℝ) - (5 + 10) = -5 by norm_num, hn2]
    norm_num [stepTime, exMove, translation, V3.dot]
  refine ⟨⟨false, 1, r0.tf1, r0.tf2⟩, ⟨⟨M3.one, ⟨10, 0, 0⟩⟩, 0⟩, ⟨⟨M3.one, ⟨0, 0, 0⟩⟩, 0⟩, ?_, rfl, exFlat_touch (by norm_num) (by norm_num)⟩
  have hh' : hit ⟨M3.one, ⟨5, 0, 0⟩⟩ ⟨M3.one, ⟨0, 0, 0⟩⟩ = false := hh
  simp only [meshes, conservative, i1, i2, hh', Bool.false_eq_true, if_false, false_or]
  have c1 : ¬ (1 : ℝ) ≤ 1 / 100000 := by norm_num
  have c2 : ¬ (1 / 4 : ℝ) > 1 := by norm_num
  have c3 : ¬ (1 / 4 : ℝ) ≤ 1 / 100000 := by norm_num
  have c4 : (1 / 4 + 1 : ℝ) > 1 := by norm_num
  simp only [advance, s1, zero_add, meshErr, if_neg c3, if_neg c2, e1, e2, s2, if_neg c1, if_pos c4]
  simp

end Continuous
end Fcl
