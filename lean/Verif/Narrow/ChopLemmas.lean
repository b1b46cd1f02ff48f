import Verif.Narrow.BoxBox

/-!
# Clipping a convex polygon against a rectangle
-/

namespace Fcl
namespace BoxBox

/-! ### Changes along a sequence -/

/-- The number of changes along a sequence that starts with `a`. -/
def ch : Bool → List Bool → ℕ
  | _, [] => 0
  | a, b :: l => (if a = b then 0 else 1) + ch b l

/-- The number of changes around a closed sequence. -/
def cyc : List Bool → ℕ
  | [] => 0
  | a :: l => ch a (l ++ [a])

theorem ch_append (a b : Bool) (l m : List Bool) : ch a (l ++ b :: m) = ch a (l ++ [b]) + ch b m := by
  induction l generalizing a with
  | nil => simp [ch]
  | cons c l ih => simp only [List.cons_append, ch, ih, Nat.add_assoc]

theorem ch_drop (a b : Bool) (l : List Bool) : ch a l ≤ (if a = b then 0 else 1) + ch b l := by
  cases l with
  | nil => simp [ch]
  | cons c l => cases a <;> cases b <;> cases c <;> simp [ch] <;> omega

theorem ch_end (a b c : Bool) (l : List Bool) : ch a (l ++ [b]) ≤ ch a (l ++ [c]) + (if b = c then 0 else 1) := by
  induction l generalizing a with
  | nil => cases a <;> cases b <;> cases c <;> simp [ch]
  | cons d l ih => simp only [List.cons_append, ch]; have := ih d; omega

theorem ch_sublist {l m : List Bool} (h : l.Sublist m) : ∀ a b, ch a (l ++ [b]) ≤ ch a (m ++ [b]) := by
  induction h with
  | slnil => intro a b; exact le_rfl
  | cons c h ih =>
    intro a b
    exact (ih a b).trans (ch_drop a c _)
  | cons_cons c h ih =>
    intro a b
    simp only [List.cons_append, ch]
    exact Nat.add_le_add_left (ih c b) _

theorem ch_pos (a b : Bool) (l : List Bool) : (if a = b then 0 else 1) ≤ ch a (l ++ [b]) := by
  induction l generalizing a with
  | nil => simp [ch]
  | cons c l ih => simp only [List.cons_append, ch]; have := ih c; cases a <;> cases b <;> cases c <;> simp_all

theorem cyc_sublist {l m : List Bool} (h : l.Sublist m) : cyc l ≤ cyc m := by
  cases l with
  | nil => exact Nat.zero_le _
  | cons a l =>
    cases m with
    | nil => cases h
    | cons b m =>
      rcases List.cons_sublist_cons'.1 h with k | ⟨rfl, k⟩
      · obtain ⟨m1, m2, rfl, h2⟩ : ∃ m1 m2, m = m1 ++ a :: m2 ∧ l.Sublist m2 := by
          obtain ⟨r1, r2, rfl, hr, hs⟩ := List.cons_sublist_iff.1 k
          obtain ⟨u, v, rfl⟩ := List.append_of_mem hr
          exact ⟨u, v ++ r2, by simp, hs.trans (List.sublist_append_right _ _)⟩
        show ch a (l ++ [a]) ≤ ch b (m1 ++ a :: m2 ++ [b])
        rw [List.append_assoc, List.cons_append, ch_append b a m1 (m2 ++ [b])]
        have k1 := ch_end a a b l
        have k2 := ch_sublist h2 a b
        have k3 := ch_pos b a m1
        have : (if a = b then 0 else 1) = if b = a then 0 else 1 := by simp only [eq_comm]
        omega
      · exact ch_sublist k a a

theorem ch_all {l : List Bool} {a : Bool} (h : ∀ b ∈ l, b = a) : ch a l = 0 := by
  induction l with
  | nil => rfl
  | cons b l ih =>
    have := h b (by simp)
    subst this
    simp [ch, ih fun c hc => h c (by simp [hc])]

/-! ### One pass -/

/-- The point at `t` between `p` and `q`. -/
noncomputable def mid (p q : ℝ × ℝ) (t : ℝ) : ℝ × ℝ := (p.1 + t * (q.1 - p.1), p.2 + t * (q.2 - p.2))

/-- A property that holds between any two points that have it. -/
def Conv (K : ℝ × ℝ → Prop) : Prop := ∀ p q t, 0 ≤ t → t ≤ 1 → K p → K q → K (mid p q t)

variable {dir : Bool} {sign h : ℝ}

theorem crossing_mid (hs : sign = 1 ∨ sign = -1) {p q : ℝ × ℝ} (hc : ¬ (Inside dir sign h p ↔ Inside dir sign h q)) :
    ∃ t, 0 ≤ t ∧ t ≤ 1 ∧ crossing dir sign h p q = mid p q t ∧ sign * co dir (crossing dir sign h p q) = h := by
  have ss : sign * sign = 1 := by rcases hs with h | h <;> rw [h] <;> norm_num
  have ne : co dir q - co dir p ≠ 0 := fun e => hc (by
    have : co dir q = co dir p := by linarith
    rw [Inside, Inside, this])
  refine ⟨(sign * h - co dir p) / (co dir q - co dir p), ?_, ?_, ?_, ?_⟩
  · have e : (sign * h - co dir p) / (co dir q - co dir p) = (h - sign * co dir p) / (sign * co dir q - sign * co dir p) := by
      rw [← mul_div_mul_left _ _ (show sign ≠ 0 by rcases hs with h | h <;> rw [h] <;> norm_num)]
      congr 1
      · linear_combination h * ss
      · ring
    rw [e]
    simp only [Inside] at hc
    by_cases k1 : sign * co dir p < h
    · by_cases k2 : sign * co dir q < h
      · exact absurd (iff_of_true k1 k2) hc
      · exact div_nonneg (by linarith) (by linarith)
    · by_cases k2 : sign * co dir q < h
      · exact div_nonneg_of_nonpos (by linarith) (by linarith)
      · exact absurd (iff_of_false k1 k2) hc
  · have e : (sign * h - co dir p) / (co dir q - co dir p) = (h - sign * co dir p) / (sign * co dir q - sign * co dir p) := by
      rw [← mul_div_mul_left _ _ (show sign ≠ 0 by rcases hs with h | h <;> rw [h] <;> norm_num)]
      congr 1
      · linear_combination h * ss
      · ring
    rw [e]
    simp only [Inside] at hc
    by_cases k1 : sign * co dir p < h
    · by_cases k2 : sign * co dir q < h
      · exact absurd (iff_of_true k1 k2) hc
      · rw [div_le_one (by linarith)]; linarith
    · by_cases k2 : sign * co dir q < h
      · rw [div_le_one_of_neg (by linarith)]; linarith
      · exact absurd (iff_of_false k1 k2) hc
  · cases dir
    · simp only [crossing, mid, point, co, Bool.not_false, if_true, Bool.false_eq_true, if_false] at ne ⊢
      refine Prod.ext ?_ ?_
      · dsimp only; field_simp; ring
      · dsimp only; field_simp
    · simp only [crossing, mid, point, co, Bool.not_true, if_true, Bool.false_eq_true, if_false] at ne ⊢
      refine Prod.ext ?_ ?_
      · dsimp only; field_simp
      · dsimp only; field_simp; ring
  · have : co dir (crossing dir sign h p q) = sign * h := by cases dir <;> simp [crossing, point, co]
    rw [this, ← mul_assoc, ss, one_mul]

open Classical in
/-- The point where the line between a point and its successor crosses. -/
noncomputable def extra (dir : Bool) (sign h : ℝ) (e : (ℝ × ℝ) × (ℝ × ℝ)) : List (ℝ × ℝ) :=
  if ¬ (Inside dir sign h e.1 ↔ Inside dir sign h e.2) then [crossing dir sign h e.1 e.2] else []

theorem extra_cases (e : (ℝ × ℝ) × (ℝ × ℝ)) : extra dir sign h e = [] ∨
    ¬ (Inside dir sign h e.1 ↔ Inside dir sign h e.2) ∧ extra dir sign h e = [crossing dir sign h e.1 e.2] := by
  by_cases k : Inside dir sign h e.1 ↔ Inside dir sign h e.2
  · exact Or.inl (by rw [extra, if_neg (not_not.2 k)])
  · exact Or.inr ⟨k, by rw [extra, if_pos k]⟩

open Classical in
/-- What the loop adds for a point and its successor. -/
noncomputable def pieces (dir : Bool) (sign h : ℝ) (e : (ℝ × ℝ) × (ℝ × ℝ)) : List (ℝ × ℝ) :=
  (if Inside dir sign h e.1 then [e.1] else []) ++ extra dir sign h e

/-- What the loop computes when it is not left early. -/
noncomputable def full (dir : Bool) (sign h : ℝ) (es : List ((ℝ × ℝ) × (ℝ × ℝ))) : List (ℝ × ℝ) := es.flatMap (pieces dir sign h)

/-- If there is room for all the points, they are all computed. -/
theorem chopLoop_eq : ∀ (es : List ((ℝ × ℝ) × (ℝ × ℝ))) (r : List (ℝ × ℝ)), r.length + (full dir sign h es).length ≤ 8 →
    (chopLoop dir sign h es r).1 = r ++ full dir sign h es ∧
      ((chopLoop dir sign h es r).2 = true → r.length + (full dir sign h es).length = 8)
  | [], r, _ => by simp [chopLoop, full]
  | (p, q) :: rest, r, hl => by
    have hf : full dir sign h ((p, q) :: rest) = pieces dir sign h (p, q) ++ full dir sign h rest := rfl
    rw [hf] at hl ⊢
    simp only [pieces, extra, List.length_append] at hl ⊢
    rw [chopLoop]
    by_cases hp : Inside dir sign h p <;> by_cases hq : Inside dir sign h q <;>
      simp only [hp, hq, if_true, if_false, true_and, false_and, not_true, not_false_iff, iff_true, iff_false, true_iff, false_iff, List.length_append,
        List.length_cons, List.length_nil, List.append_nil, List.nil_append, List.length_singleton] at hl ⊢
    · by_cases h8 : r.length + 1 = 8
      · rw [if_pos h8]
        have : full dir sign h rest = [] := List.eq_nil_of_length_eq_zero (by omega)
        simp only [this, List.append_nil, List.length_nil, true_and]; intro _; omega
      · rw [if_neg h8]
        have ih := chopLoop_eq rest (r ++ [p]) (by simp only [List.length_append, List.length_singleton]; omega)
        rw [ih.1]
        refine ⟨by simp, fun k => ?_⟩
        have := ih.2 k
        simp only [List.length_append, List.length_singleton] at this
        omega
    · by_cases h8 : r.length + 1 = 8
      · exfalso; omega
      · rw [if_neg h8]
        by_cases h9 : r.length + 1 + 1 = 8
        · rw [if_pos h9]
          have : full dir sign h rest = [] := List.eq_nil_of_length_eq_zero (by omega)
          simp [this]; omega
        · rw [if_neg h9]
          have ih := chopLoop_eq rest (r ++ [p] ++ [crossing dir sign h p q]) (by simp only [List.length_append, List.length_singleton]; omega)
          rw [ih.1]
          refine ⟨by simp, fun k => ?_⟩
          have := ih.2 k
          simp only [List.length_append, List.length_singleton] at this
          omega
    · by_cases h8 : r.length + 1 = 8
      · rw [if_pos h8]
        have : full dir sign h rest = [] := List.eq_nil_of_length_eq_zero (by omega)
        simp [this]; omega
      · rw [if_neg h8]
        have ih := chopLoop_eq rest (r ++ [crossing dir sign h p q]) (by simp only [List.length_append, List.length_singleton]; omega)
        rw [ih.1]
        refine ⟨by simp, fun k => ?_⟩
        have := ih.2 k
        simp only [List.length_append, List.length_singleton] at this
        omega
    · have ih := chopLoop_eq rest r (by omega)
      rw [ih.1]
      refine ⟨by simp, fun k => ?_⟩
      have := ih.2 k
      omega

/-! ### The points with their successors -/

/-- The steps of a walk from `x` through `l` to `z`. -/
def steps (x : ℝ × ℝ) : List (ℝ × ℝ) → ℝ × ℝ → List ((ℝ × ℝ) × (ℝ × ℝ))
  | [], z => [(x, z)]
  | y :: l, z => (x, y) :: steps y l z

theorem zip_steps (x : ℝ × ℝ) (l : List (ℝ × ℝ)) (z : ℝ × ℝ) : (x :: l).zip (l ++ [z]) = steps x l z := by
  induction l generalizing x with
  | nil => rfl
  | cons y l ih => simp only [List.cons_append, List.zip_cons_cons, steps, ih]

theorem withNext_cons (x : ℝ × ℝ) (l : List (ℝ × ℝ)) : withNext (x :: l) = steps x l x := by
  rw [← zip_steps]; simp [withNext]

/-- Which side of the line a point is on. -/
noncomputable def side (a b c : ℝ) (x : ℝ × ℝ) : Bool := decide (a * x.1 + b * x.2 < c)

/-- Every line is crossed at most twice when going around. -/
def Good (q : List (ℝ × ℝ)) : Prop := ∀ a b c, cyc (q.map (side a b c)) ≤ 2

theorem side_mid (a b c : ℝ) {p q : ℝ × ℝ} {t : ℝ} (h0 : 0 ≤ t) (h1 : t ≤ 1) :
    (if side a b c p = side a b c (mid p q t) then 0 else 1) + (if side a b c (mid p q t) = side a b c q then 0 else 1) ≤
      if side a b c p = side a b c q then 0 else 1 := by
  have e : a * (mid p q t).1 + b * (mid p q t).2 = (1 - t) * (a * p.1 + b * p.2) + t * (a * q.1 + b * q.2) := by simp only [mid]; ring
  by_cases hp : a * p.1 + b * p.2 < c <;> by_cases hq : a * q.1 + b * q.2 < c
  · have : a * (mid p q t).1 + b * (mid p q t).2 < c := by
      rw [e]
      rcases h0.eq_or_lt with rfl | h0
      · linarith
      · nlinarith
    simp [side, hp, hq, this]
  · by_cases hm : a * (mid p q t).1 + b * (mid p q t).2 < c <;> simp [side, hp, hq, hm]
  · by_cases hm : a * (mid p q t).1 + b * (mid p q t).2 < c <;> simp [side, hp, hq, hm]
  · have : ¬ a * (mid p q t).1 + b * (mid p q t).2 < c := by
      rw [e]; push Not at *; nlinarith
    simp [side, hp, hq, this]

/-- The points of the walk and the points where it crosses the line. -/
noncomputable def refine (dir : Bool) (sign h : ℝ) (es : List ((ℝ × ℝ) × (ℝ × ℝ))) : List (ℝ × ℝ) :=
  es.flatMap fun e => e.1 :: extra dir sign h e

theorem full_sublist (es : List ((ℝ × ℝ) × (ℝ × ℝ))) : (full dir sign h es).Sublist (refine dir sign h es) := by
  induction es with
  | nil => exact List.Sublist.refl _
  | cons e es ih =>
    refine List.Sublist.append ?_ ih
    rw [pieces]
    split_ifs
    · exact List.Sublist.refl _
    · exact List.sublist_cons_self _ _

theorem refine_steps (hs : sign = 1 ∨ sign = -1) (a b c : ℝ) : ∀ (l : List (ℝ × ℝ)) (x z : ℝ × ℝ),
    ∃ T, refine dir sign h (steps x l z) = x :: T ∧
      ch (side a b c x) (T.map (side a b c) ++ [side a b c z]) ≤ ch (side a b c x) (l.map (side a b c) ++ [side a b c z])
  | [], x, z => by
    refine ⟨_, rfl, ?_⟩
    rcases extra_cases (dir := dir) (sign := sign) (h := h) (x, z) with k | ⟨k, k'⟩
    · rw [k]; exact le_rfl
    · obtain ⟨t, t0, t1, e, -⟩ := crossing_mid (h := h) hs k
      have := side_mid a b c (p := x) (q := z) t0 t1
      rw [k', e]
      simpa [ch] using this
  | y :: l, x, z => by
    obtain ⟨T, eT, hT⟩ := refine_steps hs a b c l y z
    have e1 : refine dir sign h (steps x (y :: l) z) = x :: (extra dir sign h (x, y) ++
        refine dir sign h (steps y l z)) := rfl
    refine ⟨_, e1, ?_⟩
    rw [eT]
    rcases extra_cases (dir := dir) (sign := sign) (h := h) (x, y) with k | ⟨k, k'⟩
    · rw [k]
      simp only [List.nil_append, List.map_cons, List.cons_append, ch]
      omega
    · obtain ⟨t, t0, t1, e, -⟩ := crossing_mid (h := h) hs k
      have := side_mid a b c (p := x) (q := y) t0 t1
      rw [k', e]
      simp only [List.cons_append, List.nil_append, List.map_cons, ch]
      omega

/-- Clipping leaves the polygon one whose boundary crosses every line at most twice. -/
theorem full_good (hs : sign = 1 ∨ sign = -1) {q : List (ℝ × ℝ)} (hq : Good q) : Good (full dir sign h (withNext q)) := by
  intro a b c
  cases q with
  | nil => exact Nat.zero_le _
  | cons x l =>
    rw [withNext_cons]
    obtain ⟨T, eT, hT⟩ := refine_steps (dir := dir) (h := h) hs a b c l x x
    have k := cyc_sublist ((full_sublist (dir := dir) (sign := sign) (h := h) (steps x l x)).map (side a b c))
    rw [eT] at k
    exact k.trans (hT.trans (hq a b c))

open Classical in
theorem full_length (x z : ℝ × ℝ) (l : List (ℝ × ℝ)) : (full dir sign h (steps x l z)).length =
    (x :: l).countP (fun p => decide (Inside dir sign h p)) +
      ch (decide (Inside dir sign h x)) (l.map (fun p => decide (Inside dir sign h p)) ++ [decide (Inside dir sign h z)]) := by
  induction l generalizing x with
  | nil =>
    by_cases hx : Inside dir sign h x <;> by_cases hz : Inside dir sign h z <;> simp [full, steps, pieces, extra, ch, hx, hz]
  | cons y l ih =>
    have e : full dir sign h (steps x (y :: l) z) = pieces dir sign h (x, y) ++ full dir sign h (steps y l z) := rfl
    rw [e, List.length_append, ih, List.countP_cons]
    by_cases hx : Inside dir sign h x <;> by_cases hy : Inside dir sign h y <;> simp [pieces, extra, ch, hx, hy] <;> omega

/-- The sides of the clipping lines are sides of lines. -/
theorem inside_side (dir : Bool) (sign h : ℝ) : ∃ a b, ∀ p, Inside dir sign h p ↔ a * p.1 + b * p.2 < h := by
  cases dir
  · exact ⟨sign, 0, fun p => by simp [Inside, co]⟩
  · exact ⟨0, sign, fun p => by simp [Inside, co]⟩

/-- A pass adds at most one point. -/
theorem full_short {q : List (ℝ × ℝ)} (hq : Good q) : (full dir sign h (withNext q)).length ≤ q.length + 1 := by
  cases q with
  | nil => simp [withNext, full]
  | cons x l =>
    obtain ⟨a, b, hab⟩ := inside_side dir sign h
    have e : (fun p => @decide (Inside dir sign h p) (Classical.propDecidable _)) = side a b h := by
      funext p
      rw [side, decide_eq_decide]
      exact hab p
    rw [withNext_cons, full_length, e]
    have e' : ∀ p, @decide (Inside dir sign h p) (Classical.propDecidable _) = side a b h p := fun p => congrFun e p
    rw [e']
    have g := hq a b h
    have hc : ch (side a b h x) (l.map (side a b h) ++ [side a b h x]) ≤ 2 := g
    by_cases hall : ∀ p ∈ x :: l, side a b h p = true
    · have : ch (side a b h x) (l.map (side a b h) ++ [side a b h x]) = 0 := by
        refine ch_all fun c hc => ?_
        rw [hall x (by simp)]
        simp only [List.mem_append, List.mem_map, List.mem_singleton] at hc
        rcases hc with ⟨p, hp, rfl⟩ | rfl
        · exact hall p (by simp [hp])
        · exact hall x (by simp)
      have := List.countP_le_length (p := side a b h) (l := x :: l)
      omega
    · have : (x :: l).countP (side a b h) ≠ (x :: l).length := fun k => hall (List.countP_eq_length.1 k)
      have := List.countP_le_length (p := side a b h) (l := x :: l)
      omega

theorem mem_full (hs : sign = 1 ∨ sign = -1) {K : ℝ × ℝ → Prop} (hK : Conv K) {q : List (ℝ × ℝ)} (hq : ∀ p ∈ q, K p) :
    ∀ p ∈ full dir sign h (withNext q), K p ∧ sign * co dir p ≤ h := by
  intro p hp
  obtain ⟨⟨u, v⟩, he, hp⟩ := List.mem_flatMap.1 hp
  have hu : u ∈ q := (List.of_mem_zip he).1
  have hv : v ∈ q := by
    have := (List.of_mem_zip he).2
    rcases List.mem_append.1 this with k | k
    · exact List.mem_of_mem_drop k
    · exact List.mem_of_mem_take k
  rw [pieces, List.mem_append] at hp
  rcases hp with hp | hp
  · split_ifs at hp with k
    · obtain rfl := List.mem_singleton.1 hp
      exact ⟨hq _ hu, le_of_lt k⟩
    · cases hp
  · rcases extra_cases (dir := dir) (sign := sign) (h := h) (u, v) with k | ⟨k, k'⟩
    · rw [k] at hp; cases hp
    · rw [k'] at hp
      obtain rfl := List.mem_singleton.1 hp
      obtain ⟨t, t0, t1, e, hh⟩ := crossing_mid (h := h) hs k
      exact ⟨by rw [e]; exact hK _ _ _ t0 t1 (hq _ hu) (hq _ hv), hh.le⟩

/-- `intersectRectQuad2` clips a quadrangle that crosses every line at most twice: no pass is left early. -/
theorem rectQuad_eq {w : ℝ × ℝ} {q : List (ℝ × ℝ)} (hl : q.length ≤ 4) (hq : Good q) :
    intersectRectQuad w q = full true 1 w.2 (withNext (full true (-1) w.2 (withNext (full false 1 w.1 (withNext (full false (-1) w.1 (withNext q))))))) := by
  have g1 := full_good (dir := false) (h := w.1) (Or.inr rfl) hq
  have g2 := full_good (dir := false) (h := w.1) (Or.inl rfl) g1
  have g3 := full_good (dir := true) (h := w.2) (Or.inr rfl) g2
  have l1 := full_short (dir := false) (sign := -1) (h := w.1) hq
  have l2 := full_short (dir := false) (sign := 1) (h := w.1) g1
  have l3 := full_short (dir := true) (sign := -1) (h := w.2) g2
  have l4 := full_short (dir := true) (sign := 1) (h := w.2) g3
  have step : ∀ (dir : Bool) (sign h : ℝ) (es : List ((ℝ × ℝ) × (ℝ × ℝ))), (full dir sign h es).length ≤ 7 →
      chopLoop dir sign h es [] = (full dir sign h es, false) := fun dir sign h es hl => by
    have k := chopLoop_eq (dir := dir) (sign := sign) (h := h) es [] (by simp only [List.length_nil]; omega)
    refine Prod.ext (by simpa using k.1) ?_
    by_contra hn
    have := k.2 (by simpa using hn)
    simp only [List.length_nil] at this
    omega
  have c1 : co false w = w.1 := rfl
  have c2 : co true w = w.2 := rfl
  simp only [intersectRectQuad, List.foldl_cons, List.foldl_nil, chop, Bool.false_eq_true, if_false, c1, c2]
  rw [step _ _ _ _ (by omega)]
  simp only [Bool.false_eq_true, if_false]
  rw [step _ _ _ _ (by omega)]
  simp only [Bool.false_eq_true, if_false]
  rw [step _ _ _ _ (by omega)]
  simp only [Bool.false_eq_true, if_false]
  simpa using (chopLoop_eq _ [] (by simp only [List.length_nil]; omega)).1

/-- The points that `intersectRectQuad2` finds are in the rectangle and in every convex set with the corners of the quadrangle; there are at most eight. -/
theorem rectQuad_spec {w : ℝ × ℝ} {q : List (ℝ × ℝ)} (hl : q.length ≤ 4) (hq : Good q) {K : ℝ × ℝ → Prop} (hK : Conv K) (hk : ∀ p ∈ q, K p) :
    (intersectRectQuad w q).length ≤ 8 ∧ ∀ p ∈ intersectRectQuad w q, K p ∧ |p.1| ≤ w.1 ∧ |p.2| ≤ w.2 := by
  rw [rectQuad_eq hl hq]
  have g1 := full_good (dir := false) (h := w.1) (Or.inr rfl) hq
  have g2 := full_good (dir := false) (h := w.1) (Or.inl rfl) g1
  have g3 := full_good (dir := true) (h := w.2) (Or.inr rfl) g2
  have l1 := full_short (dir := false) (sign := -1) (h := w.1) hq
  have l2 := full_short (dir := false) (sign := 1) (h := w.1) g1
  have l3 := full_short (dir := true) (sign := -1) (h := w.2) g2
  have l4 := full_short (dir := true) (sign := 1) (h := w.2) g3
  refine ⟨by omega, ?_⟩
  have half : ∀ (dir : Bool) (sign h : ℝ), Conv fun p => sign * co dir p ≤ h := fun dir sign h p q t t0 t1 hp hq => by
    have e : co dir (mid p q t) = (1 - t) * co dir p + t * co dir q := by cases dir <;> simp [co, mid] <;> ring
    dsimp only at *
    rw [e]; nlinarith
  have conj : ∀ {K L : ℝ × ℝ → Prop}, Conv K → Conv L → Conv fun p => K p ∧ L p :=
    fun hK hL p q t t0 t1 hp hq => ⟨hK p q t t0 t1 hp.1 hq.1, hL p q t t0 t1 hp.2 hq.2⟩
  have k1 := mem_full (dir := false) (h := w.1) (Or.inr rfl) hK hk
  have k2 := mem_full (dir := false) (h := w.1) (Or.inl rfl) (conj hK (half false (-1) w.1)) k1
  have k3 := mem_full (dir := true) (h := w.2) (Or.inr rfl) (conj (conj hK (half false (-1) w.1)) (half false 1 w.1)) k2
  have k4 := mem_full (dir := true) (h := w.2) (Or.inl rfl) (conj (conj (conj hK (half false (-1) w.1)) (half false 1 w.1)) (half true (-1) w.2)) k3
  intro p hp
  obtain ⟨⟨⟨⟨a, b⟩, c⟩, d⟩, e⟩ := k4 p hp
  simp only [co, Bool.false_eq_true, if_false, if_true] at b c d e
  exact ⟨a, abs_le.2 ⟨by linarith, by linarith⟩, abs_le.2 ⟨by linarith, by linarith⟩⟩

/-- A parallelogram is such a quadrangle. -/
theorem parallelogram_good (c1 c2 k1 k2 k3 k4 : ℝ) :
    Good [(c1 - k1 - k3, c2 - k2 - k4), (c1 - k1 + k3, c2 - k2 + k4), (c1 + k1 + k3, c2 + k2 + k4), (c1 + k1 - k3, c2 + k2 - k4)] := by
  intro a b c
  simp only [List.map_cons, List.map_nil, side, cyc, ch, List.cons_append, List.nil_append]
  by_cases h1 : a * (c1 - k1 - k3) + b * (c2 - k2 - k4) < c <;> by_cases h2 : a * (c1 - k1 + k3) + b * (c2 - k2 + k4) < c <;>
    by_cases h3 : a * (c1 + k1 + k3) + b * (c2 + k2 + k4) < c <;> by_cases h4 : a * (c1 + k1 - k3) + b * (c2 + k2 - k4) < c <;>
    simp only [h1, h2, h3, h4, decide_true, decide_false, if_true, Bool.true_eq_false, Bool.false_eq_true, if_false] <;> first | omega | (exfalso; linarith)

theorem mem_full_inside {q : List (ℝ × ℝ)} {p : ℝ × ℝ} (hp : p ∈ q) (hi : Inside dir sign h p) : p ∈ full dir sign h (withNext q) := by
  have : ∃ z, (p, z) ∈ withNext q := by
    obtain ⟨i, hi, rfl⟩ := List.getElem_of_mem hp
    have hl : (withNext q).length = q.length := by simp [withNext]; omega
    refine ⟨((withNext q)[i]'(by omega)).2, ?_⟩
    have e : (q[i], ((withNext q)[i]'(by omega)).2) = (withNext q)[i]'(by omega) := by
      simp [withNext]
    rw [e]
    exact List.getElem_mem _
  obtain ⟨z, hz⟩ := this
  refine List.mem_flatMap.2 ⟨_, hz, ?_⟩
  rw [pieces]
  exact List.mem_append_left _ (by rw [if_pos hi]; exact List.mem_singleton_self _)

/-- A corner of the quad inside the rectangle is kept. -/
theorem rectQuad_keeps {w : ℝ × ℝ} {q : List (ℝ × ℝ)} (hl : q.length ≤ 4) (hq : Good q) {p : ℝ × ℝ} (hp : p ∈ q) (h1 : |p.1| < w.1) (h2 : |p.2| < w.2) :
    p ∈ intersectRectQuad w q := by
  rw [rectQuad_eq hl hq]
  rw [abs_lt] at h1 h2
  refine mem_full_inside (mem_full_inside (mem_full_inside (mem_full_inside hp ?_) ?_) ?_) ?_ <;> simp only [Inside, co, if_true, Bool.false_eq_true, if_false] <;> linarith

end BoxBox
end Fcl
