import Verif.SaP.Axis

/-! `update_` on the manager. -/

set_option linter.unusedSectionVars false
set_option linter.unusedVariables false

namespace Fcl
namespace SaP
variable {K O : Type*} [LinearOrder K] [LinearOrder O]

/-- What holds of the lists of a reachable manager. -/
structure Inv (m : SaP K O) : Prop where
  nodup : m.arr.Nodup
  mem : ∀ c e, e ∈ m.elist c ↔ e.obj ∈ m.arr
  enodup : ∀ c, (m.elist c).Nodup
  sorted : ∀ c, Srt (val m.cached c) (m.elist c)

/-- The list of pairs holds exactly the overlapping pairs, once each. -/
structure Exact (m : SaP K O) : Prop where
  nodup : m.pairs.Nodup
  mem : ∀ a b, (a, b) ∈ m.pairs ↔ a ∈ m.arr ∧ b ∈ m.arr ∧ a < b ∧ (m.cached a).overlap (m.cached b) = true

theorem mkPair_lt {a b : O} (h : a ≠ b) : (mkPair a b).1 < (mkPair a b).2 := by
  unfold mkPair
  split
  · next h' => exact h'
  · next h' => exact lt_of_le_of_ne (not_lt.1 h') h.symm

/-- Membership of the pair of two different objects. -/
theorem Exact.mkPair_mem {m : SaP K O} (h : Exact m) {p o : O} (hne : p ≠ o) :
    mkPair p o ∈ m.pairs ↔ p ∈ m.arr ∧ o ∈ m.arr ∧ (m.cached o).overlap (m.cached p) = true := by
  unfold mkPair
  split
  · next hlt =>
    rw [h.mem, overlap_symm']
    exact ⟨fun ⟨h1, h2, _, h3⟩ => ⟨h1, h2, h3⟩, fun ⟨h1, h2, h3⟩ => ⟨h1, h2, hlt, h3⟩⟩
  · next hlt =>
    rw [h.mem]
    exact ⟨fun ⟨h1, h2, _, h3⟩ => ⟨h2, h1, h3⟩,
      fun ⟨h1, h2, h3⟩ => ⟨h2, h1, lt_of_le_of_ne (not_lt.1 hlt) hne.symm, h3⟩⟩

theorem exact_of {m : SaP K O} (hn : m.pairs.Nodup) (o : O)
    (h1 : ∀ a b, a ≠ o → b ≠ o →
      ((a, b) ∈ m.pairs ↔ a ∈ m.arr ∧ b ∈ m.arr ∧ a < b ∧ (m.cached a).overlap (m.cached b) = true))
    (h2 : ∀ p, p ≠ o → (mkPair p o ∈ m.pairs ↔ p ∈ m.arr ∧ o ∈ m.arr ∧ (m.cached o).overlap (m.cached p) = true))
    (h3 : ∀ a b, (a, b) ∈ m.pairs → a < b) : Exact m := by
  refine ⟨hn, ?_⟩
  intro a b
  by_cases ha : a = o
  · by_cases hb : b = o
    · subst ha; subst hb
      exact ⟨fun h => absurd (h3 _ _ h) (lt_irrefl _), fun h => absurd h.2.2.1 (lt_irrefl _)⟩
    · subst ha
      by_cases hlt : a < b
      · have := h2 b hb
        rw [mkPair_comm, mkPair, if_pos hlt] at this
        rw [this]
        exact ⟨fun ⟨h1, h2, h3⟩ => ⟨h2, h1, hlt, h3⟩, fun ⟨h1, h2, _, h3⟩ => ⟨h2, h1, h3⟩⟩
      · exact ⟨fun h => absurd (h3 _ _ h) hlt, fun h => absurd h.2.2.1 hlt⟩
  · by_cases hb : b = o
    · subst hb
      by_cases hlt : a < b
      · have := h2 a ha
        rw [mkPair, if_pos hlt] at this
        rw [this, overlap_symm']
        exact ⟨fun ⟨h1, h2, h3⟩ => ⟨h1, h2, hlt, h3⟩, fun ⟨h1, h2, _, h3⟩ => ⟨h1, h2, h3⟩⟩
      · exact ⟨fun h => absurd (h3 _ _ h) hlt, fun h => absurd h.2.2.1 hlt⟩
    · exact h1 a b ha hb

theorem val_setBoth (cached : O → AABB K) (o : O) (c d : Fin 3) (nb : AABB K) (hd : d ≠ c) (e : EP O) :
    val (Function.update cached o (setBoth (cached o) c nb)) d e = val cached d e := by
  obtain ⟨p, h⟩ := e
  by_cases hp : p = o
  · subst hp
    cases h <;> simp [val, setBoth, setC_get, hd]
  · cases h <;> simp [val, hp]

theorem setBoth_lo (b : AABB K) (c d : Fin 3) (nb : AABB K) :
    (setBoth b c nb).lo.get d = if d = c then nb.lo.get d else b.lo.get d := by
  unfold setBoth; simp only [setC_get]; split <;> simp_all
theorem setBoth_hi (b : AABB K) (c d : Fin 3) (nb : AABB K) :
    (setBoth b c nb).hi.get d = if d = c then nb.hi.get d else b.hi.get d := by
  unfold setBoth; simp only [setC_get]; split <;> simp_all

theorem V3.get_ext {a b : V3 K} (h : ∀ c : Fin 3, a.get c = b.get c) : a = b := by
  have h0 := h 0
  have h1 := h 1
  have h2 := h 2
  cases a; cases b
  simp [V3.get] at h0 h1 h2
  simp [*]

theorem AABB.get_ext {a b : AABB K} (h1 : ∀ c : Fin 3, a.lo.get c = b.lo.get c)
    (h2 : ∀ c : Fin 3, a.hi.get c = b.hi.get c) : a = b := by
  have e1 := V3.get_ext h1
  have e2 := V3.get_ext h2
  cases a; cases b
  simp_all

/-- State of the manager in `update_` before the turn of axis `k`: `B` is the box before the call, `nb` the
new one, `P` the pairs before. -/
structure Mid (k : ℕ) (o : O) (nb : AABB K) (m0 m : SaP K O) : Prop where
  inv : Inv m
  arr : m.arr = m0.arr
  axis : m.axis = m0.axis
  fresh : m.fresh = m0.fresh
  others : ∀ p, p ≠ o → m.cached p = m0.cached p
  lo : ∀ c : Fin 3, (m.cached o).lo.get c = if c.val < k then nb.lo.get c else (m0.cached o).lo.get c
  hi : ∀ c : Fin 3, (m.cached o).hi.get c = if c.val < k then nb.hi.get c else (m0.cached o).hi.get c

/-- The pairs before the turn of axis `k`. -/
structure MidPairs (k : ℕ) (o : O) (nb : AABB K) (m0 m : SaP K O) : Prop where
  nodup : m.pairs.Nodup
  other : ∀ a b, a ≠ o → b ≠ o → ((a, b) ∈ m.pairs ↔ (a, b) ∈ m0.pairs)
  lt : ∀ a b, (a, b) ∈ m.pairs → a < b
  sub : ∀ p, mkPair p o ∈ m.pairs → p ∈ m0.arr
  own : ∀ p ∈ m0.arr, p ≠ o → (mkPair p o ∈ m.pairs ↔
    ((m0.cached o).overlap (m0.cached p) = true ∧ ∀ c : Fin 3, c.val < k → Ov c nb (m0.cached p)) ∨
    (nb.overlap (m0.cached p) = true ∧ ∃ c : Fin 3, c.val < k ∧ ¬ Ov c (m0.cached o) (m0.cached p)))

/-- Conditions on the boxes of the other objects. -/
def GenObj (o : O) (nb : AABB K) (m : SaP K O) : Prop :=
  ∀ p ∈ m.arr, p ≠ o → (m.cached p).Solid ∧ (m.cached p).Apart (m.cached o) ∧ (m.cached p).Apart nb

theorem updateCoord_step {o : O} {nb : AABB K} {m0 m : SaP K O} (k : Fin 3) (ho : o ∈ m0.arr)
    (hsol : (m0.cached o).Solid) (hnb : nb.Solid) (hsh : (m0.cached o).Shifted nb) (hm : Mid k.val o nb m0 m) :
    ∃ m', updateCoord o nb m k = some m' ∧ Mid (k.val + 1) o nb m0 m' ∧
      (GenObj o nb m0 → MidPairs k.val o nb m0 m → MidPairs (k.val + 1) o nb m0 m') := by
  have elo : (m.cached o).lo.get k = (m0.cached o).lo.get k := by rw [hm.lo, if_neg (lt_irrefl _)]
  have ehi : (m.cached o).hi.get k = (m0.cached o).hi.get k := by rw [hm.hi, if_neg (lt_irrefl _)]
  have ho' : o ∈ m.arr := by rw [hm.arr]; exact ho
  obtain ⟨s', hs', hst⟩ := updateAxis_step (c := k) (o := o) (nb := nb) (s := ⟨m.elist k, m.cached, m.pairs⟩)
    (hm.inv.enodup k) ((hm.inv.mem k _).2 ho') ((hm.inv.mem k _).2 ho') (hm.inv.sorted k)
    (by show (m.cached o).lo.get k < _; rw [elo, ehi]; exact hsol k) (hnb k)
    (by
      show (nb.lo.get k < (m.cached o).lo.get k ∧ nb.hi.get k < (m.cached o).hi.get k) ∨ _
      have := hsh k
      simp only [elo, ehi]
      exact this)
  have hca := hst.cached
  have hpe := hst.perm
  have hso := hst.sorted
  have hpa := hst.pairs
  simp only at hca hpe hso hpa
  refine ⟨{ m with elist := Function.update m.elist k s'.l, cached := s'.cached, pairs := s'.pairs }, ?_, ?_, ?_⟩
  · unfold updateCoord
    rw [hs']; rfl
  · refine ⟨⟨hm.inv.nodup, ?_, ?_, ?_⟩, hm.arr, hm.axis, hm.fresh, ?_, ?_, ?_⟩
    · intro c e
      by_cases hc : c = k
      · subst hc
        simp only [Function.update_self]
        rw [hpe.mem_iff]; exact hm.inv.mem c e
      · simp only [Function.update_of_ne hc]; exact hm.inv.mem c e
    · intro c
      by_cases hc : c = k
      · subst hc
        simp only [Function.update_self]
        exact hpe.nodup_iff.2 (hm.inv.enodup c)
      · simp only [Function.update_of_ne hc]; exact hm.inv.enodup c
    · intro c
      by_cases hc : c = k
      · subst hc
        simp only [Function.update_self]
        exact hso
      · simp only [Function.update_of_ne hc]
        rw [hca]
        exact srt_congr (fun e _ => val_setBoth _ _ _ _ _ hc e) (hm.inv.sorted c)
    · intro p hp
      show s'.cached p = _
      rw [hca, Function.update_of_ne hp]; exact hm.others p hp
    · intro c
      show (s'.cached o).lo.get c = _
      rw [hca, Function.update_self, setBoth_lo, hm.lo]
      by_cases hc : c = k
      · subst hc; simp
      · have : c.val ≠ k.val := fun h => hc (Fin.ext h)
        rw [if_neg hc]
        split_ifs <;> first | rfl | omega
    · intro c
      show (s'.cached o).hi.get c = _
      rw [hca, Function.update_self, setBoth_hi, hm.hi]
      by_cases hc : c = k
      · subst hc; simp
      · have : c.val ≠ k.val := fun h => hc (Fin.ext h)
        rw [if_neg hc]
        split_ifs <;> first | rfl | omega
  · intro hg hmp
    have hga : GenAxis k o m.cached nb (m.elist k) := by
      intro e he hne
      have hpm : e.obj ∈ m0.arr := by rw [← hm.arr]; exact (hm.inv.mem k e).1 he
      obtain ⟨g1, g2, g3⟩ := hg e.obj hpm hne
      have g2 := g2 k
      have g3 := g3 k
      rw [hm.others e.obj hne]
      refine ⟨g1 k, ?_⟩
      intro b hb
      simp only [List.mem_cons, List.not_mem_nil, or_false] at hb
      obtain ⟨p, h⟩ := e
      unfold val
      rw [hm.others p hne]
      rcases hb with rfl | rfl
      · rw [elo, ehi]
        cases h
        · simp only [Bool.false_eq_true, if_false]; exact ⟨g2.1, g2.2.1⟩
        · simp only [if_true]; exact ⟨g2.2.2.1, g2.2.2.2⟩
      · cases h
        · simp only [Bool.false_eq_true, if_false]; exact ⟨g3.1, g3.2.1⟩
        · simp only [if_true]; exact ⟨g3.2.2.1, g3.2.2.2⟩
    have hps := hpa hga hmp.nodup
    have hmem : ∀ p ∈ m0.arr, ∀ b, (⟨p, b⟩ : EP O) ∈ m.elist k := by
      intro p hp b; rw [hm.inv.mem]; rw [hm.arr]; exact hp
    have hcases : ∀ y : O × O, (∃ p, p ≠ o ∧ y = mkPair p o) ∨ (∀ p, p ≠ o → y ≠ mkPair p o) := by
      intro y
      by_cases h : ∃ p, p ≠ o ∧ y = mkPair p o
      · exact Or.inl h
      · exact Or.inr (fun p hp hy => h ⟨p, hp, hy⟩)
    have hOv : ∀ p, Ov k (m.cached o) (m0.cached p) ↔ Ov k (m0.cached o) (m0.cached p) := by
      intro p; unfold Ov; rw [elo, ehi]
    refine ⟨hps.nodup, ?_, ?_, ?_, ?_⟩
    · intro a b ha hb
      rw [← hmp.other a b ha hb]
      apply hps.other
      intro p hp h
      unfold mkPair at h
      split_ifs at h <;> simp only [Prod.mk.injEq] at h
      · exact hb h.2
      · exact ha h.1
    · intro a b hab
      rcases hcases (a, b) with ⟨p, hp, h⟩ | h
      · have := mkPair_lt hp
        rw [← h] at this; exact this
      · exact hmp.lt a b ((hps.other _ h).1 hab)
    · intro p hp
      rcases hps.new p hp with h | h | h
      · exact hmp.sub p h
      · have := (hm.inv.mem k _).1 h; rwa [hm.arr] at this
      · have := (hm.inv.mem k _).1 h; rwa [hm.arr] at this
    · intro p hp hne
      have hown := hmp.own p hp hne
      have eqp := hm.others p hne
      by_cases hov : Ov k nb (m0.cached p)
      · have hk := hps.keep p hne (hmem p hp _) (hmem p hp _) (by rw [eqp]; exact hov)
        rw [eqp, hOv] at hk
        rw [hk, hown]
        constructor
        · rintro ((⟨h1, h2⟩ | ⟨h1, c, h2, h3⟩) | ⟨h1, h2⟩)
          · by_cases hk' : ∀ c : Fin 3, c.val < k.val + 1 → Ov c nb (m0.cached p)
            · exact Or.inl ⟨h1, hk'⟩
            · exfalso
              apply hk'
              intro c hc
              by_cases hck : c = k
              · subst hck; exact hov
              · have : c.val ≠ k.val := fun h => hck (Fin.ext h)
                exact h2 c (by omega)
          · exact Or.inr ⟨h1, c, by omega, h3⟩
          · exact Or.inr ⟨h1, k, by omega, h2⟩
        · rintro (⟨h1, h2⟩ | ⟨h1, c, h2, h3⟩)
          · exact Or.inl (Or.inl ⟨h1, fun c hc => h2 c (by omega)⟩)
          · by_cases hck : c = k
            · subst hck; exact Or.inr ⟨h1, h3⟩
            · have : c.val ≠ k.val := fun h => hck (Fin.ext h)
              exact Or.inl (Or.inr ⟨h1, c, by omega, h3⟩)
      · have hfalse : mkPair p o ∉ s'.pairs := by
          by_cases hin : mkPair p o ∈ m.pairs
          · rcases hown.1 hin with ⟨h1, h2⟩ | ⟨h1, -⟩
            · apply hps.drop p hne (hmem p hp _) (hmem p hp _) (by rw [eqp]; exact hov)
              rw [eqp, overlap_iff_ov]
              intro c
              have hB := (overlap_iff_ov _ _).1 h1 c
              unfold Ov
              rw [hm.lo, hm.hi]
              by_cases hc : c.val < k.val
              · rw [if_pos hc, if_pos hc]; exact h2 c hc
              · rw [if_neg hc, if_neg hc]; exact hB
            · exact absurd ((overlap_iff_ov _ _).1 h1 k) hov
          · exact hps.out p hne (by rw [eqp]; exact hov) hin
        constructor
        · intro h; exact absurd h hfalse
        · rintro (⟨-, h2⟩ | ⟨h1, -⟩)
          · exact absurd (h2 k (by omega)) hov
          · exact absurd ((overlap_iff_ov _ _).1 h1 k) hov

/-- `update_` of one object. -/
theorem update1_step {approx : AABB K → AABB K → Bool} (hap : ∀ a b, approx a b = true → a = b)
    {w : O → AABB K} {m : SaP K O} {o : O} (hi : Inv m) (ho : o ∈ m.arr)
    (hsol : (m.cached o).Solid) (hnb : (w o).Solid) (hsh : (m.cached o).Shifted (w o)) :
    ∃ m', update1 approx w m o = some m' ∧ Inv m' ∧ m'.arr = m.arr ∧ m'.axis = m.axis ∧ m'.fresh = m.fresh ∧
      m'.cached = Function.update m.cached o (w o) ∧ (GenObj o (w o) m → Exact m → Exact m') := by
  unfold update1
  rw [if_neg (not_not.2 ho)]
  by_cases ha : approx (m.cached o) (w o) = true
  · rw [if_pos ha]
    refine ⟨m, rfl, hi, rfl, rfl, rfl, ?_, fun _ h => h⟩
    rw [← hap _ _ ha, Function.update_eq_self]
  · rw [if_neg ha]
    have hm0 : Mid 0 o (w o) m m := ⟨hi, rfl, rfl, rfl, fun _ _ => rfl, fun c => by simp, fun c => by simp⟩
    obtain ⟨m1, e1, h1, p1⟩ := updateCoord_step 0 ho hsol hnb hsh hm0
    obtain ⟨m2, e2, h2, p2⟩ := updateCoord_step 1 ho hsol hnb hsh h1
    obtain ⟨m3, e3, h3, p3⟩ := updateCoord_step 2 ho hsol hnb hsh h2
    refine ⟨m3, ?_, h3.inv, h3.arr, h3.axis, h3.fresh, ?_, ?_⟩
    · simp only [List.foldlM_cons, List.foldlM_nil, e1, e2, e3, Option.bind_eq_bind, Option.bind_some]
      rfl
    · funext p
      by_cases hp : p = o
      · subst hp
        rw [Function.update_self]
        apply AABB.get_ext
        · intro c; rw [h3.lo, if_pos]; exact c.isLt
        · intro c; rw [h3.hi, if_pos]; exact c.isLt
      · rw [Function.update_of_ne hp]; exact h3.others p hp
    · intro hg hex
      have q0 : MidPairs 0 o (w o) m m := by
        refine ⟨hex.nodup, fun _ _ _ _ => Iff.rfl, fun a b h => ((hex.mem a b).1 h).2.2.1, ?_, ?_⟩
        · intro p h
          by_cases hpo : p = o
          · subst hpo; exact ho
          · exact ((hex.mkPair_mem hpo).1 h).1
        · intro p hp hne
          rw [hex.mkPair_mem hne]
          simp [hp, ho]
      have q3 := p3 hg (p2 hg (p1 hg q0))
      have hc3 : m3.cached o = w o := by
        apply AABB.get_ext
        · intro c; rw [h3.lo, if_pos]; exact c.isLt
        · intro c; rw [h3.hi, if_pos]; exact c.isLt
      refine exact_of q3.nodup o ?_ ?_ q3.lt
      · intro a b ha hb
        rw [q3.other a b ha hb, hex.mem, h3.arr, h3.others a ha, h3.others b hb]
      · intro p hp
        rw [h3.arr, hc3, h3.others p hp]
        by_cases hpm : p ∈ m.arr
        · rw [q3.own p hpm hp]
          simp only [hpm, ho, true_and]
          have hall : ∀ c : Fin 3, c.val < (2 : Fin 3).val + 1 := fun c => c.isLt
          constructor
          · rintro (⟨-, h⟩ | ⟨h, -⟩)
            · exact (overlap_iff_ov _ _).2 (fun c => h c (hall c))
            · exact h
          · intro h
            by_cases hB : (m.cached o).overlap (m.cached p) = true
            · exact Or.inl ⟨hB, fun c _ => (overlap_iff_ov _ _).1 h c⟩
            · refine Or.inr ⟨h, ?_⟩
              rw [overlap_iff_ov, not_forall] at hB
              obtain ⟨c, hc⟩ := hB
              exact ⟨c, hall c, hc⟩
        · constructor
          · intro h; exact absurd (q3.sub p h) hpm
          · intro h; exact absurd h.1 hpm

end SaP
end Fcl
