import Verif.Epa.Spec

/-!
# Lemmas on the store of the faces and on `expand`
-/

namespace Fcl.Epa
open V3
open Gjk (SV vertex)

variable {L : Limits} {s : St}

theorem bind_adj (s : St) (a : ℕ) (i : Fin 3) (b : ℕ) (j : Fin 3) (x : ℕ) (k : Fin 3) :
    ((bind s a i b j).faces x).adj k =
      if x = b ∧ k = j then some (a, i) else if x = a ∧ k = i then some (b, j) else (s.faces x).adj k := by
  simp only [bind, St.put, Face.link]
  by_cases hb : x = b
  · subst hb
    by_cases hj : k = j
    · simp [hj]
    · by_cases ha : x = a
      · subst ha; simp [hj]
      · simp [hj, ha]
  · by_cases ha : x = a
    · subst ha; simp [hb]
    · simp [hb, ha]

theorem bind_other (s : St) (a : ℕ) (i : Fin 3) (b : ℕ) (j : Fin 3) (x : ℕ) :
    ((bind s a i b j).faces x).c = (s.faces x).c ∧ ((bind s a i b j).faces x).n = (s.faces x).n ∧
    ((bind s a i b j).faces x).d = (s.faces x).d ∧ ((bind s a i b j).faces x).pass = (s.faces x).pass := by
  simp only [bind, St.put, Face.link]
  by_cases hb : x = b
  · subst hb
    by_cases ha : x = a
    · subst ha; simp
    · simp [ha]
  · by_cases ha : x = a
    · subst ha; simp [hb]
    · simp [hb, ha]

theorem bind_c (s : St) (a : ℕ) (i : Fin 3) (b : ℕ) (j : Fin 3) (x : ℕ) : ((bind s a i b j).faces x).c = (s.faces x).c :=
  (bind_other s a i b j x).1
theorem bind_n (s : St) (a : ℕ) (i : Fin 3) (b : ℕ) (j : Fin 3) (x : ℕ) : ((bind s a i b j).faces x).n = (s.faces x).n :=
  (bind_other s a i b j x).2.1
theorem bind_d (s : St) (a : ℕ) (i : Fin 3) (b : ℕ) (j : Fin 3) (x : ℕ) : ((bind s a i b j).faces x).d = (s.faces x).d :=
  (bind_other s a i b j x).2.2.1
theorem bind_pass (s : St) (a : ℕ) (i : Fin 3) (b : ℕ) (j : Fin 3) (x : ℕ) :
    ((bind s a i b j).faces x).pass = (s.faces x).pass :=
  (bind_other s a i b j x).2.2.2
theorem bind_hull (s : St) (a : ℕ) (i : Fin 3) (b : ℕ) (j : Fin 3) : (bind s a i b j).hull = s.hull := rfl
theorem bind_stock (s : St) (a : ℕ) (i : Fin 3) (b : ℕ) (j : Fin 3) : (bind s a i b j).stock = s.stock := rfl
theorem bind_nextsv (s : St) (a : ℕ) (i : Fin 3) (b : ℕ) (j : Fin 3) : (bind s a i b j).nextsv = s.nextsv := rfl

theorem bind_face (s : St) (a : ℕ) (i : Fin 3) (b : ℕ) (j : Fin 3) {x : ℕ} (ha : x ≠ a) (hb : x ≠ b) :
    (bind s a i b j).faces x = s.faces x := by
  simp only [bind, St.put, if_neg ha, if_neg hb]

theorem Partition.hull_nodup (h : Partition L s) : s.hull.Nodup :=
  (List.nodup_append.1 ((List.Perm.nodup_iff h).2 (List.nodup_range))).1

theorem Partition.disj (h : Partition L s) {k : ℕ} (hk : k ∈ s.stock) : k ∉ s.hull := fun hh =>
  (List.nodup_append.1 ((List.Perm.nodup_iff h).2 (List.nodup_range))).2.2 k hh k hk rfl

theorem Partition.lt (h : Partition L s) {k : ℕ} (hk : k ∈ s.hull) : k < L.maxFace :=
  List.mem_range.1 ((List.Perm.mem_iff h).1 (List.mem_append_left _ hk))

/-- What `newFace` does. -/
theorem newFace_spec (h : Partition L s) (a b c : SV) (forced : Bool) :
    Partition L (newFace L s a b c forced).2 ∧ (newFace L s a b c forced).2.nextsv = s.nextsv ∧
    ((newFace L s a b c forced).1 = none → (newFace L s a b c forced).2.hull = s.hull ∧
      ∀ x ∈ s.hull, (newFace L s a b c forced).2.faces x = s.faces x) ∧
    ∀ k, (newFace L s a b c forced).1 = some k → k ∈ s.stock ∧ (newFace L s a b c forced).2.hull = k :: s.hull ∧
      (∀ x, x ≠ k → (newFace L s a b c forced).2.faces x = s.faces x) ∧
      L.tol < ((b.w - a.w).cross (c.w - a.w)).nrm ∧
      ((newFace L s a b c forced).2.faces k).pass = 0 ∧ ((newFace L s a b c forced).2.faces k).c = tri a b c ∧
      ((newFace L s a b c forced).2.faces k).n =
        (1 / ((b.w - a.w).cross (c.w - a.w)).nrm) • ((b.w - a.w).cross (c.w - a.w)) ∧
      ((newFace L s a b c forced).2.faces k).d = faceDist a.w b.w c.w ∧
      (forced = true ∨ -L.tol ≤ faceDist a.w b.w c.w) ∧ (newFace L s a b c forced).2.status = s.status := by
  unfold newFace
  rcases hst : s.stock with _ | ⟨k, rest⟩
  · refine ⟨?_, rfl, fun _ => ⟨rfl, fun _ _ => rfl⟩, fun k hk => by cases hk⟩
    unfold Partition at h ⊢
    rw [hst] at h
    exact h
  · have hk : k ∉ s.hull := h.disj (by rw [hst]; exact List.mem_cons_self)
    have hne : ∀ x ∈ s.hull, x ≠ k := fun x hx e => hk (e ▸ hx)
    dsimp only
    by_cases hl : ((b.w - a.w).cross (c.w - a.w)).nrm > L.tol
    · rw [if_pos hl]
      by_cases hd : (forced || decide (faceDist a.w b.w c.w ≥ -L.tol)) = true
      · rw [if_pos hd]
        refine ⟨?_, rfl, by intro h'; simp at h', fun k' hk' => ?_⟩
        · refine List.Perm.trans ?_ h
          show (k :: s.hull ++ rest).Perm (s.hull ++ s.stock)
          first | rw [hst]; exact List.perm_middle.symm | exact List.perm_middle.symm
        · cases hk'
          refine ⟨List.mem_cons_self, rfl, fun x hx => by simp only [St.put, if_neg hx], hl, ?_, ?_, ?_, ?_, ?_, rfl⟩
          · simp [St.put]
          · simp [St.put]
          · simp [St.put]
          · simp [St.put]
          · simpa using hd
      · rw [if_neg hd]
        refine ⟨h, rfl, fun _ => ⟨rfl, fun x hx => ?_⟩, fun k' hk' => by cases hk'⟩
        simp only [St.put, if_neg (hne x hx)]
    · rw [if_neg hl]
      refine ⟨h, rfl, fun _ => ⟨rfl, fun x hx => ?_⟩, fun k' hk' => by cases hk'⟩
      simp only [St.put, if_neg (hne x hx)]

/-- What `drop` does. -/
theorem drop_spec (h : Partition L s) {f : ℕ} (hf : f ∈ s.hull) :
    ∃ t, drop s f = some t ∧ Partition L t ∧ t.faces = s.faces ∧ t.hull = s.hull.erase f ∧ t.nextsv = s.nextsv ∧
      t.status = s.status := by
  refine ⟨{ s with hull := s.hull.erase f, stock := f :: s.stock }, ?_, ?_, rfl, rfl, rfl, rfl⟩
  · simp only [drop, unlink, if_pos hf, Option.map_some]
  · refine List.Perm.trans ?_ h
    show (s.hull.erase f ++ f :: s.stock).Perm (s.hull ++ s.stock)
    exact List.perm_middle.trans (List.Perm.append_right _ (List.perm_cons_erase hf).symm)

/-- `w` is below the face `b` by more than the tolerance: the new face is on the horizon. -/
def Below (L : Limits) (w : SV) (x : Face) : Prop := x.n.dot w.w - x.d < -L.tol

/-- An edge without a neighbour that is to be trusted: one in `M`, or an end of the row `N` of new faces, the newest first. -/
def Open (M : ℕ → Fin 3 → Prop) (N : List ℕ) (a : ℕ) (i : Fin 3) : Prop :=
  M a i ∨ (i = 1 ∧ N.head? = some a) ∨ (i = 2 ∧ N.getLast? = some a)

/-- Between the calls of `expand` in one round: the hull is closed but for the edges `M` of marked faces and the ends of the row
of new faces. -/
structure Mid (L : Limits) (p : ℕ) (w : SV) (M : ℕ → Fin 3 → Prop) (N : List ℕ) (s : St) : Prop where
  part : Partition L s
  sub : ∀ a ∈ N, a ∈ s.hull ∧ (s.faces a).pass ≠ p ∧ (s.faces a).c 2 = w
  nodup : N.Nodup
  marked : ∀ a i, M a i → a ∈ s.hull ∧ (s.faces a).pass = p
  good : ∀ a ∈ s.hull, ∀ i, ¬ Open M N a i → ∃ b j, b ∈ s.hull ∧ ¬ Open M N b j ∧ Joined s a i b j
  nbr : ∀ a ∈ N, ∀ i, ¬ Open M N a i → ∃ b j, (s.faces a).adj i = some (b, j) ∧ (s.faces b).pass ≠ p ∧
    (b ∈ N ∨ Below L w (s.faces b))

/-- The row of new faces leads from the vertex `u` to the vertex `v`. -/
def Tip (s : St) (N : List ℕ) (u v : SV) : Prop :=
  (N = [] ∧ u = v) ∨ ∃ x y, N.head? = some x ∧ N.getLast? = some y ∧ (s.faces y).c 0 = u ∧ (s.faces x).c 1 = v

/-- The horizon holds the ends and the length of the row of new faces. -/
def Hor (h : Horizon) (N : List ℕ) : Prop := h.cf = N.head? ∧ h.ff = N.getLast? ∧ h.nf = N.length

open Classical in
/-- The marked faces of the hull. -/
noncomputable def markedSet (L : Limits) (p : ℕ) (s : St) : Finset ℕ :=
  (Finset.range L.maxFace).filter fun a => a ∈ s.hull ∧ (s.faces a).pass = p

theorem mem_markedSet {p : ℕ} (h : Partition L s) {a : ℕ} : a ∈ markedSet L p s ↔ a ∈ s.hull ∧ (s.faces a).pass = p := by
  simp only [markedSet, Finset.mem_filter, Finset.mem_range]
  exact ⟨fun k => k.2, fun k => ⟨h.lt k.1, k⟩⟩

theorem markedSet_card (p : ℕ) : (markedSet L p s).card ≤ L.maxFace := by
  have := Finset.card_filter_le (Finset.range L.maxFace) (fun a => a ∈ s.hull ∧ (s.faces a).pass = p)
  rw [Finset.card_range] at this
  unfold markedSet
  convert this

/-- A face reached from a marked face over an edge that is not open. -/
theorem Mid.reach {p : ℕ} {w : SV} {M : ℕ → Fin 3 → Prop} {N : List ℕ} (h : Mid L p w M N s) {pa : ℕ} {j : Fin 3} {f : ℕ}
    {e : Fin 3} (hM : ¬ M pa j) (hp : pa ∈ s.hull) (hm : (s.faces pa).pass = p) (ha : (s.faces pa).adj j = some (f, e)) :
    f ∈ s.hull ∧ ¬ Open M N f e ∧ Joined s pa j f e ∧ ¬ Open M N pa j := by
  have hn : pa ∉ N := fun k => (h.sub pa k).2.1 hm
  have ho : ¬ Open M N pa j := by
    rintro (k | k | k)
    · exact hM k
    · exact hn (List.mem_of_mem_head? (by rw [k.2]; rfl))
    · exact hn (List.mem_of_getLast? k.2)
  obtain ⟨b, j', hb, hob, hj⟩ := h.good pa hp j ho
  have := hj.1
  rw [ha] at this
  cases this
  exact ⟨hb, hob, hj, ho⟩

theorem Mid.notNew {p : ℕ} {w : SV} {M : ℕ → Fin 3 → Prop} {N : List ℕ} (h : Mid L p w M N s) {pa : ℕ} {j : Fin 3} {f : ℕ}
    {e : Fin 3} (hM : ¬ M pa j) (hp : pa ∈ s.hull) (hm : (s.faces pa).pass = p) (ha : (s.faces pa).adj j = some (f, e)) :
    f ∉ N := by
  intro hf
  obtain ⟨-, ho, hj, -⟩ := h.reach hM hp hm ha
  obtain ⟨b, j', e1, e2, -⟩ := h.nbr f hf e ho
  rw [hj.2.1] at e1
  cases e1
  exact e2 hm

end Fcl.Epa
