import Verif.TreeArray.Ops2

/-! Insertion, removal and update of leaves; refitting; the functions that only read the array. -/

namespace Fcl
namespace TArr
variable {K O : Type*} [LinearOrder K]
set_option linter.unusedSectionVars false

/-- Boxes contain those below them. -/
def OK' (t : Option (ATree K O)) : Prop := ∀ t' ∈ t, t'.Enc

theorem exists_plug' {t : ATree K O} {x : ℕ × AABB K × O} (h : x ∈ t.leaves) : ∃ c, t = plug c (.leaf x.1 x.2.1 x.2.2) := by
  obtain ⟨c, h⟩ := exists_plug h
  exact ⟨c, h⟩

theorem leaf_cell {h : Heap K O} {p : Option ℕ} {t : ATree K O} (r : Rep h p t) {x : ℕ × AABB K × O} (hx : x ∈ t.leaves) :
    ∃ q, h x.1 = some ⟨x.2.1, q, .data (some x.2.2), none⟩ := by
  induction t generalizing p with
  | leaf i b o => simp at hx; subst hx; exact ⟨p, r⟩
  | node i b l r' hl hr =>
    simp at hx
    rcases hx with hx | hx
    · exact hl r.2.1 hx
    · exact hr r.2.2 hx

theorem insert_spec (cfg : ACfg K O) {A : Arr K O} {t : Option (ATree K O)} {k k' : ℕ} {fs : List ℕ}
    (s : St A t [] (k :: k' :: fs)) (he : OK' t) (b : AABB K) (o : O) :
    ∃ A' t' fs', insert cfg b o A = some (k, A') ∧ St A' (some t') [] fs' ∧ t'.Enc ∧
      t'.leaves.Perm ((k, b, o) :: aleaves t) ∧ A'.alloc = A.alloc ∧ A'.nLeaves = A.nLeaves + 1 := by
  have nd := s.nodup
  simp only [List.nil_append, List.nodup_append] at nd
  obtain ⟨n1, n2, n3⟩ := nd
  obtain ⟨k1, k2⟩ := List.nodup_cons.1 n2
  obtain ⟨fr, c1, c2⟩ := createNode_eq s.free k1 cfg.raw none b (some o)
  have s1 : St { A with freelist := fr, heap := A.heap.upd k ⟨b, none, .data (some o), none⟩, nNodes := A.nNodes + 1 }
      t [k] (k' :: fs) := by
    refine ⟨s.root, ?_, c1 _, ?_, ?_⟩
    · intro t' ht
      cases ht
      exact (s.rep _ rfl).upd (fun h => n3 k h k (by simp) rfl) _
    · simpa using s.perm
    · have := s.num
      simp at this ⊢
      omega
  cases t with
  | none =>
    obtain ⟨A', i1, i2, i3, i4, i5⟩ := insertLeaf_empty cfg s1 none (b := b) (q := none) (o := o) (upd_same _ _ _)
    refine ⟨{ A' with nLeaves := A'.nLeaves + 1 }, _, _, ?_, ⟨i2.root, i2.rep, i2.free, i2.perm, i2.num⟩, trivial, ?_, i3, ?_⟩
    · have : A.root = none := s.root
      simp only [insert, c2]
      rw [this] at i1 ⊢
      simp only [i1]
    · simp [aleaves]
    · simpa using i4
  | some t =>
    obtain ⟨A', t', i1, i2, i3, i4, i5, i6, i7⟩ := insertLeaf_spec cfg (c := []) s1 (b := b) (q := none) (o := o) (upd_same _ _ _)
      (he _ rfl)
    refine ⟨{ A' with nLeaves := A'.nLeaves + 1 }, t', _, ?_, ⟨i2.root, i2.rep, i2.free, i2.perm, i2.num⟩, i3, ?_, i5, ?_⟩
    · have : A.root = some t.addr := s.root
      simp only [insert, c2]
      rw [this] at i1 ⊢
      simp only [i1]
    · exact i4
    · simpa using i6

/-- Without two free elements there is no new node (unless it is the first). -/
theorem insert_full (cfg : ACfg K O) {A : Arr K O} {t : ATree K O} {k : ℕ} (s : St A (some t) [] [k]) (b : AABB K) (o : O) :
    insert cfg b o A = none := by
  have nd := s.nodup
  simp only [List.nil_append, List.nodup_append] at nd
  obtain ⟨n1, n2, n3⟩ := nd
  obtain ⟨fr, c1, c2⟩ := createNode_eq s.free (by simp) cfg.raw none b (some o)
  have s1 : St { A with freelist := fr, heap := A.heap.upd k ⟨b, none, .data (some o), none⟩, nNodes := A.nNodes + 1 }
      (some t) [k] [] := by
    refine ⟨s.root, ?_, c1 _, ?_, ?_⟩
    · rintro t' ⟨⟩
      exact (s.rep _ rfl).upd (fun h => n3 k h k (by simp) rfl) _
    · simpa using s.perm
    · have := s.num
      simpa using this
  have : A.root = some t.addr := s.root
  have i1 := insertLeaf_full cfg s1 (b := b) (q := none) (o := o) (upd_same _ _ _)
  simp only [insert, c2]
  rw [this] at i1 ⊢
  simp only [i1]

theorem removeLeaf_any (cfg : ACfg K O) {A : Arr K O} {t : ATree K O} {fs : List ℕ} (s : St A (some t) [] fs) (he : t.Enc)
    {x : ℕ × AABB K × O} (hx : x ∈ t.leaves) :
    ∃ A' t' fs' q, removeLeaf cfg x.1 A = some (q, A') ∧ St A' t' [x.1] fs' ∧ OK' t' ∧ (x :: aleaves t').Perm t.leaves ∧
      (∃ p, A'.heap x.1 = some ⟨x.2.1, p, .data (some x.2.2), none⟩) ∧
      A'.alloc = A.alloc ∧ A'.nLeaves = A.nLeaves ∧ A'.opath = A.opath ∧
      ((t' = none ∧ q = none) ∨ ∃ c sub, t' = some (plug c sub) ∧ q = some sub.addr ∧ ∃ k fs'', fs' = k :: fs'') := by
  obtain ⟨c, rfl⟩ := exists_plug' hx
  cases c with
  | nil =>
    obtain ⟨h1, h2⟩ := removeLeaf_root cfg s
    exact ⟨_, none, _, none, h1, h2, by simp [OK'], by simp [plug, aleaves], ⟨none, s.rep _ rfl⟩, rfl, rfl, rfl, .inl ⟨rfl, rfl⟩⟩
  | cons f c =>
    obtain ⟨A', c', sub, h1, h2, h3, h4, h5, h6, h7, h8⟩ := removeLeaf_spec cfg s he
    exact ⟨A', some (plug c' sub), _, some sub.addr, h1, h2, by rintro _ ⟨⟩; exact h3, h4, ⟨_, h5⟩, h6, h7, h8,
      .inr ⟨c', sub, rfl, rfl, _, _, rfl⟩⟩

theorem remove_spec (cfg : ACfg K O) {A : Arr K O} {t : ATree K O} {fs : List ℕ} (s : St A (some t) [] fs) (he : t.Enc)
    {x : ℕ × AABB K × O} (hx : x ∈ t.leaves) :
    ∃ A' t' fs', remove cfg x.1 A = some A' ∧ St A' t' [] fs' ∧ OK' t' ∧ (x :: aleaves t').Perm t.leaves ∧
      A'.alloc = A.alloc ∧ A'.nLeaves = A.nLeaves - 1 := by
  obtain ⟨A', t', fs', q, h1, h2, h3, h4, ⟨p, h5⟩, h6, h7, h8, -⟩ := removeLeaf_any cfg s he hx
  have nd := h2.nodup
  simp only [List.nodup_append, List.singleton_append, List.nodup_cons] at nd
  obtain ⟨n1, ⟨n2, n3⟩, n4⟩ := nd
  refine ⟨{ A' with heap := A'.heap.upd x.1 ⟨x.2.1, A'.freelist, .data (some x.2.2), none⟩, freelist := some x.1, nNodes := A'.nNodes - 1, nLeaves := A'.nLeaves - 1 }, t', x.1 :: fs', by simp only [remove, h1, deleteNode_eq h5], ⟨h2.root, ?_, ?_, ?_, ?_⟩, h3, h4, h6, by simp [h7]⟩
  · intro u hu
    cases hu
    exact (h2.rep _ rfl).upd (fun h => n4 _ h _ (by simp) rfl) _
  · exact ⟨rfl, _, upd_same _ _ _, h2.free.upd n2 _⟩
  · simpa using h2.perm
  · have := h2.num
    have := h2.length
    simp at this ⊢
    omega

theorem reinsert_spec (cfg : ACfg K O) {A : Arr K O} {t : ATree K O} {fs : List ℕ} (s : St A (some t) [] fs) (he : t.Enc)
    {x : ℕ × AABB K × O} (hx : x ∈ t.leaves) :
    ∃ A' t' fs', reinsert cfg x.1 A = some A' ∧ St A' (some t') [] fs' ∧ t'.Enc ∧ t'.leaves.Perm t.leaves ∧
      A'.alloc = A.alloc ∧ A'.nLeaves = A.nLeaves := by
  obtain ⟨A', t', fs', q, h1, h2, h3, h4, ⟨p, h5⟩, h6, h7, h8, h9⟩ := removeLeaf_any cfg s he hx
  rcases h9 with ⟨rfl, rfl⟩ | ⟨c, sub, rfl, rfl, k, fs'', rfl⟩
  · obtain ⟨A'', i1, i2, i3, i4, i5⟩ := insertLeaf_empty cfg h2 none h5
    refine ⟨A'', _, _, by simp [reinsert, h1, i1], i2, trivial, ?_, i3.trans h6, i4.trans h7⟩
    simpa [aleaves] using h4
  · obtain ⟨A'', t'', i1, i2, i3, i4, i5, i6, i7⟩ := insertLeaf_spec cfg (c := []) (sub := plug c sub) h2 h5 (h3 _ rfl)
    have : A'.root = some (plug c sub).addr := h2.root
    refine ⟨A'', t'', _, by simp [reinsert, h1, this, i1], i2, i3, ?_, i5.trans h6, i6.trans h7⟩
    exact i4.trans h4

theorem updateBv_spec (cfg : ACfg K O) {A : Arr K O} {t : ATree K O} {fs : List ℕ} (s : St A (some t) [] fs) (he : t.Enc)
    {x : ℕ × AABB K × O} (hx : x ∈ t.leaves) (h2' : 2 ≤ t.leaves.length) (b : AABB K) :
    ∃ A' t' fs' ls, updateBv cfg x.1 b A = some A' ∧ St A' (some t') [] fs' ∧ t'.Enc ∧ (x :: ls).Perm t.leaves ∧
      t'.leaves.Perm ((x.1, b, x.2.2) :: ls) ∧ A'.alloc = A.alloc ∧ A'.nLeaves = A.nLeaves := by
  obtain ⟨A', t', fs', q, h1, h2, h3, h4, ⟨p, h5⟩, h6, h7, h8, h9⟩ := removeLeaf_any cfg s he hx
  rcases h9 with ⟨rfl, rfl⟩ | ⟨c, sub, rfl, rfl, k, fs'', rfl⟩
  · have := h4.length_eq
    simp [aleaves] at this
    omega
  · have nd := h2.nodup
    simp only [oaddrs, List.nodup_append, List.singleton_append, List.nodup_cons] at nd
    obtain ⟨n1, ⟨n2, n3⟩, n4⟩ := nd
    have h2'' : St { A' with heap := A'.heap.upd x.1 ⟨b, p, .data (some x.2.2), none⟩ } (some (plug c sub)) [x.1] (k :: fs'') := by
      refine ⟨h2.root, ?_, h2.free.upd n2 _, h2.perm, h2.num⟩
      rintro u ⟨⟩
      exact (h2.rep _ rfl).upd (fun h => n4 _ h _ (by simp) rfl) _
    obtain ⟨A'', t'', i1, i2, i3, i4, i5, i6, i7⟩ := insertLeaf_spec cfg (c := c) (sub := sub) h2'' (upd_same _ _ _) (h3 _ rfl)
    exact ⟨A'', t'', _, _, by simp only [updateBv, h1, mod_eq h5, i1], i2, i3, h4, i4, i5.trans h6, i6.trans h7⟩

/-- An update of the only leaf loses it. -/
theorem updateBv_single (cfg : ACfg K O) {A : Arr K O} {x : ℕ} {b : AABB K} {o : O} {fs : List ℕ}
    (s : St A (some (.leaf x b o)) [] fs) (b' : AABB K) : updateBv cfg x b' A = some { A with root := none } := by
  simp [updateBv, (removeLeaf_root cfg s).1]

/-! ### Refitting -/

/-- Boxes of the inner nodes computed again. -/
def ATree.refit : ATree K O → ATree K O
  | .leaf i b o => .leaf i b o
  | .node i _ l r => .node i (l.refit.bv.merge r.refit.bv) l.refit r.refit

@[simp] theorem refit_addr (t : ATree K O) : t.refit.addr = t.addr := by cases t <;> rfl
@[simp] theorem refit_addrs (t : ATree K O) : t.refit.addrs = t.addrs := by
  induction t with
  | leaf => rfl
  | node i b l r hl hr => simp [ATree.refit, ATree.addrs, hl, hr]
@[simp] theorem refit_leaves (t : ATree K O) : t.refit.leaves = t.leaves := by
  induction t with
  | leaf => rfl
  | node i b l r hl hr => simp [ATree.refit, hl, hr]
theorem refit_enc (t : ATree K O) : t.refit.Enc := by
  induction t with
  | leaf => trivial
  | node i b l r hl hr =>
    refine ⟨?_, ?_, hl, hr⟩
    · simpa using AABB.merge_contain_left _ _
    · simpa using AABB.merge_contain_right _ _

theorem refitGo_spec (t : ATree K O) {h : Heap K O} {p : Option ℕ} (r : Rep h p t) (nd : t.addrs.Nodup) {fuel : ℕ}
    (hf : t.height < fuel) :
    ∃ h', refitGo fuel t.addr h = some h' ∧ Rep h' p t.refit ∧ ∀ j, j ∉ t.addrs → h' j = h j := by
  induction t generalizing h p fuel with
  | leaf i b o =>
    obtain ⟨fuel, rfl⟩ : ∃ k, fuel = k + 1 := ⟨fuel - 1, by omega⟩
    have r' : h i = _ := r
    exact ⟨h, by simp [refitGo, ATree.addr, r'], r, fun _ _ => rfl⟩
  | node i b l s hl hs =>
    obtain ⟨fuel, rfl⟩ : ∃ k, fuel = k + 1 := ⟨fuel - 1, by omega⟩
    obtain ⟨r1, r2, r3⟩ := r
    simp only [ATree.addrs, List.nodup_cons, List.mem_append, not_or, List.nodup_append] at nd
    obtain ⟨⟨n1, n2⟩, n3, n4, n5⟩ := nd
    simp only [ATree.height] at hf
    obtain ⟨h1, a1, a2, a3⟩ := hl r2 n3 (fuel := fuel) (by omega)
    obtain ⟨h2, b1, b2, b3⟩ := hs (h := h1) (r3.congr fun j hj => a3 j fun h => n5 j h j hj rfl) n4 (fuel := fuel) (by omega)
    have a2' : Rep h2 (some i) l.refit := a2.congr fun j hj => b3 j fun h => n5 j (by simpa using hj) j h rfl
    have i2 : h2 i = some ⟨b, p, .child (some l.addr), some s.addr⟩ := by rw [b3 i n2, a3 i n1]; exact r1
    have bl := a2'.bv
    have bs := b2.bv
    simp only [refit_addr] at bl bs
    refine ⟨h2.upd i ⟨l.refit.bv.merge s.refit.bv, p, .child (some l.addr), some s.addr⟩, ?_, ⟨?_, ?_, ?_⟩, ?_⟩
    · simp only [refitGo, addr_node, r1, Node.kid]
      simp only [reduceCtorEq, if_false, a1, b1, bl, bs, mod_eq i2]
    · simp
    · exact a2'.upd (by simpa using n1) _
    · exact b2.upd (by simpa using n2) _
    · intro j hj
      simp only [ATree.addrs, List.mem_cons, List.mem_append, not_or] at hj
      rw [upd_ne hj.1, b3 j hj.2.2, a3 j hj.2.1]

theorem refit_spec {A : Arr K O} {t : Option (ATree K O)} {fs : List ℕ} (s : St A t [] fs) :
    ∃ A' t', TArr.refit A = some A' ∧ St A' t' [] fs ∧ OK' t' ∧ aleaves t' = aleaves t ∧
      A'.alloc = A.alloc ∧ A'.nLeaves = A.nLeaves := by
  have nd := s.nodup
  simp only [List.nil_append, List.nodup_append] at nd
  obtain ⟨n1, n2, n3⟩ := nd
  cases t with
  | none =>
    have : A.root = none := s.root
    exact ⟨A, none, by simp [TArr.refit, this], s, by simp [OK'], rfl, rfl, rfl⟩
  | some t =>
    have : A.root = some t.addr := s.root
    obtain ⟨h', a1, a2, a3⟩ := refitGo_spec t (s.rep _ rfl) n1 s.height
    refine ⟨{ A with heap := h' }, some t.refit, by simp [TArr.refit, this, a1], ⟨by simpa using this, ?_, ?_, ?_, s.num⟩, ?_, ?_, rfl, rfl⟩
    · rintro u ⟨⟩; exact a2
    · exact s.free.congr fun j hj => a3 j fun h => n3 j h j hj rfl
    · simpa [oaddrs] using s.perm
    · rintro u ⟨⟩; exact refit_enc t
    · simp [aleaves]

/-! ### Reading -/

theorem load_spec (t : ATree K O) {h : Heap K O} {p : Option ℕ} (r : Rep h p t) {fuel : ℕ} (hf : t.height < fuel) :
    load h fuel t.addr = some t.erase := by
  induction t generalizing p fuel with
  | leaf i b o =>
    obtain ⟨fuel, rfl⟩ : ∃ k, fuel = k + 1 := ⟨fuel - 1, by omega⟩
    have r' : h i = _ := r
    simp [load, ATree.addr, r', ATree.erase]
  | node i b l s hl hs =>
    obtain ⟨fuel, rfl⟩ : ∃ k, fuel = k + 1 := ⟨fuel - 1, by omega⟩
    obtain ⟨r1, r2, r3⟩ := r
    simp only [ATree.height] at hf
    have a := hl r2 (fuel := fuel) (by omega)
    have b := hs r3 (fuel := fuel) (by omega)
    simp only [load, addr_node, r1, Node.kid]
    simp only [reduceCtorEq, if_false, a, b, ATree.erase]

theorem walk_spec (opath : ℕ) (t : ATree K O) {h : Heap K O} {p : Option ℕ} (r : Rep h p t) {fuel : ℕ} (hf : t.height < fuel)
    (bit : ℕ) : ∃ x ∈ t.leaves, walk h opath fuel bit t.addr = some x.1 := by
  induction t generalizing p fuel bit with
  | leaf i b o =>
    obtain ⟨fuel, rfl⟩ : ∃ k, fuel = k + 1 := ⟨fuel - 1, by omega⟩
    have r' : h i = _ := r
    exact ⟨(i, b, o), by simp, by simp [walk, ATree.addr, r']⟩
  | node i b l s hl hs =>
    obtain ⟨fuel, rfl⟩ : ∃ k, fuel = k + 1 := ⟨fuel - 1, by omega⟩
    obtain ⟨r1, r2, r3⟩ := r
    simp only [ATree.height] at hf
    obtain ⟨x, x1, x2⟩ := hl r2 (fuel := fuel) (by omega) ((bit + 1) % 32)
    obtain ⟨y, y1, y2⟩ := hs r3 (fuel := fuel) (by omega) ((bit + 1) % 32)
    by_cases c : (opath >>> bit) % 2 = 1
    · refine ⟨y, by simp [y1], ?_⟩
      simp only [walk, addr_node, r1, reduceCtorEq, if_false, c, decide_true, Node.kid, y2]
    · refine ⟨x, by simp [x1], ?_⟩
      simp only [walk, addr_node, r1, reduceCtorEq, if_false, c, decide_false, Node.kid, x2]

theorem balanceLoop_spec (cfg : ACfg K O) (n : ℕ) {A : Arr K O} {t : ATree K O} {fs : List ℕ} (s : St A (some t) [] fs)
    (he : t.Enc) :
    ∃ A' t' fs', balanceLoop cfg n A = some A' ∧ St A' (some t') [] fs' ∧ t'.Enc ∧ t'.leaves.Perm t.leaves ∧
      A'.alloc = A.alloc ∧ A'.nLeaves = A.nLeaves := by
  induction n generalizing A t fs with
  | zero => exact ⟨A, t, fs, rfl, s, he, List.Perm.refl _, rfl, rfl⟩
  | succ n ih =>
    have hr : A.root = some t.addr := s.root
    obtain ⟨x, x1, x2⟩ := walk_spec A.opath t (s.rep _ rfl) s.height 0
    obtain ⟨A1, t1, fs1, a1, a2, a3, a4, a5, a6⟩ := reinsert_spec cfg s he x1
    obtain ⟨A2, t2, fs2, b1, b2, b3, b4, b5, b6⟩ := ih (A := { A1 with opath := (A1.opath + 1) % 2 ^ 32 })
      ⟨a2.root, a2.rep, a2.free, a2.perm, a2.num⟩ a3
    exact ⟨A2, t2, fs2, by simp only [balanceLoop, hr, x2, a1, b1], b2, b3, b4.trans a4, b5.trans a5, b6.trans a6⟩

/-! ### Writing the boxes -/

theorem writeBoxes_spec (w : O → AABB K) (todo : List (ℕ × AABB K × O)) {A : Arr K O} {t : ATree K O} {fs : List ℕ}
    (s : St A (some t) [] fs) (done : List (ℕ × AABB K × O)) (hp : t.leaves.Perm (done ++ todo)) :
    ∃ h' t', writeBoxes w (todo.map Mgr.tentry) A.heap = some h' ∧ St { A with heap := h' } (some t') [] fs ∧
      t'.leaves.Perm (done ++ todo.map fun x => (x.1, w x.2.2, x.2.2)) := by
  induction todo generalizing A t done with
  | nil => exact ⟨A.heap, t, rfl, s, by simpa using hp⟩
  | cons x todo ih =>
    obtain ⟨c, rfl⟩ := exists_plug' (hp.mem_iff.2 (by simp : x ∈ done ++ x :: todo))
    have hrep := rep_plug.1 (s.rep _ rfl)
    have hx : A.heap x.1 = some ⟨x.2.1, up c, .data (some x.2.2), none⟩ := hrep.2
    have nd := s.nodup
    simp only [oaddrs, List.nil_append, List.nodup_append] at nd
    obtain ⟨n1, n2, n3⟩ := nd
    have n4 := nodup_of_plug n1
    have xf : x.1 ∉ fs := fun h => n3 x.1 ((plug_addrs _ _).mem_iff.2 (by simp [ATree.addrs])) _ h rfl
    have xc : x.1 ∉ caddrs c := fun h => (List.nodup_append.1 n4).2.2 _ h x.1 (by simp [ATree.addrs]) rfl
    have s' : St { A with heap := A.heap.upd x.1 ⟨w x.2.2, up c, .data (some x.2.2), none⟩ }
        (some (plug c (.leaf x.1 (w x.2.2) x.2.2))) [] fs := by
      refine ⟨?_, ?_, s.free.upd xf _, ?_, s.num⟩
      · have := s.root
        simp only [Option.map_some] at this ⊢
        rw [this]
        exact congrArg some (plug_addr_congr c _ _ rfl)
      · rintro u ⟨⟩
        exact rep_plug.2 ⟨hrep.1.upd xc _, upd_same _ _ _⟩
      · refine List.Perm.trans ?_ s.perm
        exact List.Perm.append_right _ ((plug_addrs c (.leaf x.1 (w x.2.2) x.2.2)).trans (plug_addrs c (.leaf x.1 x.2.1 x.2.2)).symm)
    obtain ⟨h', t', a1, a2, a3⟩ := ih s' (done ++ [(x.1, w x.2.2, x.2.2)]) (by
      refine (plug_leaves _ _).trans ?_
      have e1 : (cleaves c ++ [x]).Perm (done ++ x :: todo) := (plug_leaves c (.leaf x.1 x.2.1 x.2.2)).symm.trans hp
      have e2 : (x :: cleaves c).Perm (x :: (done ++ todo)) :=
        (List.perm_append_comm (l₁ := [x])).trans (e1.trans List.perm_middle)
      have e3 := (List.perm_cons x).1 e2
      simp only [ATree.leaves_leaf, List.append_assoc, List.singleton_append]
      refine (List.perm_append_comm (l₂ := [(x.1, w x.2.2, x.2.2)])).trans (List.Perm.trans ?_ List.perm_middle.symm)
      exact e3.cons _)
    refine ⟨h', t', ?_, a2, by simpa using a3⟩
    simp only [List.map_cons, writeBoxes, Mgr.tentry, mod_eq hx]
    exact a1

theorem perm_map_inv {α β : Type*} (f : α → β) {l₁ l₂ : List β} (h : l₁.Perm l₂) : ∀ l, l₂ = l.map f → ∃ l' : List α, l'.Perm l ∧ l₁ = l'.map f := by
  induction h with
  | nil =>
    intro l e
    exact ⟨l, List.Perm.refl _, e⟩
  | cons x h ih =>
    intro l e
    cases l with
    | nil => simp at e
    | cons a l =>
      simp only [List.map_cons, List.cons.injEq] at e
      obtain ⟨l', h1, h2⟩ := ih l e.2
      exact ⟨a :: l', h1.cons a, by simp [h2, e.1]⟩
  | swap x y l0 =>
    intro l e
    match l, e with
    | a :: b :: l, e =>
      simp only [List.map_cons, List.cons.injEq] at e
      exact ⟨b :: a :: l, List.Perm.swap a b l, by simp [e.1, e.2.1, e.2.2]⟩
  | trans h h' ih ih' =>
    intro l e
    obtain ⟨l', h1, h2⟩ := ih' l e
    obtain ⟨l'', h3, h4⟩ := ih l' h2
    exact ⟨l'', h3.trans h1, h4⟩

end TArr
end Fcl
