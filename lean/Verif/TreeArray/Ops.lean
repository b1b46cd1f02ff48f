import Verif.TreeArray.Rep

/-! The operations on the array do what they should to the tree. -/

namespace Fcl
namespace TArr
variable {K O : Type*}
set_option linter.unusedSectionVars false

/-- The free elements. -/
def FreeL (h : Heap K O) : Option ℕ → List ℕ → Prop
  | hd, [] => hd = none
  | hd, i :: fs => hd = some i ∧ ∃ n, h i = some n ∧ FreeL h n.link fs

theorem FreeL.congr {h h' : Heap K O} {hd : Option ℕ} {fs : List ℕ} (r : FreeL h hd fs) (e : ∀ i ∈ fs, h' i = h i) :
    FreeL h' hd fs := by
  induction fs generalizing hd with
  | nil => exact r
  | cons i fs ih =>
    obtain ⟨a, n, b, c⟩ := r
    exact ⟨a, n, by rw [e i (by simp), b], ih c fun j hj => e j (by simp [hj])⟩

theorem FreeL.upd {h : Heap K O} {hd : Option ℕ} {fs : List ℕ} (r : FreeL h hd fs) {i : ℕ} (hi : i ∉ fs) (n : Node K O) :
    FreeL (h.upd i n) hd fs := r.congr fun j hj => upd_ne fun e => hi (e ▸ hj)

theorem upd_upd (h : Heap K O) (i : ℕ) (m n : Node K O) : (h.upd i m).upd i n = h.upd i n := by
  funext j
  simp only [Heap.upd]
  split <;> rfl

theorem allocateNode_eq {A : Arr K O} {k : ℕ} {fs : List ℕ} (hf : FreeL A.heap A.freelist (k :: fs)) (hk : k ∉ fs)
    (raw : ℕ → Node K O) : ∃ fr n, A.heap k = some n ∧ (∀ x, FreeL (A.heap.upd k x) fr fs) ∧
    allocateNode raw A = some (k, false, { A with
      freelist := fr, heap := A.heap.upd k { n with link := none, slot := .child none, child1 := none },
      nNodes := A.nNodes + 1 }) := by
  obtain ⟨a, n, b, c⟩ := hf
  refine ⟨n.link, n, b, fun x => c.upd hk x, ?_⟩
  simp [allocateNode, a, b]

theorem createNode_eq {A : Arr K O} {k : ℕ} {fs : List ℕ} (hf : FreeL A.heap A.freelist (k :: fs)) (hk : k ∉ fs)
    (raw : ℕ → Node K O) (p : Option ℕ) (b : AABB K) (d : Option O) : ∃ fr, (∀ x, FreeL (A.heap.upd k x) fr fs) ∧
    createNode raw p b d A = some (k, { A with
      freelist := fr, heap := A.heap.upd k ⟨b, p, .data d, none⟩, nNodes := A.nNodes + 1 }) := by
  obtain ⟨fr, n, h1, h2, h3⟩ := allocateNode_eq hf hk raw
  refine ⟨fr, h2, ?_⟩
  simp [createNode, h3, mod_eq (upd_same _ _ _), upd_upd]

theorem bv_upd {h : Heap K O} {i j : ℕ} {n : Node K O} (e : j ≠ i) : (h.upd i n).bv j = h.bv j := by
  simp [Heap.bv, upd_ne e]

variable [LinearOrder K]

theorem createNode2_eq {A : Arr K O} {k : ℕ} {fs : List ℕ} (hf : FreeL A.heap A.freelist (k :: fs)) (hk : k ∉ fs)
    (raw : ℕ → Node K O) (p : Option ℕ) {i j : ℕ} {b c : AABB K} (hi : A.heap.bv i = some b) (hj : A.heap.bv j = some c)
    (ni : i ≠ k) (nj : j ≠ k) : ∃ fr, (∀ x, FreeL (A.heap.upd k x) fr fs) ∧
    createNode2 raw p i j A = some (k, { A with
      freelist := fr, heap := A.heap.upd k ⟨b.merge c, p, .data none, none⟩, nNodes := A.nNodes + 1 }) := by
  obtain ⟨fr, n, h1, h2, h3⟩ := allocateNode_eq hf hk raw
  refine ⟨fr, h2, ?_⟩
  simp [createNode2, h3, mod_eq (upd_same _ _ _), upd_upd, bv_upd ni, bv_upd nj, hi, hj]

/-- A full array is replaced, and the references are to the old one. -/
theorem createNode2_full {A : Arr K O} (hf : A.freelist = none) (raw : ℕ → Node K O) (p : Option ℕ) (i j : ℕ) :
    createNode2 raw p i j A = none := by
  unfold createNode2 allocateNode
  rw [hf]
  dsimp only
  split <;> rename_i h
  · rfl
  · rfl
  · split at h <;> simp at h

/-! ### Frames -/

/-- The union of the boxes of the two children. -/
def Frame.mrg (f : Frame K O) (b : AABB K) : AABB K := if f.dir then f.sib.bv.merge b else b.merge f.sib.bv

theorem Frame.mrg_sib (f : Frame K O) (b : AABB K) : (f.mrg b).contain f.sib.bv = true := by
  unfold Frame.mrg
  split
  · exact AABB.merge_contain_left _ _
  · exact AABB.merge_contain_right _ _

theorem Frame.mrg_sub (f : Frame K O) (b : AABB K) : (f.mrg b).contain b = true := by
  unfold Frame.mrg
  split
  · exact AABB.merge_contain_right _ _
  · exact AABB.merge_contain_left _ _

theorem Frame.mrg_le (f : Frame K O) {b c : AABB K} (h1 : c.contain f.sib.bv = true) (h2 : c.contain b = true) :
    c.contain (f.mrg b) = true := by
  unfold Frame.mrg
  split
  · exact AABB.merge_least h1 h2
  · exact AABB.merge_least h2 h1

theorem kidBvs_cell {h : Heap K O} {f : Frame K O} {p q q' : Option ℕ} {t : ATree K O} (hs : Rep h q f.sib)
    (ht : Rep h q' t) : ∃ b c, kidBvs h (f.cell p t.addr) = some (b, c) ∧ b.merge c = f.mrg t.bv := by
  unfold Frame.cell Frame.mrg
  cases f.dir
  · exact ⟨t.bv, f.sib.bv, by simp [kidBvs, Node.kid, hs.bv, ht.bv], by simp⟩
  · exact ⟨f.sib.bv, t.bv, by simp [kidBvs, Node.kid, hs.bv, ht.bv], by simp⟩

theorem setKid_cell (f : Frame K O) (p : Option ℕ) {a : ℕ} (a' : ℕ) (h : a ≠ f.sib.addr) :
    Node.setKid (decide ((f.cell p a).child1 = some a)) a' (f.cell p a) = f.cell p a' := by
  unfold Frame.cell Node.setKid
  cases f.dir
  · simp [h.symm]
  · simp

theorem kid_cell (f : Frame K O) (p : Option ℕ) {a : ℕ} (h : a ≠ f.sib.addr) :
    (f.cell p a).kid (decide ((f.cell p a).child1 ≠ some a)) = some (some f.sib.addr) := by
  unfold Frame.cell Node.kid
  cases f.dir
  · simp [h.symm]
  · simp

theorem plug_append (c c' : List (Frame K O)) (t : ATree K O) : plug (c ++ c') t = plug c' (plug c t) := by
  induction c generalizing t with
  | nil => rfl
  | cons f c ih => simp [plug, ih]

/-! ### The way down -/

theorem descend_spec (sel : AABB K → AABB K → AABB K → Bool) {h : Heap K O} (q : AABB K) (s : ATree K O) {p : Option ℕ}
    (hr : Rep h p s) {fuel : ℕ} (hf : s.height < fuel) :
    ∃ c r b o, descend sel h q fuel s.addr = some r ∧ s = plug c (.leaf r b o) := by
  induction s generalizing p fuel with
  | leaf i b o =>
    obtain ⟨fuel, rfl⟩ : ∃ k, fuel = k + 1 := ⟨fuel - 1, by omega⟩
    have e : h i = _ := hr
    exact ⟨[], i, b, o, by simp [descend, e], rfl⟩
  | node i b l r hl hr' =>
    obtain ⟨fuel, rfl⟩ : ∃ k, fuel = k + 1 := ⟨fuel - 1, by omega⟩
    simp only [ATree.height] at hf
    cases e : sel q l.bv r.bv
    · obtain ⟨c, r1, b1, o1, h1, h2⟩ := hl hr.2.1 (fuel := fuel) (by omega)
      refine ⟨c ++ [⟨i, b, false, r⟩], r1, b1, o1, ?_, by rw [plug_append, ← h2]; simp [plug, Frame.fill]⟩
      simp [descend, hr.1, kidBvs, Node.kid, hr.2.1.bv, hr.2.2.bv, e, h1]
    · obtain ⟨c, r1, b1, o1, h1, h2⟩ := hr' hr.2.2 (fuel := fuel) (by omega)
      refine ⟨c ++ [⟨i, b, true, l⟩], r1, b1, o1, ?_, by rw [plug_append, ← h2]; simp [plug, Frame.fill]⟩
      simp [descend, hr.1, kidBvs, Node.kid, hr.2.1.bv, hr.2.2.bv, e, h1]

/-! ### The ways up -/

/-- Another context of the same nodes. -/
structure Same (h h' : Heap K O) (c c' : List (Frame K O)) : Prop where
  addrs : caddrs c' = caddrs c
  leaves : cleaves c' = cleaves c
  frame : ∀ j, j ∉ c.map Frame.i → h' j = h j
  root : ∀ t : ATree K O, (plug c' t).addr = (plug c t).addr

theorem Same.rfl' (h : Heap K O) (c : List (Frame K O)) : Same h h c c := ⟨rfl, rfl, fun _ _ => rfl, fun _ => rfl⟩

theorem Same.cons {h h' : Heap K O} {c c' : List (Frame K O)} {f f' : Frame K O} {n : Node K O}
    (s : Same (h.upd f.i n) h' c c') (h1 : f'.i = f.i) (h2 : f'.sib = f.sib) : Same h h' (f :: c) (f' :: c') where
  addrs := by simp [caddrs, Frame.addrs, h1, h2]; exact s.addrs
  leaves := by simp [cleaves, h2]; exact s.leaves
  frame := by
    intro j hj
    simp only [List.map_cons, List.mem_cons, not_or] at hj
    rw [s.frame j hj.2, upd_ne hj.1]
  root := by
    intro t
    simp only [plug]
    rw [s.root]
    have : ∀ (c : List (Frame K O)) (t t' : ATree K O), t.addr = t'.addr → (plug c t).addr = (plug c t').addr := by
      intro c
      induction c with
      | nil => intro t t' e; exact e
      | cons g c ih => intro t t' _; exact ih _ _ (by simp)
    exact this _ _ _ (by simp [h1])

theorem mem_caddrs_i {c : List (Frame K O)} {f : Frame K O} (h : f ∈ c) : f.i ∈ caddrs c := by
  simp only [caddrs, List.mem_flatMap]
  exact ⟨f, h, by simp [Frame.addrs]⟩

theorem nodup_frame {f : Frame K O} {c : List (Frame K O)} {t : ATree K O}
    (nd : (caddrs (f :: c) ++ t.addrs).Nodup) :
    f.i ∉ f.sib.addrs ∧ f.i ∉ caddrs c ∧ f.i ∉ t.addrs ∧ f.sib.addrs.Nodup ∧ t.addrs.Nodup ∧ (caddrs c).Nodup ∧
      (∀ j ∈ f.sib.addrs, j ∉ caddrs c) ∧ (∀ j ∈ f.sib.addrs, j ∉ t.addrs) ∧ (∀ j ∈ caddrs c, j ∉ t.addrs) := by
  simp only [caddrs, List.flatMap_cons, Frame.addrs, List.cons_append, List.nodup_cons, List.mem_append, not_or,
    List.append_assoc] at nd
  obtain ⟨⟨h1, h2, h3⟩, h4⟩ := nd
  rw [List.nodup_append] at h4
  obtain ⟨h5, h6, h7⟩ := h4
  rw [List.nodup_append] at h6
  obtain ⟨h8, h9, h10⟩ := h6
  refine ⟨h1, h2, h3, h5, h9, h8, ?_, ?_, ?_⟩
  · intro j hj hj'
    exact h7 j hj j (List.mem_append_left _ hj') rfl
  · intro j hj hj'
    exact h7 j hj j (List.mem_append_right _ hj') rfl
  · intro j hj hj'
    exact h10 j hj j hj' rfl

theorem nodup_fill {f f' : Frame K O} {c : List (Frame K O)} {t : ATree K O} (nd : (caddrs (f :: c) ++ t.addrs).Nodup)
    (h1 : f'.i = f.i) (h2 : f'.sib = f.sib) : (caddrs c ++ (f'.fill t).addrs).Nodup := by
  have p : (caddrs c ++ (f'.fill t).addrs).Perm (caddrs (f :: c) ++ t.addrs) := by
    refine ((fill_addrs f' t).append_left _).trans ?_
    simp only [caddrs, List.flatMap_cons, List.append_assoc, Frame.addrs, h1, h2]
    rw [← List.append_assoc, ← List.append_assoc]
    exact List.perm_append_comm.append_right _
  exact p.nodup_iff.2 nd

/-- The node with the union of the boxes of its children. -/
def Frame.fit (f : Frame K O) (b : AABB K) : Frame K O := { f with b := f.mrg b }

theorem rep_fit {f : Frame K O} {c : List (Frame K O)} {h : Heap K O} {sub : ATree K O}
    (hr : Rep h none (plug (f :: c) sub)) (nd : (caddrs (f :: c) ++ sub.addrs).Nodup) :
    h f.i = some (f.cell (up c) sub.addr) ∧ Rep h (some f.i) f.sib ∧ Rep h (some f.i) sub ∧
    Rep (h.upd f.i ((f.fit sub.bv).cell (up c) sub.addr)) none (plug (f.fit sub.bv :: c) sub) := by
  obtain ⟨⟨r1, r2, r3⟩, r4⟩ := rep_plug.1 hr
  obtain ⟨n1, n2, n3, -⟩ := nodup_frame nd
  refine ⟨r1, r2, r4, rep_plug.2 ⟨⟨?_, r2.upd n1 _, r3.upd n2 _⟩, r4.upd n3 _⟩⟩
  exact upd_same _ _ _

theorem climb_spec (f : Frame K O) (c : List (Frame K O)) {h : Heap K O} {sub : ATree K O}
    (hr : Rep h none (plug (f :: c) sub)) (nd : (caddrs (f :: c) ++ sub.addrs).Nodup) (he : EncC (f :: c)) (hs : sub.Enc)
    {fuel : ℕ} (hf : c.length < fuel) :
    ∃ h' c', climb h fuel sub.addr f.i = some h' ∧ Rep h' none (plug c' sub) ∧ (plug c' sub).Enc ∧ Same h h' (f :: c) c' := by
  induction c generalizing f h sub fuel with
  | nil =>
    obtain ⟨fuel, rfl⟩ : ∃ k, fuel = k + 1 := ⟨fuel - 1, by omega⟩
    obtain ⟨h1, h2, h3, h4⟩ := rep_fit hr nd
    by_cases e : f.b.contain sub.bv = true
    · exact ⟨h, [f], by simp [climb, h3.bv, h1, Frame.cell, e], hr, by
        simp only [plug, enc_fill]; exact ⟨he.1, he.2.1, e, hs⟩, .rfl' _ _⟩
    · obtain ⟨b, d, k1, k2⟩ := kidBvs_cell (p := up ([] : List (Frame K O))) h2 h3
      refine ⟨_, _, ?_, h4, ?_, .cons (.rfl' _ _) rfl rfl⟩
      · simp only [climb, h3.bv, h1, k1, mod_eq h1, k2]
        rw [if_pos (by simpa [Frame.cell] using e)]
        rfl
      · simp only [plug, enc_fill]
        exact ⟨f.mrg_sib _, he.2.1, f.mrg_sub _, hs⟩
  | cons g c ih =>
    obtain ⟨fuel, rfl⟩ : ∃ k, fuel = k + 1 := ⟨fuel - 1, by omega⟩
    obtain ⟨h1, h2, h3, h4⟩ := rep_fit hr nd
    by_cases e : f.b.contain sub.bv = true
    · exact ⟨h, f :: g :: c, by simp [climb, h3.bv, h1, Frame.cell, e], hr, by
        rw [enc_plug]; exact ⟨he, by simpa using e, hs⟩, .rfl' _ _⟩
    · obtain ⟨b, d, k1, k2⟩ := kidBvs_cell (p := up (g :: c)) h2 h3
      obtain ⟨h', c', i1, i2, i3, i4⟩ := ih g (sub := (f.fit sub.bv).fill sub) h4 (nodup_fill nd rfl rfl) he.2.2.2
        (by rw [enc_fill]; exact ⟨f.mrg_sib _, he.2.1, f.mrg_sub _, hs⟩) (fuel := fuel) (by simpa using hf)
      refine ⟨h', f.fit sub.bv :: c', ?_, i2, i3, .cons i4 rfl rfl⟩
      rw [Frame.fill_addr] at i1
      simp only [climb, h3.bv, h1, k1, mod_eq h1, k2]
      rw [if_pos (by simpa [Frame.cell] using e)]
      exact i1

theorem tighten_spec (eqv : AABB K → AABB K → Bool) (f : Frame K O) (c : List (Frame K O)) {h : Heap K O} {sub : ATree K O}
    (hr : Rep h none (plug (f :: c) sub)) (nd : (caddrs (f :: c) ++ sub.addrs).Nodup) (he : (plug (f :: c) sub).Enc)
    {fuel : ℕ} (hf : c.length < fuel) :
    ∃ h' c' q, tighten eqv h fuel f.i = some (q, h') ∧ Rep h' none (plug c' sub) ∧ (plug c' sub).Enc ∧
      Same h h' (f :: c) c' ∧ (∀ a ∈ q, ∃ c1 s, plug c' sub = plug c1 s ∧ a = s.addr) := by
  induction c generalizing f h sub fuel with
  | nil =>
    obtain ⟨fuel, rfl⟩ : ∃ k, fuel = k + 1 := ⟨fuel - 1, by omega⟩
    obtain ⟨h1, h2, h3, h4⟩ := rep_fit hr nd
    obtain ⟨b, d, k1, k2⟩ := kidBvs_cell (p := up ([] : List (Frame K O))) h2 h3
    rw [plug, plug, enc_fill] at he
    by_cases e : eqv (f.mrg sub.bv) f.b = true
    · refine ⟨h, [f], some f.i, ?_, hr, by simpa [plug, enc_fill] using he, .rfl' _ _, ?_⟩
      · simp only [tighten, h1, k1, k2]
        rw [if_neg (by simpa [Frame.cell] using e)]
      · rintro a ⟨⟩
        exact ⟨[], f.fill sub, rfl, by simp⟩
    · refine ⟨_, [f.fit sub.bv], none, ?_, h4, ?_, .cons (.rfl' _ _) rfl rfl, by simp⟩
      · simp only [tighten, h1, k1, mod_eq h1, k2]
        rw [if_pos (by simpa [Frame.cell] using e)]
        rfl
      · simp only [plug, enc_fill]
        exact ⟨f.mrg_sib _, he.2.1, f.mrg_sub _, he.2.2.2⟩
  | cons g c ih =>
    obtain ⟨fuel, rfl⟩ : ∃ k, fuel = k + 1 := ⟨fuel - 1, by omega⟩
    obtain ⟨h1, h2, h3, h4⟩ := rep_fit hr nd
    obtain ⟨b, d, k1, k2⟩ := kidBvs_cell (p := up (g :: c)) h2 h3
    by_cases e : eqv (f.mrg sub.bv) f.b = true
    · refine ⟨h, f :: g :: c, some f.i, ?_, hr, he, .rfl' _ _, ?_⟩
      · simp only [tighten, h1, k1, k2]
        rw [if_neg (by simpa [Frame.cell] using e)]
      · rintro a ⟨⟩
        exact ⟨g :: c, f.fill sub, rfl, by simp⟩
    · have he' : (plug (g :: c) ((f.fit sub.bv).fill sub)).Enc := by
        rw [enc_plug] at he
        obtain ⟨⟨a1, a2, a3, a4⟩, a5, a6⟩ := he
        have a5 : f.b.contain sub.bv = true := by simpa using a5
        have a3 : g.b.contain f.b = true := by simpa using a3
        rw [enc_plug]
        refine ⟨a4, ?_, by rw [enc_fill]; exact ⟨f.mrg_sib _, a2, f.mrg_sub _, a6⟩⟩
        have := f.mrg_le (AABB.contain_trans a3 a1) (AABB.contain_trans a3 a5)
        simpa [Frame.fit] using this
      obtain ⟨h', c', q, i1, i2, i3, i4, i5⟩ := ih g (sub := (f.fit sub.bv).fill sub) h4 (nodup_fill nd rfl rfl) he'
        (fuel := fuel) (by simpa using hf)
      refine ⟨h', f.fit sub.bv :: c', q, ?_, i2, i3, .cons i4 rfl rfl, i5⟩
      simp only [tighten, h1, k1, mod_eq h1, k2]
      rw [if_pos (by simpa [Frame.cell] using e)]
      exact i1

/-! ### The state of the array -/

def oaddrs : Option (ATree K O) → List ℕ
  | none => []
  | some t => t.addrs

def aleaves : Option (ATree K O) → List (ℕ × AABB K × O)
  | none => []
  | some t => t.leaves

/-- The array holds this tree; `ds` are elements in use outside the tree, and `fs` the free elements. -/
structure St (A : Arr K O) (t : Option (ATree K O)) (ds fs : List ℕ) : Prop where
  root : A.root = t.map ATree.addr
  rep : ∀ t' ∈ t, Rep A.heap none t'
  free : FreeL A.heap A.freelist fs
  perm : (oaddrs t ++ (ds ++ fs)).Perm (List.range A.alloc)
  num : A.nNodes + fs.length = A.alloc

theorem St.nodup {A : Arr K O} {t : Option (ATree K O)} {ds fs : List ℕ} (s : St A t ds fs) :
    (oaddrs t ++ (ds ++ fs)).Nodup := s.perm.nodup_iff.2 List.nodup_range

theorem St.length {A : Arr K O} {t : Option (ATree K O)} {ds fs : List ℕ} (s : St A t ds fs) :
    (oaddrs t).length + (ds.length + fs.length) = A.alloc := by
  simpa using s.perm.length_eq

theorem St.height {A : Arr K O} {t : ATree K O} {ds fs : List ℕ} (s : St A (some t) ds fs) : t.height < A.alloc := by
  have := s.length
  have := t.height_lt
  simp [oaddrs] at *
  omega

theorem length_caddrs (c : List (Frame K O)) : c.length ≤ (caddrs c).length := by
  induction c with
  | nil => simp
  | cons f c ih => simp [caddrs, Frame.addrs] at *; omega

theorem plug_height (c : List (Frame K O)) (t : ATree K O) : t.height ≤ (plug c t).height := by
  induction c generalizing t with
  | nil => simp [plug]
  | cons f c ih =>
    refine le_trans ?_ (ih (f.fill t))
    unfold Frame.fill
    split <;> simp [ATree.height] <;> omega

/-- The first leaf. -/
theorem insertLeaf_empty (cfg : ACfg K O) {A : Arr K O} {x : ℕ} {fs : List ℕ} (s : St A none [x] fs) (root : Option ℕ)
    {b : AABB K} {q : Option ℕ} {o : O} (hx : A.heap x = some ⟨b, q, .data (some o), none⟩) :
    ∃ A', insertLeaf cfg root x A = some A' ∧ St A' (some (.leaf x b o)) [] fs ∧
      A'.alloc = A.alloc ∧ A'.nLeaves = A.nLeaves ∧ A'.opath = A.opath := by
  have hn : A.root = none := s.root
  have nd := s.nodup
  simp [oaddrs] at nd
  refine ⟨{ A with root := some x, heap := A.heap.upd x ⟨b, none, .data (some o), none⟩ }, ?_, ⟨rfl, ?_, ?_, ?_, s.num⟩,
    rfl, rfl, rfl⟩
  · simp [insertLeaf, hn, mod_eq hx]
  · rintro t ⟨⟩
    simp [Rep]
  · exact s.free.upd nd.1 _
  · simpa [oaddrs, ATree.addrs] using s.perm

theorem nodup_of_plug {c : List (Frame K O)} {t : ATree K O} (h : (plug c t).addrs.Nodup) : (caddrs c ++ t.addrs).Nodup :=
  (plug_addrs c t).nodup_iff.1 h

/-- A further leaf, below any node of the tree. -/
theorem insertLeaf_spec (cfg : ACfg K O) {A : Arr K O} {c : List (Frame K O)} {sub : ATree K O} {x k : ℕ} {fs : List ℕ}
    (s : St A (some (plug c sub)) [x] (k :: fs)) {b : AABB K} {q : Option ℕ} {o : O}
    (hx : A.heap x = some ⟨b, q, .data (some o), none⟩) (he : (plug c sub).Enc) :
    ∃ A' t', insertLeaf cfg (some sub.addr) x A = some A' ∧ St A' (some t') [] fs ∧ t'.Enc ∧
      t'.leaves.Perm ((x, b, o) :: (plug c sub).leaves) ∧
      A'.alloc = A.alloc ∧ A'.nLeaves = A.nLeaves ∧ A'.opath = A.opath := by
  have hrep := s.rep _ rfl
  have hh : sub.height < A.alloc := lt_of_le_of_lt (plug_height c sub) s.height
  obtain ⟨c1, r, rb, ro, d1, d2⟩ := descend_spec cfg.select b sub (rep_plug.1 hrep).2 hh
  set c2 := c1 ++ c with hc2
  have e2 : plug c sub = plug c2 (.leaf r rb ro) := by rw [hc2, plug_append, ← d2]
  rw [e2] at s he hrep ⊢
  have hrr := (rep_plug.1 hrep).2
  have hrC := (rep_plug.1 hrep).1
  have hr : A.heap r = some ⟨rb, up c2, .data (some ro), none⟩ := hrr
  have nd0 := s.nodup
  simp only [oaddrs, List.nodup_append, List.singleton_append, List.nodup_cons, List.mem_cons, not_or] at nd0
  obtain ⟨nd1, ⟨⟨xk, xf⟩, kf, nf⟩, nd2⟩ := nd0
  have nd3 := nodup_of_plug nd1
  have mem1 : ∀ j, j ∈ caddrs c2 ++ [r] → j ≠ x ∧ j ≠ k ∧ j ∉ fs := by
    intro j hj
    have hj' : j ∈ (plug c2 (.leaf r rb ro)).addrs := (plug_addrs _ _).mem_iff.2 hj
    exact ⟨nd2 j hj' x (.inl rfl), nd2 j hj' k (.inr (.inl rfl)), fun h => nd2 j hj' j (.inr (.inr h)) rfl⟩
  have rk := mem1 r (by simp)
  have bx : A.heap.bv x = some b := by simp [Heap.bv, hx]
  have br : A.heap.bv r = some rb := by simp [Heap.bv, hr]
  obtain ⟨fr, f1, f2⟩ := createNode2_eq s.free kf cfg.raw (up c2) bx br xk rk.2.1
  set h1 := A.heap.upd k ⟨b.merge rb, up c2, .data none, none⟩ with hh1
  -- the new node
  let new : ATree K O := .node k (b.merge rb) (.leaf r rb ro) (.leaf x b o)
  have hroot : A.root = some (plug c2 (.leaf r rb ro)).addr := s.root
  -- the result of the four writes, in any array that still has the leaves
  have hjoin : ∀ h : Heap K O, h k = some ⟨b.merge rb, up c2, .data none, none⟩ →
      h r = some ⟨rb, up c2, .data (some ro), none⟩ → h x = some ⟨b, q, .data (some o), none⟩ →
      ∃ h', join h k r x = some h' ∧ Rep h' (up c2) new ∧ ∀ j, j ≠ k → j ≠ r → j ≠ x → h' j = h j := by
    intro h e1 e2 e3
    have xk' : x ≠ k := xk
    have rk' : r ≠ k := rk.2.1
    have rx' : r ≠ x := rk.1
    have s1 : h.mod k (Node.setKid false r) = some (h.upd k ⟨b.merge rb, up c2, .child (some r), none⟩) := by
      rw [mod_eq e1]; rfl
    have s2 := mod_eq (h := h.upd k ⟨b.merge rb, up c2, .child (some r), none⟩) (i := r)
      (by rw [upd_ne rk', e2]) (fun n => { n with link := some k })
    have s3 := mod_eq (h := (h.upd k ⟨b.merge rb, up c2, .child (some r), none⟩).upd r
      ⟨rb, some k, .data (some ro), none⟩) (i := k) (by rw [upd_ne rk'.symm, upd_same]) (Node.setKid true x)
    have s4 := mod_eq (h := ((h.upd k ⟨b.merge rb, up c2, .child (some r), none⟩).upd r
      ⟨rb, some k, .data (some ro), none⟩).upd k ⟨b.merge rb, up c2, .child (some r), some x⟩) (i := x)
      (by rw [upd_ne xk', upd_ne rx'.symm, upd_ne xk', e3]) (fun n => { n with link := some k })
    refine ⟨_, by simp only [join, s1, Option.bind_some, s2, s3]; exact s4, ⟨?_, ?_, ?_⟩, ?_⟩
    · rw [upd_ne xk'.symm, upd_same]; rfl
    · show Heap.upd _ _ _ r = _
      rw [upd_ne rx', upd_ne rk', upd_same]
    · show Heap.upd _ _ _ x = _
      rw [upd_same]
    · intro j j1 j2 j3
      rw [upd_ne j3, upd_ne j1, upd_ne j2, upd_ne j1]
  have newEnc : new.Enc := by
    show HTree.Enc _
    simp [new, ATree.erase, HTree.Enc, HTree.bv, AABB.merge_contain_left, AABB.merge_contain_right]
  have hperm : ∀ c' : List (Frame K O), caddrs c' = caddrs c2 →
      (oaddrs (some (plug c' new)) ++ ([] ++ fs)).Perm (List.range A.alloc) := by
    intro c' e
    refine List.Perm.trans ?_ s.perm
    simp only [oaddrs, List.nil_append, List.singleton_append]
    refine ((plug_addrs c' new).append_right _).trans (List.Perm.trans ?_ ((plug_addrs c2 _).symm.append_right _))
    rw [e]
    simp only [new, ATree.addrs, List.append_assoc]
    refine List.Perm.append_left _ ?_
    simp only [List.singleton_append, List.cons_append, List.nil_append]
    exact ((List.Perm.swap _ _ _).trans ((List.Perm.swap _ _ _).cons _))
  have hleaves : ∀ c' : List (Frame K O), cleaves c' = cleaves c2 →
      (plug c' new).leaves.Perm ((x, b, o) :: (plug c2 (.leaf r rb ro)).leaves) := by
    intro c' e
    refine (plug_leaves c' new).trans (List.Perm.trans ?_ ((plug_leaves c2 _).symm.cons _))
    rw [e]
    simp only [new, ATree.leaves_node, ATree.leaves_leaf, List.singleton_append]
    have : (cleaves c2 ++ [(r, rb, ro), (x, b, o)]) = (cleaves c2 ++ [(r, rb, ro)]) ++ [(x, b, o)] := by simp
    rw [this]
    exact List.perm_append_comm
  have numOk : A.nNodes + 1 + fs.length = A.alloc := by have := s.num; simp at this; omega
  have heC := enc_plug.1 he
  cases hc : c2 with
  | nil =>
    rw [hc] at hjoin hr hroot f2 hperm hleaves
    obtain ⟨h', j1, j2, j3⟩ := hjoin h1 (by rw [hh1, hc, upd_same]) (by rw [hh1, upd_ne rk.2.1, hr])
      (by rw [hh1, upd_ne xk, hx])
    refine ⟨{ A with freelist := fr, heap := h', nNodes := A.nNodes + 1, root := some k }, new, ?_, ⟨rfl, ?_, ?_, ?_, numOk⟩,
      newEnc, hleaves [] rfl, rfl, rfl, rfl⟩
    · simp only [insertLeaf, hroot, bx, d1, hr]
      rw [f2]
      simp only [up]
      simp only [j1]
    · rintro t ⟨⟩
      simpa [up] using j2
    · refine (f1 ⟨b.merge rb, up c2, .data none, none⟩).congr fun j hj => ?_
      exact j3 j (fun e => kf (e ▸ hj)) (fun e => rk.2.2 (e ▸ hj)) (fun e => xf (e ▸ hj))
    · exact hperm [] rfl
  | cons f c3 =>
    rw [hc] at hjoin hr hroot f2 hperm hleaves hrC nd3 mem1 heC
    obtain ⟨w1, w2, w3⟩ := hrC
    obtain ⟨n1, n2, n3, n4, n5, n6, n7, n8, n9⟩ := nodup_frame nd3
    have fim := mem1 f.i (by simp [caddrs, Frame.addrs])
    have fr' : f.i ≠ r := by simpa [ATree.addrs] using n3
    have rs : r ≠ f.sib.addr := fun e => n8 _ (ATree.addr_mem _) (by simp [ATree.addrs, ← e])
    have g1 : h1 f.i = some (f.cell (up c3) r) := by rw [hh1, upd_ne fim.2.1]; exact w1
    -- the parent points to the new node
    set h2 := h1.upd f.i (f.cell (up c3) k) with hh2
    have g2 : h1.mod f.i (Node.setKid (decide ((f.cell (up c3) r).child1 = some r)) k) = some h2 := by
      rw [mod_eq g1, setKid_cell f _ k rs]
    obtain ⟨h', j1, j2, j3⟩ := hjoin h2 (by rw [hh2, upd_ne fim.2.1.symm, hh1, hc, upd_same])
      (by rw [hh2, upd_ne fr'.symm, hh1, upd_ne rk.2.1, hr]) (by rw [hh2, upd_ne fim.1.symm, hh1, upd_ne xk, hx])
    have keep : ∀ j ∈ caddrs (f :: c3), j ≠ f.i → h' j = A.heap j := by
      intro j hj hne
      have m := mem1 j (List.mem_append_left _ hj)
      have jr : j ≠ r := fun e => by
        have := (List.nodup_append.1 nd3).2.2 j hj r (by simp [ATree.addrs])
        exact this e
      rw [j3 j m.2.1 jr m.1, hh2, upd_ne hne, hh1, upd_ne m.2.1]
    have hrep' : Rep h' none (plug (f :: c3) new) := by
      refine rep_plug.2 ⟨⟨?_, w2.congr ?_, w3.congr ?_⟩, j2⟩
      · rw [j3 _ fim.2.1 fr' fim.1, hh2, upd_same]; rfl
      · intro j hj
        exact keep j (by simp [caddrs, Frame.addrs, hj]) (fun e => n1 (e ▸ hj))
      · intro j hj
        exact keep j (by
          simp only [caddrs, List.flatMap_cons, List.mem_append]; exact .inr hj) (fun e => n2 (e ▸ hj))
    have ndn : (caddrs (f :: c3) ++ new.addrs).Nodup := by
      have := (hperm (f :: c3) rfl).nodup_iff.2 List.nodup_range
      simp only [oaddrs, List.nil_append] at this
      exact nodup_of_plug (List.Nodup.of_append_left this)
    obtain ⟨h3, c', l1, l2, l3, l4⟩ := climb_spec f c3 hrep' ndn heC.1 newEnc (fuel := A.alloc) (by
      have e1 := (hperm (f :: c3) rfl).length_eq
      have e2 := (plug_addrs (f :: c3) new).length_eq
      have e3 := length_caddrs (f :: c3)
      simp only [oaddrs, List.length_append, List.length_range, List.length_cons] at e1 e2 e3
      omega)
    refine ⟨{ A with freelist := fr, heap := h3, nNodes := A.nNodes + 1 }, plug c' new, ?_, ⟨?_, ?_, ?_, ?_, numOk⟩,
      l3, hleaves c' l4.leaves, rfl, rfl, rfl⟩
    · simp only [insertLeaf, hroot, bx, d1, hr]
      rw [f2]
      simp only [up]
      simp only [g1, g2, j1]
      have : new.addr = k := rfl
      rw [this] at l1
      simp only [l1]
      rw [hroot]
    · have e1 := l4.root new
      have e2 : (plug (f :: c3) new).addr = (plug (f :: c3) (.leaf r rb ro)).addr := by
        have : ∀ (c : List (Frame K O)) (t t' : ATree K O), t.addr = t'.addr → (plug c t).addr = (plug c t').addr := by
          intro c
          induction c with
          | nil => intro t t' e; exact e
          | cons g c ih => intro t t' _; exact ih _ _ (by simp)
        exact this c3 _ _ (by simp)
      rw [Option.map_some, e1, e2, ← hroot]
    · rintro t ⟨⟩
      exact l2
    · refine (f1 ⟨b.merge rb, up c2, .data none, none⟩).congr fun j hj => ?_
      have hj' : ∀ i ∈ caddrs (f :: c3) ++ [r], j ≠ i := fun i hi e => (mem1 i hi).2.2 (e ▸ hj)
      have : j ∉ (f :: c3).map Frame.i := fun h => by
        obtain ⟨g, hg, e⟩ := List.mem_map.1 h
        exact hj' g.i (List.mem_append_left _ (mem_caddrs_i hg)) e.symm
      show h3 j = _
      rw [l4.frame j this, j3 j (fun e => kf (e ▸ hj)) (hj' r (by simp)) (fun e => xf (e ▸ hj)), hh2,
        upd_ne (hj' f.i (by simp [caddrs, Frame.addrs])), hh1]
    · exact hperm c' l4.addrs

end TArr
end Fcl
