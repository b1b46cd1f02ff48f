import Verif.TreeArray.Ops

/-! Removal, re-insertion, refitting, and what the functions that only read the array see. -/

namespace Fcl
namespace TArr
variable {K O : Type*} [LinearOrder K]
set_option linter.unusedSectionVars false

/-- A full array: inserting below a node reads through references to the deleted array. -/
theorem insertLeaf_full (cfg : ACfg K O) {A : Arr K O} {t : ATree K O} {x : ℕ} (s : St A (some t) [x] [])
    {b : AABB K} {q : Option ℕ} {o : O} (hx : A.heap x = some ⟨b, q, .data (some o), none⟩) :
    insertLeaf cfg (some t.addr) x A = none := by
  have bx : A.heap.bv x = some b := by simp [Heap.bv, hx]
  have hroot : A.root = some t.addr := s.root
  have hrep : Rep A.heap none t := s.rep _ rfl
  obtain ⟨c1, r, rb, ro, d1, d2⟩ := descend_spec cfg.select b t hrep s.height
  have hr : A.heap r = some ⟨rb, up c1, .data (some ro), none⟩ := by
    rw [d2] at hrep
    exact (rep_plug.1 hrep).2
  have hf : A.freelist = none := s.free
  simp only [insertLeaf, hroot, bx, d1, hr, createNode2_full hf]

theorem deleteNode_eq {A : Arr K O} {i : ℕ} {n : Node K O} (h : A.heap i = some n) :
    deleteNode i A = some { A with heap := A.heap.upd i { n with link := A.freelist }, freelist := some i, nNodes := A.nNodes - 1 } := by
  simp [deleteNode, mod_eq h]

/-- Removing the only leaf. -/
theorem removeLeaf_root (cfg : ACfg K O) {A : Arr K O} {x : ℕ} {b : AABB K} {o : O} {fs : List ℕ}
    (s : St A (some (.leaf x b o)) [] fs) :
    removeLeaf cfg x A = some (none, { A with root := none }) ∧ St { A with root := none } none [x] fs := by
  have : A.root = some x := s.root
  refine ⟨by simp [removeLeaf, this], rfl, by simp, s.free, ?_, s.num⟩
  simpa [oaddrs, ATree.addrs] using s.perm

theorem plug_addr_congr (c : List (Frame K O)) (t t' : ATree K O) (e : t.addr = t'.addr) :
    (plug c t).addr = (plug c t').addr := by
  induction c generalizing t t' with
  | nil => exact e
  | cons g c ih => exact ih _ _ (by simp)

theorem plug_addr_mem (f : Frame K O) (c : List (Frame K O)) (t : ATree K O) : (plug (f :: c) t).addr ∈ caddrs (f :: c) := by
  induction c generalizing f t with
  | nil => simp [plug, caddrs, Frame.addrs]
  | cons g c ih =>
    have := ih g (f.fill t)
    simp only [caddrs, List.flatMap_cons, List.mem_append] at this ⊢
    exact .inr this

/-- Removing one of several leaves. -/
theorem removeLeaf_spec (cfg : ACfg K O) {A : Arr K O} {f : Frame K O} {c : List (Frame K O)} {x : ℕ} {b : AABB K} {o : O}
    {fs : List ℕ} (s : St A (some (plug (f :: c) (.leaf x b o))) [] fs) (he : (plug (f :: c) (.leaf x b o)).Enc) :
    ∃ A' c' sub, removeLeaf cfg x A = some (some sub.addr, A') ∧ St A' (some (plug c' sub)) [x] (f.i :: fs) ∧
      (plug c' sub).Enc ∧ ((x, b, o) :: (plug c' sub).leaves).Perm (plug (f :: c) (.leaf x b o)).leaves ∧
      A'.heap x = some ⟨b, some f.i, .data (some o), none⟩ ∧
      A'.alloc = A.alloc ∧ A'.nLeaves = A.nLeaves ∧ A'.opath = A.opath := by
  have hrep := s.rep _ rfl
  obtain ⟨⟨r1, r2, r3⟩, r4⟩ := rep_plug.1 hrep
  have nd0 := s.nodup
  simp only [oaddrs, List.nil_append, List.nodup_append] at nd0
  obtain ⟨nd1, nf, nd2⟩ := nd0
  have nd3 := nodup_of_plug nd1
  obtain ⟨n1, n2, n3, n4, n5, n6, n7, n8, n9⟩ := nodup_frame nd3
  have hx : A.heap x = some ⟨b, some f.i, .data (some o), none⟩ := r4
  have xf : x ≠ f.sib.addr := fun e => n8 _ (ATree.addr_mem _) (by simp [ATree.addrs, ← e])
  have xi : f.i ≠ x := by simpa [ATree.addrs] using n3
  have hroot : A.root = some (plug (f :: c) (.leaf x b o)).addr := s.root
  have xc : x ∉ caddrs (f :: c) := fun h => (List.nodup_append.1 nd3).2.2 x h x (by simp [ATree.addrs]) rfl
  have rootne : ¬ A.root = some x := by
    rw [hroot]
    intro e
    exact xc (by have := plug_addr_mem f c (.leaf x b o); rw [Option.some.inj e] at this; exact this)
  have notfree : ∀ j, j ∈ caddrs (f :: c) ++ [x] → j ∉ fs := by
    intro j hj h
    exact nd2 j ((plug_addrs _ _).mem_iff.2 hj) j h rfl
  have kc := kid_cell f (up c) xf
  have kc : (f.cell (up c) x).kid (decide ((f.cell (up c) x).child1 ≠ some x)) = some (some f.sib.addr) := kc
  have r1' : A.heap f.i = some (f.cell (up c) x) := r1
  have flink : (f.cell (up c) x).link = up c := rfl
  have e1 := enc_plug.1 he
  obtain ⟨⟨a1, a2, a3, a4⟩, a5, a6⟩ := e1
  have hnum : A.nNodes - 1 + (f.i :: fs).length = A.alloc := by
    have h1 := s.num
    have h2 := s.length
    have h3 := (plug_addrs (f :: c) (.leaf x b o)).length_eq
    simp [oaddrs, caddrs, Frame.addrs, ATree.addrs] at h1 h2 h3 ⊢
    omega
  have hperm : ∀ (c' : List (Frame K O)) (sub : ATree K O), caddrs c' = caddrs c → sub.addrs = f.sib.addrs →
      (oaddrs (some (plug c' sub)) ++ ([x] ++ (f.i :: fs))).Perm (List.range A.alloc) := by
    intro c' sub h1 h2
    refine List.Perm.trans ?_ s.perm
    simp only [oaddrs, List.nil_append]
    refine ((plug_addrs c' sub).append_right _).trans (List.Perm.trans ?_ ((plug_addrs _ _).symm.append_right _))
    rw [h1, h2]
    simp only [caddrs, List.flatMap_cons, Frame.addrs, ATree.addrs, List.cons_append, List.append_assoc, List.nil_append]
    generalize List.flatMap _ c = C
    generalize f.sib.addrs = S
    have q1 : (C ++ (S ++ x :: f.i :: fs)).Perm (f.i :: (C ++ (S ++ x :: fs))) := by
      have := (List.perm_middle (a := f.i) (l₁ := C ++ S ++ [x]) (l₂ := fs))
      simpa using this
    refine q1.trans (List.Perm.cons _ ?_)
    rw [← List.append_assoc, ← List.append_assoc]
    exact List.perm_append_comm.append_right _
  cases c with
  | nil =>
    obtain ⟨n, l1, l2⟩ := r2.relink n4 none
    set h1 := A.heap.upd f.sib.addr { n with link := none } with hh1
    have fs1 : f.i ≠ f.sib.addr := fun e => n1 (e ▸ ATree.addr_mem _)
    have g1 : h1 f.i = some (f.cell none x) := by rw [hh1, upd_ne fs1]; exact r1'
    refine ⟨{ A with heap := h1.upd f.i { (f.cell none x) with link := A.freelist }, root := some f.sib.addr, freelist := some f.i, nNodes := A.nNodes - 1 }, [], f.sib, ?_, ⟨rfl, ?_, ?_, ?_, hnum⟩, a2, ?_, ?_, rfl, rfl, rfl⟩
    · simp only [removeLeaf, rootne, if_false, hx, r1', kc, flink]
      simp only [up, mod_eq l1]
      rw [deleteNode_eq (A := { A with heap := h1, root := some f.sib.addr }) g1]
    · rintro t ⟨⟩
      exact l2.upd n1 _
    · refine ⟨rfl, _, upd_same _ _ _, ?_⟩
      refine (s.free.upd (i := f.sib.addr) (notfree _ ?_) _).upd (notfree _ ?_) _
      · simp [caddrs, Frame.addrs, ATree.addr_mem]
      · simp [caddrs, Frame.addrs]
    · exact hperm [] f.sib rfl rfl
    · simp only [plug]
      have := fill_leaves f (.leaf x b o)
      refine List.Perm.trans ?_ this.symm
      simp only [ATree.leaves_leaf]
      exact List.perm_append_comm (l₁ := [(x, b, o)])
    · show Heap.upd _ _ _ x = _
      rw [upd_ne xi.symm, upd_ne xf, hx]
  | cons g c =>
    obtain ⟨s1, s2, s3⟩ := r3
    have ndg : (caddrs (g :: c) ++ f.sib.addrs).Nodup := by
      rw [List.nodup_append]
      refine ⟨n6, n4, ?_⟩
      intro j hj k hk e
      exact n7 k hk (e ▸ hj)
    obtain ⟨m1, m2, m3, m4, m5, m6, m7, m8, m9⟩ := nodup_frame ndg
    have gi_f : g.i ≠ f.i := fun e => n2 (e ▸ mem_caddrs_i (by simp))
    have gi_x : g.i ≠ x := fun e => xc (by rw [← e]; exact mem_caddrs_i (by simp))
    have fg : f.i ≠ g.sib.addr := fun e => n2 (by
      simp only [caddrs, List.flatMap_cons, Frame.addrs, List.mem_append, List.mem_cons]
      exact .inl (.inr (e ▸ ATree.addr_mem _)))
    have fs1 : f.i ≠ f.sib.addr := fun e => n1 (e ▸ ATree.addr_mem _)
    have gs : g.i ≠ f.sib.addr := fun e => m3 (e ▸ ATree.addr_mem _)
    have sk := setKid_cell g (up c) f.sib.addr fg
    have s1' : A.heap g.i = some (g.cell (up c) f.i) := s1
    set h1 := A.heap.upd g.i (g.cell (up c) f.sib.addr) with hh1
    have g1 : A.heap.mod g.i (Node.setKid (decide ((g.cell (up c) f.i).child1 = some f.i)) f.sib.addr) = some h1 := by
      rw [mod_eq s1', sk]
    obtain ⟨n, l1, l2⟩ := (r2.upd m3 (g.cell (up c) f.sib.addr)).relink n4 (some g.i)
    set h2 := h1.upd f.sib.addr { n with link := some g.i } with hh2
    have g2 : h1.mod f.sib.addr (fun n => { n with link := some g.i }) = some h2 := mod_eq l1 _
    have g3 : h2 f.i = some (f.cell (up (g :: c)) x) := by
      rw [hh2, upd_ne fs1, hh1, upd_ne gi_f.symm]; exact r1'
    set h3 := h2.upd f.i { (f.cell (up (g :: c)) x) with link := A.freelist } with hh3
    -- the tree without the leaf and its parent
    have fc : f.i ∉ caddrs (g :: c) := n2
    have hrep' : Rep h3 none (plug (g :: c) f.sib) := by
      refine rep_plug.2 ⟨⟨?_, ?_, ?_⟩, ?_⟩
      · rw [hh3, upd_ne gi_f, hh2, upd_ne gs, hh1, upd_same]
      · refine ((s2.upd m1 _).upd (fun h => m8 _ h (ATree.addr_mem _)) _).upd (fun h => fc ?_) _
        simp only [caddrs, List.flatMap_cons, Frame.addrs, List.mem_append, List.mem_cons]
        exact .inl (.inr h)
      · refine ((s3.upd m2 _).upd (fun h => m9 _ h (ATree.addr_mem _)) _).upd (fun h => fc ?_) _
        simp only [caddrs, List.flatMap_cons, List.mem_append]
        exact .inr h
      · exact l2.upd n1 _
    have he' : (plug (g :: c) f.sib).Enc := by
      rw [enc_plug]
      refine ⟨a4, ?_, a2⟩
      intro g' hg'
      exact AABB.contain_trans (a3 g' hg') a1
    obtain ⟨h', c', q, t1, t2, t3, t4, t5⟩ := tighten_spec cfg.eqv g c hrep' ndg he' (fuel := A.alloc) (by
      have e1 := s.length
      have e2 := (plug_addrs (f :: g :: c) (.leaf x b o)).length_eq
      have e3 := length_caddrs (f :: g :: c)
      simp only [oaddrs, List.length_append, List.length_cons, List.length_nil] at e1 e2 e3
      omega)
    have rootEq : A.root = some (plug c' f.sib).addr := by
      rw [hroot, t4.root]
      exact congrArg some (plug_addr_congr c (g.fill (f.fill (.leaf x b o))) (g.fill f.sib) (by simp))
    -- where the loop stopped
    obtain ⟨c1, sub, u1, u2⟩ : ∃ c1 sub, plug c' f.sib = plug c1 sub ∧ q.or A.root = some sub.addr := by
      cases q with
      | none => exact ⟨[], plug c' f.sib, rfl, by simpa using rootEq⟩
      | some a =>
        obtain ⟨c1, sub, u1, u2⟩ := t5 a rfl
        exact ⟨c1, sub, u1, by simp [u2]⟩
    have xs : x ∉ (g :: c).map Frame.i := fun h => by
      obtain ⟨g', hg, e⟩ := List.mem_map.1 h
      refine xc ?_
      rw [← e]
      exact mem_caddrs_i (List.mem_cons_of_mem _ hg)
    refine ⟨{ A with heap := h', freelist := some f.i, nNodes := A.nNodes - 1 }, c1, sub, ?_,
      ⟨?_, ?_, ?_, ?_, hnum⟩, ?_, ?_, ?_, rfl, rfl, rfl⟩
    · simp only [removeLeaf, rootne, if_false, hx, r1', kc, flink]
      simp only [up]
      simp only [s1', g1, g2]
      rw [deleteNode_eq (A := { A with heap := h2 }) g3]
      have : A.heap.upd g.i (g.cell (up c) f.sib.addr) = h1 := rfl
      simp only
      rw [← hh3, t1]
      simp only [u2]
    · rw [Option.map_some, ← u1]; exact rootEq
    · rintro t ⟨⟩
      rw [← u1]; exact t2
    · have keep : ∀ j ∈ fs, h' j = A.heap j := by
        intro j hj
        have hj' : ∀ i ∈ caddrs (f :: g :: c), j ≠ i := fun i hi e => notfree i (List.mem_append_left _ hi) (e ▸ hj)
        have a1 : j ∉ (g :: c).map Frame.i := fun h => by
          obtain ⟨g', hg, e⟩ := List.mem_map.1 h
          exact hj' g'.i (mem_caddrs_i (List.mem_cons_of_mem _ hg)) e.symm
        rw [t4.frame j a1, hh3, upd_ne (hj' _ (mem_caddrs_i (by simp))), hh2, upd_ne (hj' _ (by
          simp [caddrs, Frame.addrs, ATree.addr_mem])), hh1, upd_ne (hj' _ (mem_caddrs_i (by simp)))]
      refine ⟨rfl, { (f.cell (up (g :: c)) x) with link := A.freelist }, ?_, s.free.congr keep⟩
      · show h' f.i = _
        rw [t4.frame f.i (fun h => by
          obtain ⟨g', hg, e⟩ := List.mem_map.1 h
          exact n2 (e ▸ mem_caddrs_i hg)), hh3, upd_same]
    · rw [← u1]; exact hperm c' f.sib t4.addrs rfl
    · rw [← u1]; exact t3
    · rw [← u1]
      refine ((plug_leaves c' f.sib).cons _).trans (List.Perm.trans ?_ (plug_leaves _ _).symm)
      rw [t4.leaves]
      simp only [cleaves, List.flatMap_cons, ATree.leaves_leaf, List.append_assoc]
      generalize List.flatMap _ c = C
      refine (List.perm_append_comm (l₁ := [(x, b, o)])).trans ?_
      have := (List.perm_append_comm (l₁ := g.sib.leaves ++ C) (l₂ := f.sib.leaves)).append_right [(x, b, o)]
      simpa using this
    · show h' x = _
      rw [t4.frame x xs, hh3, upd_ne xi.symm, hh2, upd_ne xf, hh1, upd_ne gi_x.symm, hx]

end TArr
end Fcl
