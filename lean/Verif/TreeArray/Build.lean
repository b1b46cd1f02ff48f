import Verif.TreeArray.Ops3
import Verif.TreeArray.Spec
import Verif.Tree.Build

/-! Building a tree in the array. -/

namespace Fcl
namespace TArr
variable {K O : Type*} [LinearOrder K]
set_option linter.unusedSectionVars false
open HTree (Builds Good allLeaves volOf)

/-- Trees that are not joined yet, and the free elements. -/
structure Forest (A : Arr K O) (ts : List (ATree K O)) (fs : List ℕ) : Prop where
  rep : ∀ t ∈ ts, Rep A.heap none t
  free : FreeL A.heap A.freelist fs
  nd : (ts.flatMap ATree.addrs ++ fs).Nodup
  good : ∀ t ∈ ts, t.erase.Good

/-- `t'` has been built from `ts` with the free elements `used`. -/
structure Built (A A' : Arr K O) (ts : List (ATree K O)) (t' : ATree K O) (used fs : List ℕ) : Prop where
  rep : Rep A'.heap none t'
  addrs : t'.addrs.Perm (ts.flatMap ATree.addrs ++ used)
  free : FreeL A'.heap A'.freelist fs
  frame : ∀ j, j ∉ ts.flatMap ATree.addrs ++ used → A'.heap j = A.heap j
  builds : Builds (ts.map ATree.erase) t'.erase
  num : A'.nNodes = A.nNodes + used.length
  alloc : A'.alloc = A.alloc
  nLeaves : A'.nLeaves = A.nLeaves

theorem Forest.perm {A : Arr K O} {ts ts' : List (ATree K O)} {fs : List ℕ} (h : Forest A ts fs) (p : ts'.Perm ts) :
    Forest A ts' fs where
  rep t ht := h.rep t (p.mem_iff.1 ht)
  free := h.free
  nd := ((p.flatMap_right ATree.addrs).append_right fs).nodup_iff.2 h.nd
  good t ht := h.good t (p.mem_iff.1 ht)

theorem mem_flat {ts : List (ATree K O)} {t : ATree K O} (h : t ∈ ts) {j : ℕ} (hj : j ∈ t.addrs) : j ∈ ts.flatMap ATree.addrs :=
  List.mem_flatMap.2 ⟨t, h, hj⟩

theorem mapM_bv {h : Heap K O} (ts : List (ATree K O)) (r : ∀ t ∈ ts, ∃ p, Rep h p t) :
    (ts.map ATree.addr).mapM h.bv = some (ts.map ATree.bv) := by
  induction ts with
  | nil => rfl
  | cons t ts ih =>
    obtain ⟨p, hp⟩ := r t (by simp)
    have := ih fun u hu => r u (by simp [hu])
    simp only [List.map_cons, List.mapM_cons, hp.bv, this]
    rfl

theorem join_spec {h : Heap K O} {k : ℕ} {m : Node K O} (hk : h k = some m) {t u : ATree K O} {p q : Option ℕ}
    (rt : Rep h p t) (ru : Rep h q u) (nd : (k :: (t.addrs ++ u.addrs)).Nodup) :
    ∃ h', join h k t.addr u.addr = some h' ∧ h' k = some ⟨m.bv, m.link, .child (some t.addr), some u.addr⟩ ∧
      Rep h' (some k) t ∧ Rep h' (some k) u ∧ ∀ j, j ∉ k :: (t.addrs ++ u.addrs) → h' j = h j := by
  simp only [List.nodup_cons, List.mem_append, not_or, List.nodup_append] at nd
  obtain ⟨⟨n1, n2⟩, n3, n4, n5⟩ := nd
  have kt : k ≠ t.addr := fun e => n1 (e ▸ t.addr_mem)
  have ku : k ≠ u.addr := fun e => n2 (e ▸ u.addr_mem)
  have tu : t.addr ∉ u.addrs := fun h => n5 _ t.addr_mem _ h rfl
  have ut : u.addr ∉ t.addrs := fun h => n5 _ h _ u.addr_mem rfl
  set m1 : Node K O := m.setKid false t.addr with hm1
  obtain ⟨a, a1, a2⟩ := (rt.upd n1 m1).relink n3 (some k)
  set h2 := (h.upd k m1).upd t.addr { a with link := some k } with hh2
  have k2 : h2 k = some m1 := by rw [hh2, upd_ne kt, upd_same]
  set m2 : Node K O := m1.setKid true u.addr with hm2
  have ru2 : Rep (h2.upd k m2) q u := ((ru.upd n2 _).upd tu _).upd n2 _
  obtain ⟨b, b1, b2⟩ := ru2.relink n4 (some k)
  refine ⟨(h2.upd k m2).upd u.addr { b with link := some k }, ?_, ?_, ?_, b2, ?_⟩
  · simp only [join, mod_eq hk, Option.bind_some]
    rw [← hm1]
    simp only [mod_eq a1, Option.bind_some]
    rw [← hh2]
    simp only [mod_eq k2, Option.bind_some]
    rw [← hm2]
    simp only [mod_eq b1]
  · rw [upd_ne ku, upd_same]
    rfl
  · exact (a2.upd n1 _).upd ut _
  · intro j hj
    simp only [List.mem_cons, List.mem_append, not_or] at hj
    have ju : j ≠ u.addr := by
      rintro rfl
      exact hj.2.2 u.addr_mem
    have jt : j ≠ t.addr := by
      rintro rfl
      exact hj.2.1 t.addr_mem
    rw [upd_ne ju, upd_ne hj.1, hh2, upd_ne jt, upd_ne hj.1]

theorem built_one {A : Arr K O} {t : ATree K O} {fs : List ℕ} (h : Forest A [t] fs) : Built A A [t] t [] fs where
  rep := h.rep t (by simp)
  addrs := by simp
  free := h.free
  frame _ _ := rfl
  builds := ⟨by simp [allLeaves], h.good t (by simp)⟩
  num := by simp
  alloc := rfl
  nLeaves := rfl

theorem bottomup_spec (cfg : ACfg K O) (hc : cfg.Lawful) (fuel : ℕ) (ts : List (ATree K O)) {A : Arr K O} {used fs : List ℕ}
    (h : Forest A ts (used ++ fs)) (hu : used.length + 1 = ts.length) (hf : ts.length ≤ fuel + 1) :
    ∃ A' t', bottomup cfg fuel (ts.map ATree.addr) A = some (t'.addr, A') ∧ Built A A' ts t' used fs := by
  induction fuel generalizing ts A used with
  | zero =>
    match ts, hu, hf with
    | [t], hu, _ =>
      have : used = [] := List.length_eq_zero_iff.1 (by simpa using hu)
      subst this
      exact ⟨A, t, rfl, built_one h⟩
  | succ fuel ih =>
    match ts, hu, hf with
    | [t], hu, _ =>
      have : used = [] := List.length_eq_zero_iff.1 (by simpa using hu)
      subst this
      exact ⟨A, t, rfl, built_one h⟩
    | t :: u :: ts, hu, hf =>
      obtain ⟨k, used, rfl⟩ : ∃ k us, used = k :: us := by
        cases used with
        | nil => simp at hu
        | cons k us => exact ⟨k, us, rfl⟩
      set all := t :: u :: ts with hall
      have hbs : (all.map ATree.addr).mapM A.heap.bv = some (all.map ATree.bv) := mapM_bv all fun t ht => ⟨none, h.rep t ht⟩
      obtain ⟨p1, p2⟩ := hc.pair (all.map ATree.bv) (by simp [hall])
      set i := (cfg.pair (all.map ATree.bv)).1 with hi
      set j := (cfg.pair (all.map ATree.bv)).2 with hj
      have jl : j < all.length := by simpa using p2
      have il : i < all.length := by omega
      have hne : all ≠ [] := by simp [hall]
      obtain ⟨z, hz⟩ : ∃ z, all.getLast? = some z := ⟨all.getLast hne, List.getLast?_eq_some_getLast hne⟩
      set new : ATree K O := .node k (all[i].bv.merge all[j].bv) all[i] all[j] with hnew
      obtain ⟨rest, q1, q2⟩ := HTree.perm_two all i j p1 jl new z hz
      set ts1 := ((all.set i new).set j z).dropLast with hts1
      have h' := h.perm q1.symm
      have nd := h'.nd
      simp only [List.flatMap_cons, List.append_assoc] at nd
      have ndk : (k :: (all[i].addrs ++ (all[j].addrs ++ (rest.flatMap ATree.addrs ++ (used ++ fs))))).Nodup := by
        refine (List.Perm.nodup_iff ?_).1 nd
        have := (List.perm_middle (a := k) (l₁ := all[i].addrs ++ (all[j].addrs ++ rest.flatMap ATree.addrs)) (l₂ := used ++ fs))
        simpa using this
      have hik := h'.rep all[i] (by simp)
      have hjk := h'.rep all[j] (by simp)
      have nd' := ndk
      simp only [List.nodup_cons, List.mem_append, not_or] at nd'
      obtain ⟨⟨e1, e2, e3, e4, e5⟩, ndr⟩ := nd'
      obtain ⟨fr, c1, c2⟩ := createNode2_eq h.free (fun hh => by
          rcases List.mem_append.1 hh with hh | hh
          · exact e4 hh
          · exact e5 hh) cfg.raw none hik.bv hjk.bv
        (fun e => e1 (e ▸ ATree.addr_mem _)) (fun e => e2 (e ▸ ATree.addr_mem _))
      obtain ⟨h1, j1, j2, j3, j4, j5⟩ := join_spec (upd_same A.heap k ⟨all[i].bv.merge all[j].bv, none, .data none, none⟩)
        (hik.upd e1 _) (hjk.upd e2 _) (by
          refine List.Nodup.sublist ?_ ndk
          refine List.Sublist.cons_cons _ (List.Sublist.append (List.Sublist.refl _) (List.sublist_append_left _ _)))
      have ndr' := ndr
      rw [← List.append_assoc, List.nodup_append] at ndr'
      have keep : ∀ x, x ∈ rest.flatMap ATree.addrs ++ (used ++ fs) → h1 x = A.heap x := by
        intro x hx
        have xk : x ≠ k := by
          rintro rfl
          simp only [List.mem_append] at hx
          rcases hx with hx | hx | hx
          · exact e3 hx
          · exact e4 hx
          · exact e5 hx
        rw [j5 x, upd_ne xk]
        simp only [List.mem_cons, not_or]
        exact ⟨xk, fun hh => ndr'.2.2 x hh x hx rfl⟩
      have F1 : Forest { A with freelist := fr, heap := h1, nNodes := A.nNodes + 1 } (new :: rest) (used ++ fs) := by
        refine ⟨?_, ?_, ?_, ?_⟩
        · intro v hv
          rcases List.mem_cons.1 hv with rfl | hv
          · exact ⟨j2, j3, j4⟩
          · exact (h'.rep v (by simp [hv])).congr fun x hx => keep x (List.mem_append_left _ (mem_flat hv hx))
        · refine (c1 ⟨all[i].bv.merge all[j].bv, none, .data none, none⟩).congr ?_
          intro x hx
          show h1 x = _
          have xk : x ≠ k := by
            rintro rfl
            rcases List.mem_append.1 hx with hx | hx
            · exact e4 hx
            · exact e5 hx
          rw [keep x (List.mem_append_right _ hx), upd_ne xk]
        · simpa [hnew, ATree.addrs] using ndk
        · intro v hv
          rcases List.mem_cons.1 hv with rfl | hv
          · have := HTree.good_merge (h'.good all[i] (by simp)) (h'.good all[j] (by simp))
            simpa [hnew, ATree.erase] using this
          · exact h'.good v (by simp [hv])
      have l1 : ts1.length + 1 = all.length := by simp [hts1]; omega
      obtain ⟨A', t', r1, r2⟩ := ih ts1 (F1.perm q2) (by simp at hu; omega) (by omega)
      have q3 := q2.flatMap_right ATree.addrs
      have q4 := q1.flatMap_right ATree.addrs
      have q5 : (ts1.flatMap ATree.addrs ++ used).Perm (all.flatMap ATree.addrs ++ k :: used) := by
        refine (q3.append_right _).trans (List.Perm.trans ?_ ((q4.append_right _).symm))
        simp only [hnew, List.flatMap_cons, ATree.addrs]
        have := (List.perm_middle (a := k) (l₁ := all[i].addrs ++ (all[j].addrs ++ rest.flatMap ATree.addrs)) (l₂ := used)).symm
        simpa using this
      refine ⟨A', t', ?_, ⟨r2.rep, r2.addrs.trans q5, r2.free, ?_, ⟨?_, r2.builds.2⟩, ?_, r2.alloc, r2.nLeaves⟩⟩
      · have ei : (all.map ATree.addr)[i]? = some all[i].addr := by simp [il]
        have ej : (all.map ATree.addr)[j]? = some all[j].addr := by simp [jl]
        have ez : (all.map ATree.addr).getLast? = some z.addr := by simp [List.getLast?_map, hz]
        have ets : (((all.map ATree.addr).set i k).set j z.addr).dropLast = ts1.map ATree.addr := by
          rw [hts1, List.map_dropLast, List.map_set, List.map_set]
          rfl
        have e2 : all.map ATree.addr = t.addr :: u.addr :: ts.map ATree.addr := by rw [hall, List.map_cons, List.map_cons]
        rw [e2, bottomup, ← e2, hbs]
        rotate_left
        · simp
        · simp
        simp only [← hi, ← hj, ei, ej, ez, c2, j1, ets]
        exact r1
      · intro x hx
        rw [r2.frame x (fun hh => hx (q5.mem_iff.1 hh))]
        show h1 x = _
        have hx' : x ∉ k :: (all[i].addrs ++ all[j].addrs) := by
          intro hh
          refine hx ((q4.append_right _).mem_iff.2 ?_)
          simp only [List.mem_cons, List.mem_append, List.flatMap_cons] at hh ⊢
          tauto
        rw [j5 x hx', upd_ne (fun e => hx' (by simp [e]))]
      · refine r2.builds.1.trans ?_
        refine (HTree.allLeaves_perm (q2.map _)).trans (List.Perm.trans ?_ (HTree.allLeaves_perm (q1.map _)).symm)
        simp [allLeaves, hnew, ATree.erase, HTree.leaves]
      · have := r2.num
        simp at this ⊢
        omega

theorem foldl_merge_bv (ts : List (ATree K O)) (b : AABB K) :
    (ts.map ATree.bv).foldl AABB.merge b = (ts.map ATree.erase).foldl (fun v u => v.merge u.bv) b := by
  induction ts generalizing b with
  | nil => rfl
  | cons t ts ih => simp [ih]

theorem topdown0_spec (cfg : ACfg K O) (hc : cfg.Lawful) (fuel : ℕ) (ts : List (ATree K O)) {A : Arr K O} {used fs : List ℕ}
    (h : Forest A ts (used ++ fs)) (hu : used.length + 1 = ts.length) (hf : ts.length ≤ fuel + 1) :
    ∃ A' t', topdown0 cfg fuel (ts.map ATree.addr) A = some (t'.addr, A') ∧ Built A A' ts t' used fs := by
  induction fuel generalizing ts A used fs with
  | zero =>
    match ts, hu, hf with
    | [t], hu, _ =>
      have : used = [] := List.length_eq_zero_iff.1 (by simpa using hu)
      subst this
      exact ⟨A, t, rfl, built_one h⟩
  | succ fuel ih =>
    match ts, hu, hf with
    | [t], hu, _ =>
      have : used = [] := List.length_eq_zero_iff.1 (by simpa using hu)
      subst this
      exact ⟨A, t, rfl, built_one h⟩
    | t :: u :: ts, hu, hf =>
      set all := t :: u :: ts with hall
      have e2 : all.map ATree.addr = t.addr :: u.addr :: ts.map ATree.addr := by rw [hall, List.map_cons, List.map_cons]
      rw [e2, topdown0, ← e2]
      rotate_left
      · simp
      · simp
      by_cases hth : ((all.map ATree.addr).length : ℤ) > cfg.buThreshold
      swap
      · rw [if_neg hth]
        exact bottomup_spec cfg hc _ all h hu (by simp)
      rw [if_pos hth]
      obtain ⟨p, used, rfl⟩ : ∃ k us, used = k :: us := by
        cases used with
        | nil => simp [hall] at hu
        | cons k us => exact ⟨k, us, rfl⟩
      have hbs : (all.map ATree.addr).mapM A.heap.bv = some (t.bv :: (u :: ts).map ATree.bv) :=
        mapM_bv all fun t ht => ⟨none, h.rep t ht⟩
      rw [hbs]
      have hvol : ((u :: ts).map ATree.bv).foldl AABB.merge t.bv = volOf t.erase ((u :: ts).map ATree.erase) := by
        rw [foldl_merge_bv, volOf, ATree.erase_bv]
      set vol := volOf t.erase ((u :: ts).map ATree.erase) with hv
      set k := (all.map ATree.addr).length / 2 with hk
      have hlen : all.length = used.length + 2 := by simp at hu; omega
      have k1 : 1 ≤ k := by simp [hk]; omega
      have k2 : k + 1 ≤ all.length := by simp [hk]; omega
      -- the order chosen
      have hz : (all.map ATree.addr).zip (t.bv :: (u :: ts).map ATree.bv) = all.map fun v => (v.addr, v.bv) := by
        rw [show t.bv :: (u :: ts).map ATree.bv = all.map ATree.bv from rfl, List.zip_map']
      obtain ⟨all', pm, pe⟩ := perm_map_inv (fun v : ATree K O => (v.addr, v.bv))
        (hc.nth (cfg.bestAxis vol) k (all.map fun v => (v.addr, v.bv))) all rfl
      have ids : (cfg.nthIds (cfg.bestAxis vol) k (all.map fun v => (v.addr, v.bv))).map Prod.fst = all'.map ATree.addr := by
        rw [pe, List.map_map]
        rfl
      have h' := h.perm pm
      have l' := pm.length_eq
      have nd0 := h'.nd
      -- the two halves
      set ls := all'.take k with hls
      set rs := all'.drop k with hrs
      have lr : ls ++ rs = all' := List.take_append_drop _ _
      set ul := used.take (k - 1) with hul
      set ur := used.drop (k - 1) with hur
      have ulr : ul ++ ur = used := List.take_append_drop _ _
      have lsl : ls.length = k := by simp [hls]; omega
      have rsl : rs.length = all.length - k := by simp [hrs]; omega
      have ull : ul.length + 1 = ls.length := by simp [lsl, hul]; omega
      have url : ur.length + 1 = rs.length := by simp [rsl, hur]; omega
      have nd1 : (p :: ((ls.flatMap ATree.addrs ++ ul) ++ ((rs.flatMap ATree.addrs ++ ur) ++ fs))).Nodup := by
        refine (List.Perm.nodup_iff ?_).1 nd0
        rw [← lr, ← ulr]
        simp only [List.flatMap_append, List.cons_append, List.append_assoc]
        have m := List.perm_middle (a := p) (l₁ := ls.flatMap ATree.addrs ++ rs.flatMap ATree.addrs) (l₂ := ul ++ (ur ++ fs))
        simp only [List.append_assoc] at m
        exact m.trans (((List.perm_append_comm_assoc _ _ _).append_left _).cons _)
      have nd2 := nd1
      simp only [List.nodup_cons, List.mem_append, not_or, List.nodup_append] at nd2
      obtain ⟨⟨⟨pl, pul⟩, ⟨pr, pur⟩, pf⟩, -, -, disj⟩ := nd2
      have ndt := (List.nodup_cons.1 nd1).2
      have pt : p ∉ used ++ fs := by
        rw [← ulr]
        simp [pul, pur, pf]
      obtain ⟨fr, c1, c2⟩ := createNode_eq h.free pt cfg.raw none vol none
      set A1 : Arr K O := { A with freelist := fr, heap := A.heap.upd p ⟨vol, none, .data none, none⟩, nNodes := A.nNodes + 1 } with hA1
      have F1 : Forest A1 ls (ul ++ (ur ++ fs)) := by
        refine ⟨fun v hv => ?_, ?_, ?_, fun v hv => h'.good v (by rw [← lr]; simp [hv])⟩
        · exact (h'.rep v (by rw [← lr]; simp [hv])).upd (fun hh => pl (mem_flat hv hh)) _
        · rw [← List.append_assoc, ulr]; exact c1 _
        · rw [← List.append_assoc]
          refine List.Nodup.sublist ?_ ndt
          exact (List.Sublist.refl _).append ((List.sublist_append_right _ _).append (List.Sublist.refl _))
      obtain ⟨A2, tl, a1, a2⟩ := ih ls F1 ull (by omega)
      have A2p : A2.heap p = some ⟨vol, none, .data none, none⟩ := by
        rw [a2.frame p (by simp only [List.mem_append, not_or]; exact ⟨pl, pul⟩)]
        exact upd_same _ _ _
      set h2 := A2.heap.upd p ⟨vol, none, .child (some tl.addr), none⟩ with hh2
      have F2 : Forest { A2 with heap := h2 } rs (ur ++ fs) := by
        refine ⟨fun v hv => ?_, ?_, ?_, fun v hv => h'.good v (by rw [← lr]; simp [hv])⟩
        · have pv : p ∉ v.addrs := fun hh => pr (mem_flat hv hh)
          have r1 : Rep A1.heap none v := (h'.rep v (by rw [← lr]; simp [hv])).upd pv _
          refine Rep.upd (r1.congr ?_) pv _
          intro j hj
          exact a2.frame j fun hh => disj j (by simpa using hh) j (by simp only [mem_flat hv hj, true_or]) rfl
        · exact a2.free.upd (by simp [pur, pf]) _
        · rw [← List.append_assoc]
          exact List.Nodup.sublist (List.sublist_append_right _ _) ndt
      obtain ⟨A3, tr, b1, b2⟩ := ih rs F2 url (by omega)
      have A3p : A3.heap p = some ⟨vol, none, .child (some tl.addr), none⟩ := by
        rw [b2.frame p (by simp only [List.mem_append, not_or]; exact ⟨pr, pur⟩)]
        exact upd_same _ _ _
      have tlm : ∀ j, j ∈ tl.addrs ↔ j ∈ ls.flatMap ATree.addrs ++ ul := fun j => a2.addrs.mem_iff
      have trm : ∀ j, j ∈ tr.addrs ↔ j ∈ rs.flatMap ATree.addrs ++ ur := fun j => b2.addrs.mem_iff
      have dis : ∀ j ∈ tl.addrs, j ∉ tr.addrs := by
        intro j h1 h2
        rw [tlm] at h1
        rw [trm] at h2
        exact disj j (by simpa using h1) j (.inl (by simpa using h2)) rfl
      have ptl : p ∉ tl.addrs := by rw [tlm]; simp only [List.mem_append, not_or]; exact ⟨pl, pul⟩
      have ptr : p ∉ tr.addrs := by rw [trm]; simp only [List.mem_append, not_or]; exact ⟨pr, pur⟩
      have ndl : tl.addrs.Nodup := a2.addrs.nodup_iff.2 (List.nodup_append.1 ndt).1
      have ndr : tr.addrs.Nodup := b2.addrs.nodup_iff.2 (List.nodup_append.1 (List.nodup_append.1 ndt).2.1).1
      set h3 := A3.heap.upd p ⟨vol, none, .child (some tl.addr), some tr.addr⟩ with hh3
      have rl3 : Rep h3 none tl := by
        refine Rep.upd (Rep.congr (a2.rep.upd ptl ⟨vol, none, .child (some tl.addr), none⟩) ?_) ptl _
        intro j hj
        exact b2.frame j fun hh => dis j hj ((trm j).2 hh)
      have rr3 : Rep h3 none tr := b2.rep.upd ptr _
      obtain ⟨x, x1, x2⟩ := rl3.relink ndl (some p)
      set h4 := h3.upd tl.addr { x with link := some p } with hh4
      have tl_tr : tl.addr ∉ tr.addrs := dis _ tl.addr_mem
      have tr_tl : tr.addr ∉ tl.addrs := fun hh => dis _ hh tr.addr_mem
      obtain ⟨y, y1, y2⟩ := (rr3.upd tl_tr { x with link := some p }).relink ndr (some p)
      set h5 := h4.upd tr.addr { y with link := some p } with hh5
      have pne1 : p ≠ tl.addr := fun e => ptl (by rw [e]; exact tl.addr_mem)
      have pne2 : p ≠ tr.addr := fun e => ptr (by rw [e]; exact tr.addr_mem)
      have hfr : ∀ j, j ≠ p → j ≠ tl.addr → j ≠ tr.addr → h5 j = A3.heap j := by
        intro j e1 e2 e3
        rw [hh5, upd_ne e3, hh4, upd_ne e2, hh3, upd_ne e1]
      have pall : (all.flatMap ATree.addrs ++ p :: used).Perm (p :: ((ls.flatMap ATree.addrs ++ ul) ++ (rs.flatMap ATree.addrs ++ ur))) := by
        refine ((pm.flatMap_right ATree.addrs).symm.append_right _).trans ?_
        rw [← lr, ← ulr]
        simp only [List.flatMap_append, List.append_assoc]
        have m := List.perm_middle (a := p) (l₁ := ls.flatMap ATree.addrs ++ rs.flatMap ATree.addrs) (l₂ := ul ++ ur)
        simp only [List.append_assoc] at m
        exact m.trans (((List.perm_append_comm_assoc _ _ _).append_left _).cons _)
      refine ⟨{ A3 with heap := h5 }, .node p vol tl tr, ?_, ⟨⟨?_, ?_, y2⟩, ?_, ?_, ?_, ?_, ?_, ?_, ?_⟩⟩
      · have et : (all'.map ATree.addr).take k = ls.map ATree.addr := by rw [hls, List.map_take]
        have ed : (all'.map ATree.addr).drop k = rs.map ATree.addr := by rw [hrs, List.map_drop]
        simp only [hvol, hz, ids, c2, et, ed]
        simp only [a1, mod_eq A2p, Node.setKid]
        simp only [Bool.false_eq_true, if_false]
        rw [← hh2]
        simp only [b1, mod_eq A3p, Node.setKid, if_true]
        rw [← hh3]
        simp only [mod_eq x1]
        rw [← hh4, show h4.mod tr.addr (fun n => { n with link := some p }) = some h5 from mod_eq y1 _]
        rfl
      · show h5 p = _
        rw [hh5, upd_ne pne2, hh4, upd_ne pne1, hh3, upd_same]
      · exact x2.upd tr_tl _
      · refine List.Perm.trans ?_ pall.symm
        simp only [ATree.addrs]
        exact (a2.addrs.append b2.addrs).cons _
      · refine b2.free.congr fun j hj => hfr j ?_ ?_ ?_
        · rintro rfl
          exact pf hj
        · rintro rfl
          exact disj _ (by have := (tlm _).1 tl.addr_mem; simpa using this) _ (.inr hj) rfl
        · rintro rfl
          rw [List.nodup_append] at ndt
          exact (List.nodup_append.1 ndt.2.1).2.2 _ ((trm _).1 tr.addr_mem) _ hj rfl
      · intro j hj
        rw [pall.mem_iff] at hj
        simp only [List.mem_cons, not_or] at hj
        rw [List.mem_append, not_or, ← tlm, ← trm] at hj
        obtain ⟨jp, jl, jr⟩ := hj
        have e1 : j ≠ tl.addr := fun e => jl (by rw [e]; exact tl.addr_mem)
        have e2 : j ≠ tr.addr := fun e => jr (by rw [e]; exact tr.addr_mem)
        show h5 j = _
        rw [hfr j jp e1 e2, b2.frame j (fun hh => jr ((trm j).2 hh))]
        show h2 j = _
        rw [hh2, upd_ne jp, a2.frame j (fun hh => jl ((tlm j).2 hh))]
        exact upd_ne jp
      · have pe2 : (ls.map ATree.erase ++ rs.map ATree.erase).Perm (t.erase :: (u :: ts).map ATree.erase) := by
          rw [← List.map_append, lr]
          exact pm.map _
        refine HTree.good_vol (fun v hv => ?_) pe2 a2.builds b2.builds
        obtain ⟨v', hv', rfl⟩ := List.mem_map.1 (show v ∈ all.map ATree.erase from hv)
        exact h.good v' hv'
      · have n1 := a2.num
        have n2 := b2.num
        have : used.length = ul.length + ur.length := by rw [← ulr, List.length_append]
        simp only [hA1, List.length_cons] at n1 n2 ⊢
        omega
      · exact b2.alloc.trans a2.alloc
      · exact b2.nLeaves.trans a2.nLeaves

end TArr
end Fcl
