import Verif.Tree.OctreeQuery
import Verif.Octree.SolverLemmas
import Verif.Tree.QueryLemmas
import Verif.Props.AABB
import Mathlib.Data.List.Perm.Subperm

/-! The two recursions in terms of the leaves of the tree and of the cells. -/

namespace Fcl
namespace OctMgr
open Octree ConvertBV HTree

universe v

/-- `f` calls the callback for some of `all`, each at most once: only for those with `ov`, and for all with `T`. -/
def Calls {α I : Type*} (ov T : α → Prop) (obj : α → I × I) (all : List α) (f : ∀ σ : Type v, CB σ I → σ → σ × Bool) : Prop :=
  ∃ ps : List α, ps.Subperm all ∧ (∀ x ∈ ps, ov x) ∧ (∀ x ∈ all, T x → x ∈ ps) ∧ ∀ (σ : Type v) (cb : CB σ I) (s : σ), f σ cb s = runUntil cb s (ps.map obj)

namespace Calls
variable {α β I : Type*} {ov T : α → Prop} {obj : α → I × I} {A B : List α} {f g : ∀ σ : Type v, CB σ I → σ → σ × Bool}

theorem none (h : ∀ x ∈ A, ¬ T x) : Calls ov T obj A (fun _ _ s => (s, false)) :=
  ⟨[], List.nil_subperm, by simp, fun x hx k => absurd k (h x hx), fun _ _ _ => rfl⟩

theorem one (x : α) (h : ov x) : Calls ov T obj [x] (fun _ cb s => cb s (obj x).1 (obj x).2) :=
  ⟨[x], List.Subperm.refl _, by simpa using h, fun y hy _ => hy, fun _ cb s => by rw [List.map_singleton, runUntil_singleton]⟩

theorem perm (h : Calls ov T obj A f) (hp : A.Perm B) : Calls ov T obj B f := by
  obtain ⟨ps, h1, h2, h3, h4⟩ := h
  exact ⟨ps, h1.trans hp.subperm, h2, fun x hx => h3 x (hp.mem_iff.2 hx), h4⟩

theorem seq (hf : Calls ov T obj A f) (hg : Calls ov T obj B g) :
    Calls ov T obj (A ++ B) (fun σ cb s => andThen (f σ cb s) (g σ cb)) := by
  obtain ⟨ps, h1, h2, h3, h4⟩ := hf
  obtain ⟨qs, k1, k2, k3, k4⟩ := hg
  refine ⟨ps ++ qs, h1.append k1, fun x hx => (List.mem_append.1 hx).elim (h2 x) (k2 x), fun x hx ht => ?_, fun σ cb s => ?_⟩
  · rcases List.mem_append.1 hx with hx | hx
    · exact List.mem_append.2 (Or.inl (h3 x hx ht))
    · exact List.mem_append.2 (Or.inr (k3 x hx ht))
  · show andThen (f σ cb s) (g σ cb) = _
    rw [List.map_append, runUntil_append, h4]
    congr 1
    funext s; rw [k4]

theorem map {h : α → β} {ov T : β → Prop} {obj : β → I × I} (hf : Calls (fun a => ov (h a)) (fun a => T (h a)) (fun a => obj (h a)) A f) :
    Calls ov T obj (A.map h) f := by
  obtain ⟨ps, h1, h2, h3, h4⟩ := hf
  obtain ⟨l, p1, p2⟩ := h1
  refine ⟨ps.map h, ⟨l.map h, p1.map h, p2.map h⟩, fun x hx => ?_, fun x hx ht => ?_, fun σ cb s => ?_⟩
  · obtain ⟨a, ha, rfl⟩ := List.mem_map.1 hx; exact h2 a ha
  · obtain ⟨a, ha, rfl⟩ := List.mem_map.1 hx; exact List.mem_map.2 ⟨a, h3 a ha ht, rfl⟩
  · rw [h4, List.map_map]; rfl

theorem loop {ι : Type*} {A : ι → List α} {f : ι → ∀ σ : Type v, CB σ I → σ → σ × Bool} :
    ∀ {l : List ι}, (∀ i ∈ l, Calls ov T obj (A i) (f i)) → Calls ov T obj (l.flatMap A) (fun σ cb s => until' (fun i s => f i σ cb s) l s)
  | [], _ => none (by simp)
  | i :: l, h => by
    have k := seq (h i (by simp)) (loop (l := l) fun j hj => h j (by simp [hj]))
    rw [List.flatMap_cons]
    exact k

theorem congr (h : Calls ov T obj A f) (e : ∀ σ cb s, g σ cb s = f σ cb s) : Calls ov T obj A g := by
  obtain ⟨ps, h1, h2, h3, h4⟩ := h
  exact ⟨ps, h1, h2, h3, fun σ cb s => by rw [e, h4]⟩
end Calls

variable {O : Type*}

/-- The cells a collision query has to do with: the leaves that are not free, with their log odds, and the missing children
(`none`); nothing below an inner node that is free. -/
noncomputable def known (thr : Thresholds) : Node → List (Path × Option ℝ)
  | .null => [([], none)]
  | .leaf v => if thr.isFree v then [] else [([], some v)]
  | .inner v c => if thr.isFree v then [] else eight.flatMap fun i => (known thr (c i)).map fun x => (i :: x.1, x.2)

/-- A leaf of the tree and a cell. -/
abbrev Pair (O : Type*) := (ℕ × AABB ℝ × O) × (Path × Option ℝ)

/-- The objects given to the callback. -/
noncomputable def items (e : Side O) (b : AABB ℝ) (x : Pair O) : Item O × Item O :=
  (.inl x.1.2.2, .inr (match x.2.2 with | some v => e.cellObj (cellOf b x.2.1) v | none => e.unknownObj (cellOf b x.2.1)))

/-- The leaves with objects that are not free. -/
def solid (e : Side O) (t : HTree ℝ O) : List (ℕ × AABB ℝ × O) := t.leaves.filter fun x => !e.free x.2.2

theorem solid_node (e : Side O) (b : AABB ℝ) (l r : HTree ℝ O) : solid e (.node b l r) = solid e l ++ solid e r := by simp [solid, leaves]

/-- What is needed of the sure pairs of boxes `T`. -/
structure Sure (e : Side O) (T : AABB ℝ → AABB ℝ → Prop) : Prop where
  overlap : ∀ {a b}, T a b → e.overlap a b = true
  left : ∀ {a a' b}, a'.contain a = true → T a b → T a' b
  right : ∀ {a b} (i : Fin 8), Fat b → T a (childBV b i) → T a b

variable {e : Side O} {T : AABB ℝ → AABB ℝ → Prop}

theorem Sure.cell (h : Sure e T) {a : AABB ℝ} : ∀ {p : Path} {b : AABB ℝ}, Fat b → T a (cellOf b p) → T a b
  | [], _, _, k => k
  | i :: p, _, hb, k => h.right i hb (Sure.cell h (p := p) (hb.child i) k)

/-- The boxes of a pair. -/
def OV (e : Side O) (b : AABB ℝ) (x : Pair O) : Prop := e.overlap x.1.2.1 (cellOf b x.2.1) = true
@[inherit_doc OV] def TT (T : AABB ℝ → AABB ℝ → Prop) (b : AABB ℝ) (x : Pair O) : Prop := T x.1.2.1 (cellOf b x.2.1)

theorem collideNull_calls (hT : Sure e T) (b : AABB ℝ) : ∀ t : HTree ℝ O,
    Calls.{v} (OV e b) (TT T b) (items e b) ((solid e t).product [([], none)]) (fun _ cb s => collideNull e cb b t s)
  | .leaf i b1 o => by
    by_cases hf : e.free o = true
    · simp only [collideNull, hf, solid, leaves]
      simpa [product_nil_left, hf] using Calls.none (by simp)
    · rw [Bool.not_eq_true] at hf
      have es : (solid e (.leaf i b1 o)).product [(([] : Path), (none : Option ℝ))] = [((i, b1, o), ([], none))] := by simp [solid, leaves, hf, List.product]
      rw [es]
      by_cases ho : e.overlap b1 b = true
      · refine (Calls.one ((i, b1, o), ([], none)) (by exact ho)).congr fun σ cb s => ?_
        simp only [collideNull, hf, ho, items]; rfl
      · refine (Calls.none ?_).congr fun σ cb s => ?_
        · simp only [List.mem_singleton, forall_eq]
          exact fun k => ho (hT.overlap k)
        · simp [collideNull, hf, ho]
  | .node b1 l r => by
    rw [solid_node, product_append_left]
    exact Calls.seq (collideNull_calls hT b l) (collideNull_calls hT b r)

/-- If the boxes are not sure, nothing below is. -/
theorem not_below (hT : Sure e T) {b : AABB ℝ} (hb : Fat b) {t : HTree ℝ O} (he : t.Enc) (ho : ¬ e.overlap t.bv b = true) (N : List (Path × Option ℝ)) :
    ∀ x ∈ (solid e t).product N, ¬ TT T b x := by
  intro x hx k
  obtain ⟨h1, -⟩ := List.mem_product.1 hx
  exact ho (hT.overlap (hT.cell hb (hT.left (he.contain_leaf x.1 (List.mem_filter.1 h1).1) k)))

theorem collideLeaf_calls (hT : Sure e T) {b : AABB ℝ} (hb : Fat b) (v : ℝ) : ∀ t : HTree ℝ O, t.Enc →
    Calls.{v} (OV e b) (TT T b) (items e b) ((solid e t).product (known e.thr (.leaf v))) (fun _ cb s => collideLeaf e cb v b t s)
  | .leaf i b1 o, _ => by
    by_cases hv : e.thr.isFree v
    · rw [known, if_pos hv, product_nil_right]
      exact (Calls.none (by simp)).congr fun σ cb s => by simp [collideLeaf, hv]
    rw [known, if_neg hv]
    by_cases hf : e.free o = true
    · have es : (solid e (.leaf i b1 o)).product [(([] : Path), some v)] = [] := by simp [solid, leaves, hf, List.product]
      rw [es]
      exact (Calls.none (by simp)).congr fun σ cb s => by simp [collideLeaf, hf]
    · rw [Bool.not_eq_true] at hf
      have es : (solid e (.leaf i b1 o)).product [(([] : Path), some v)] = [((i, b1, o), ([], some v))] := by simp [solid, leaves, hf, List.product]
      rw [es]
      by_cases ho : e.overlap b1 b = true
      · refine (Calls.one ((i, b1, o), ([], some v)) (by exact ho)).congr fun σ cb s => ?_
        simp only [collideLeaf, hf, ho, hv, items]; simp; rfl
      · refine (Calls.none ?_).congr fun σ cb s => ?_
        · simp only [List.mem_singleton, forall_eq]
          exact fun k => ho (hT.overlap k)
        · simp [collideLeaf, hf, ho]
  | .node b1 l r, he => by
    by_cases hv : e.thr.isFree v
    · rw [known, if_pos hv, product_nil_right]
      exact (Calls.none (by simp)).congr fun σ cb s => by simp [collideLeaf, hv]
    by_cases ho : e.overlap b1 b = true
    · rw [solid_node, product_append_left]
      refine (Calls.seq (collideLeaf_calls hT hb v l he.2.2.1) (collideLeaf_calls hT hb v r he.2.2.2)).congr fun σ cb s => ?_
      simp [collideLeaf, hv, ho]
    · refine (Calls.none (not_below hT hb he ho _)).congr fun σ cb s => by simp [collideLeaf, ho]

theorem collideInner_calls (hT : Sure e T) {b : AABB ℝ} (hb : Fat b) (v : ℝ) (c : Fin 8 → Node)
    {kids : Fin 8 → ∀ σ : Type v, CB σ (Item O) → HTree ℝ O → σ → σ × Bool}
    (hk : ∀ (i : Fin 8) (t : HTree ℝ O), t.Enc → Calls.{v} (OV e (childBV b i)) (TT T (childBV b i)) (items e (childBV b i)) ((solid e t).product (known e.thr (c i))) (fun σ cb s => kids i σ cb t s)) :
    ∀ t : HTree ℝ O, t.Enc →
      Calls.{v} (OV e b) (TT T b) (items e b) ((solid e t).product (known e.thr (.inner v c))) (fun σ cb s => collideInner e v b (fun i => kids i σ cb) t s) := by
  have hloop : ∀ t : HTree ℝ O, t.Enc → ¬ e.thr.isFree v →
      Calls.{v} (OV e b) (TT T b) (items e b) ((solid e t).product (known e.thr (.inner v c))) (fun σ cb s => collideKids (fun i => kids i σ cb) t s) := by
    intro t he hv
    have k : Calls.{v} (OV e b) (TT T b) (items e b)
        (eight.flatMap fun i => ((solid e t).product (known e.thr (c i))).map fun x => (x.1, (i :: x.2.1, x.2.2)))
        (fun σ cb s => until' (fun i s => kids i σ cb t s) eight s) :=
      Calls.loop (f := fun i σ cb s => kids i σ cb t s) fun i _ => Calls.map (ov := OV e b) (T := TT T b) (obj := items e b) (hk i t he)
    refine k.perm ?_
    rw [known, if_neg hv]
    generalize solid e t = A
    generalize eight = L
    induction L with
    | nil => simp [product_nil_right]
    | cons i L ih =>
      rw [List.flatMap_cons, List.flatMap_cons]
      refine (List.Perm.append ?_ ih).trans (product_append_right _ _ _).symm
      have := product_map (fun x : ℕ × AABB ℝ × O => x) (fun x : Path × Option ℝ => (i :: x.1, x.2)) A (known e.thr (c i))
      simp only [List.map_id'] at this
      rw [this]
  intro t
  induction t with
  | leaf i b1 o =>
    intro he
    by_cases hv : e.thr.isFree v
    · rw [known, if_pos hv, product_nil_right]
      exact (Calls.none (by simp)).congr fun σ cb s => by simp [collideInner, hv]
    by_cases ho : e.overlap b1 b = true
    · exact (hloop _ he hv).congr fun σ cb s => by simp [collideInner, hv, ho]
    · exact (Calls.none (not_below hT hb he ho _)).congr fun σ cb s => by simp [collideInner, ho]
  | node b1 l r ihl ihr =>
    intro he
    by_cases hv : e.thr.isFree v
    · rw [known, if_pos hv, product_nil_right]
      exact (Calls.none (by simp)).congr fun σ cb s => by simp [collideInner, hv]
    by_cases ho : e.overlap b1 b = true
    · by_cases hg : e.bigger b1 b = true
      · rw [solid_node, product_append_left]
        exact (Calls.seq (ihl he.2.2.1) (ihr he.2.2.2)).congr fun σ cb s => by simp [collideInner, hv, ho, hg]
      · exact (hloop _ he hv).congr fun σ cb s => by simp [collideInner, hv, ho, hg]
    · exact (Calls.none (not_below hT hb he ho _)).congr fun σ cb s => by simp [collideInner, ho]

theorem collideRec_calls (hT : Sure e T) : ∀ (n : Node) {b : AABB ℝ}, Fat b → ∀ t : HTree ℝ O, t.Enc →
    Calls.{v} (OV e b) (TT T b) (items e b) ((solid e t).product (known e.thr n)) (fun _ cb s => collideRec e cb n b t s)
  | .null, b, _, t, _ => collideNull_calls hT b t
  | .leaf v, _, hb, t, he => collideLeaf_calls hT hb v t he
  | .inner v c, b, hb, t, he =>
    collideInner_calls (kids := fun (i : Fin 8) _ cb t s => collideRec e cb (c i) (childBV b i) t s) hT hb v c
      (fun (i : Fin 8) t he => collideRec_calls hT (c i) (hb.child i) t he) t he

/-! ### Distance -/

theorem covers_map {α β σ D I : Type*} [LinearOrder D] {P : σ → D → Prop} {cb : DCB σ D I} {h : α → β} {lb : β → D} {obj : β → I × I} {A : List α}
    {f : σ → D → σ × D × Bool} (hf : Covers P cb (fun a => lb (h a)) (fun a => obj (h a)) A f) : Covers P cb lb obj (A.map h) f := by
  intro s md hP
  obtain ⟨c, k, h1, h2, h3⟩ := hf s md hP
  refine ⟨c.map h, k.map h, by rw [← List.map_append]; exact h1.map h, by rw [h2, List.map_map]; rfl, fun hs x hx => ?_⟩
  obtain ⟨a, ha, rfl⟩ := List.mem_map.1 hx
  exact h3 hs a ha

theorem covers_loop {ι α σ I : Type*} {P : σ → ℝ → Prop} {cb : DCB σ ℝ I} (hc : cb.NonInc P) {lb : α → ℝ} {obj : α → I × I} {A : ι → List α}
    {f : ι → σ → ℝ → σ × ℝ × Bool} : ∀ {l : List ι}, (∀ i ∈ l, Covers P cb lb obj (A i) (f i)) → Covers P cb lb obj (l.flatMap A) (untilD f l)
  | [], _ => Covers.nil
  | i :: l, h => by
    have k := Covers.seq hc (h i (by simp)) (covers_loop hc (l := l) fun j hj => h j (by simp [hj]))
    rw [List.flatMap_cons]
    exact k

/-- The cells a distance query has to do with: the leaves that are occupied; nothing below an inner node that is not. -/
noncomputable def occupied (thr : Thresholds) : Node → List Path
  | .null => []
  | .leaf v => if thr.isOccupied v then [[]] else []
  | .inner v c => if thr.isOccupied v then eight.flatMap fun i => (occupied thr (c i)).map fun x => i :: x else []

/-- The objects given to the callback. -/
noncomputable def ditems (e : Side O) (b : AABB ℝ) (x : (ℕ × AABB ℝ × O) × Path) : Item O × Item O :=
  (.inl x.1.2.2, .inr (e.distObj (cellOf b x.2)))

/-- Some point of the object's box and some point of the cell are at most `lb` apart. -/
def Near (e : Side O) (b : AABB ℝ) (lb : (ℕ × AABB ℝ × O) × Path → ℝ) (x : (ℕ × AABB ℝ × O) × Path) : Prop :=
  ∃ p ∈ x.1.2.1.pts, ∃ q ∈ PlacedAt e.tf (cellOf b x.2).pts, p.dist q ≤ lb x

/-- `conv` gives a box around the placed cell. -/
def Around (e : Side O) : Prop := ∀ b : AABB ℝ, PlacedAt e.tf b.pts ⊆ (e.conv b).pts

theorem contain_pts {a b : AABB ℝ} (h : a.contain b = true) : b.pts ⊆ a.pts := by
  rw [AABB.contain_iff] at h
  obtain ⟨⟨h1, h2⟩, ⟨h3, h4⟩, h5, h6⟩ := h
  rintro p ⟨⟨k1, k2⟩, ⟨k3, k4⟩, k5, k6⟩
  exact ⟨⟨by linarith, by linarith⟩, ⟨by linarith, by linarith⟩, by linarith, by linarith⟩

variable {lb : (ℕ × AABB ℝ × O) × Path → ℝ} {b : AABB ℝ}

theorem near_bound (ha : Around e) (hb : Fat b) {x : (ℕ × AABB ℝ × O) × Path} {t : HTree ℝ O} (he : t.Enc) (hx : x.1 ∈ t.leaves) (h : Near e b lb x) :
    t.bv.distance (e.conv b) ≤ lb x ∧ (e.conv b).distance t.bv ≤ lb x := by
  obtain ⟨p, hp, q, hq, hd⟩ := h
  have hp' := contain_pts (he.contain_leaf x.1 hx) hp
  have hq' := ha b (placed_mono (cellOf_sub hb.valid x.2) hq)
  refine ⟨(C03_distance_lower_bound _ _ p q hp' hq').trans hd, (C03_distance_lower_bound _ _ q p hq' hp').trans ?_⟩
  rw [V3.dist_comm]; exact hd

variable {σ : Type*} {P : σ → ℝ → Prop} {cb : DCB σ ℝ (Item O)}

theorem distLeaf_covers (ha : Around e) (hc : cb.NonInc P) (hb : Fat b) (v : ℝ) : ∀ t : HTree ℝ O, t.Enc →
    (∀ x ∈ t.leaves.product (occupied e.thr (.leaf v)), Near e b lb x) →
    Covers P cb lb (ditems e b) (t.leaves.product (occupied e.thr (.leaf v))) (distLeaf e cb v b t)
  | .leaf i b1 o, _, _ => by
    by_cases hv : e.thr.isOccupied v
    · have ef : distLeaf e cb v b (.leaf i b1 o) = fun s md => cb s md (ditems e b ((i, b1, o), [])).1 (ditems e b ((i, b1, o), [])).2 := by
        funext s md; simp only [distLeaf, if_pos hv, ditems]; rfl
      rw [ef, occupied, if_pos hv]
      exact Covers.one ((i, b1, o), [])
    · have ef : distLeaf e cb v b (.leaf i b1 o) = fun s md => (s, md, false) := by
        funext s md; simp only [distLeaf, if_neg hv]
      rw [ef, occupied, if_neg hv, product_nil_right]
      exact Covers.nil
  | .node b1 l r, he, hn => by
    by_cases hv : e.thr.isOccupied v
    · have ef : distLeaf e cb v b (.node b1 l r) = nearFirst ((e.conv b).distance l.bv) ((e.conv b).distance r.bv) (distLeaf e cb v b l) (distLeaf e cb v b r) := by
        funext s md; rw [distLeaf, if_neg (not_not.2 hv)]
      rw [leaves, product_append_left] at hn ⊢
      rw [ef]
      have hl := fun x hx => hn x (List.mem_append.2 (Or.inl hx))
      have hr := fun x hx => hn x (List.mem_append.2 (Or.inr hx))
      exact covers_nearFirst hc (distLeaf_covers ha hc hb v l he.2.2.1 hl) (distLeaf_covers ha hc hb v r he.2.2.2 hr)
        (fun x hx => (near_bound ha hb he.2.2.1 (List.mem_product.1 hx).1 (hl x hx)).2) (fun x hx => (near_bound ha hb he.2.2.2 (List.mem_product.1 hx).1 (hr x hx)).2)
    · have ef : distLeaf e cb v b (.node b1 l r) = fun s md => (s, md, false) := by
        funext s md; rw [distLeaf, if_pos hv]
      rw [ef, occupied, if_neg hv, product_nil_right]
      exact Covers.nil

theorem distInner_covers (ha : Around e) (hc : cb.NonInc P) (hb : Fat b) (v : ℝ) (c : Fin 8 → Node)
    {kids : Fin 8 → HTree ℝ O → σ → ℝ → σ × ℝ × Bool}
    (hk : ∀ (i : Fin 8) (lb : (ℕ × AABB ℝ × O) × Path → ℝ) (t : HTree ℝ O), t.Enc → (∀ x ∈ t.leaves.product (occupied e.thr (c i)), Near e (childBV b i) lb x) →
      Covers P cb lb (ditems e (childBV b i)) (t.leaves.product (occupied e.thr (c i))) (kids i t)) :
    ∀ t : HTree ℝ O, t.Enc → (∀ x ∈ t.leaves.product (occupied e.thr (.inner v c)), Near e b lb x) →
      Covers P cb lb (ditems e b) (t.leaves.product (occupied e.thr (.inner v c))) (distInner e v b (fun i => (c i).here) kids t) := by
  have hzero : ∀ t : HTree ℝ O, ¬ e.thr.isOccupied v → Covers P cb lb (ditems e b) (t.leaves.product (occupied e.thr (.inner v c))) (distInner e v b (fun i => (c i).here) kids t) := by
    intro t hv
    have ef : distInner e v b (fun i => (c i).here) kids t = fun s md => (s, md, false) := by
      funext s md; cases t <;> rw [distInner, if_pos hv]
    rw [ef, occupied, if_neg hv, product_nil_right]
    exact Covers.nil
  have hloop : ∀ t : HTree ℝ O, t.Enc → e.thr.isOccupied v → (∀ x ∈ t.leaves.product (occupied e.thr (.inner v c)), Near e b lb x) →
      Covers P cb lb (ditems e b) (t.leaves.product (occupied e.thr (.inner v c))) (distKids e b (fun i => (c i).here) kids t) := by
    intro t he hv hn
    have hmem : ∀ i : Fin 8, ∀ x ∈ t.leaves.product (occupied e.thr (c i)), (x.1, i :: x.2) ∈ t.leaves.product (occupied e.thr (.inner v c)) := by
      intro i x hx
      obtain ⟨h1, h2⟩ := List.mem_product.1 hx
      refine List.mem_product.2 ⟨h1, ?_⟩
      rw [occupied, if_pos hv]
      exact List.mem_flatMap.2 ⟨i, mem_eight i, List.mem_map.2 ⟨x.2, h2, rfl⟩⟩
    have k : Covers P cb lb (ditems e b) (eight.flatMap fun i => (t.leaves.product (occupied e.thr (c i))).map fun x => (x.1, i :: x.2))
        (distKids e b (fun i => (c i).here) kids t) := by
      refine covers_loop hc fun i _ => ?_
      by_cases hh : (c i).here = true
      · simp only [hh, if_true]
        refine Covers.skip _ (covers_map (hk i _ t he fun x hx => hn _ (hmem i x hx))) fun x hx => ?_
        obtain ⟨y, hy, rfl⟩ := List.mem_map.1 hx
        exact (near_bound (b := childBV b i) (lb := fun x => lb (x.1, i :: x.2)) ha (hb.child i) he (List.mem_product.1 hy).1 (hn _ (hmem i y hy))).1
      · have e0 : occupied e.thr (c i) = [] := by
          cases hcase : c i with
          | null => rfl
          | leaf => rw [hcase] at hh; exact absurd rfl hh
          | inner => rw [hcase] at hh; exact absurd rfl hh
        simp only [hh, e0, product_nil_right]
        exact Covers.nil
    refine k.perm ?_
    rw [occupied, if_pos hv]
    generalize t.leaves = A
    generalize eight = L
    induction L with
    | nil => simp [product_nil_right]
    | cons i L ih =>
      rw [List.flatMap_cons, List.flatMap_cons]
      refine (List.Perm.append ?_ ih).trans (product_append_right _ _ _).symm
      have := product_map (fun x : ℕ × AABB ℝ × O => x) (fun x : Path => i :: x) A (occupied e.thr (c i))
      simp only [List.map_id'] at this
      rw [this]
  intro t
  induction t with
  | leaf i b1 o =>
    intro he hn
    by_cases hv : e.thr.isOccupied v
    · have ef : distInner e v b (fun i => (c i).here) kids (.leaf i b1 o) = distKids e b (fun i => (c i).here) kids (.leaf i b1 o) := by
        funext s md; rw [distInner, if_neg (not_not.2 hv)]
      rw [ef]; exact hloop _ he hv hn
    · exact hzero _ hv
  | node b1 l r ihl ihr =>
    intro he hn
    by_cases hv : e.thr.isOccupied v
    · by_cases hg : e.bigger b1 b = true
      · have ef : distInner e v b (fun i => (c i).here) kids (.node b1 l r) = nearFirst ((e.conv b).distance l.bv) ((e.conv b).distance r.bv)
            (distInner e v b (fun i => (c i).here) kids l) (distInner e v b (fun i => (c i).here) kids r) := by
          funext s md; rw [distInner, if_neg (not_not.2 hv), if_pos hg]
        rw [leaves, product_append_left] at hn ⊢
        rw [ef]
        have hl := fun x hx => hn x (List.mem_append.2 (Or.inl hx))
        have hr := fun x hx => hn x (List.mem_append.2 (Or.inr hx))
        exact covers_nearFirst hc (ihl he.2.2.1 hl) (ihr he.2.2.2 hr)
          (fun x hx => (near_bound ha hb he.2.2.1 (List.mem_product.1 hx).1 (hl x hx)).2) (fun x hx => (near_bound ha hb he.2.2.2 (List.mem_product.1 hx).1 (hr x hx)).2)
      · have ef : distInner e v b (fun i => (c i).here) kids (.node b1 l r) = distKids e b (fun i => (c i).here) kids (.node b1 l r) := by
          funext s md; rw [distInner, if_neg (not_not.2 hv), if_neg hg]
        rw [ef]; exact hloop _ he hv hn
    · exact hzero _ hv

theorem distRec_covers (ha : Around e) (hc : cb.NonInc P) : ∀ (n : Node) {b : AABB ℝ} {lb : (ℕ × AABB ℝ × O) × Path → ℝ}, Fat b → ∀ t : HTree ℝ O, t.Enc →
    (∀ x ∈ t.leaves.product (occupied e.thr n), Near e b lb x) →
    Covers P cb lb (ditems e b) (t.leaves.product (occupied e.thr n)) (distRec e cb n b t)
  | .null, _, _, _, t, _, _ => by
    rw [occupied, product_nil_right]; exact Covers.nil
  | .leaf v, _, _, hb, t, he, hn => distLeaf_covers ha hc hb v t he hn
  | .inner v c, _, _, hb, t, he, hn =>
    distInner_covers ha hc hb v c (fun (i : Fin 8) _ t he hn => distRec_covers ha hc (c i) (hb.child i) t he hn) t he hn

end OctMgr
end Fcl
