import Verif.TreeArray.Model
import Verif.Tree.Refine

/-! Trees with addresses, and when they are what is in the array. -/

namespace Fcl
namespace TArr
variable {K O : Type*}

/-- A tree whose nodes know their index. -/
inductive ATree (K O : Type*) where
  | leaf (i : ℕ) (b : AABB K) (o : O)
  | node (i : ℕ) (b : AABB K) (l r : ATree K O)

namespace ATree

def addr : ATree K O → ℕ
  | leaf i _ _ => i
  | node i _ _ _ => i

def bv : ATree K O → AABB K
  | leaf _ b _ => b
  | node _ b _ _ => b

def addrs : ATree K O → List ℕ
  | leaf i _ _ => [i]
  | node i _ l r => i :: (l.addrs ++ r.addrs)

def erase : ATree K O → HTree K O
  | leaf i b o => .leaf i b o
  | node _ b l r => .node b l.erase r.erase

def leaves (t : ATree K O) : List (ℕ × AABB K × O) := t.erase.leaves

@[simp] theorem leaves_leaf (i : ℕ) (b : AABB K) (o : O) : (leaf i b o).leaves = [(i, b, o)] := rfl
@[simp] theorem leaves_node (i : ℕ) (b : AABB K) (l r : ATree K O) : (node i b l r).leaves = l.leaves ++ r.leaves := rfl
@[simp] theorem erase_bv (t : ATree K O) : t.erase.bv = t.bv := by cases t <;> rfl

theorem addr_mem (t : ATree K O) : t.addr ∈ t.addrs := by cases t <;> simp [addr, addrs]

def height : ATree K O → ℕ
  | leaf _ _ _ => 0
  | node _ _ l r => max l.height r.height + 1

theorem height_lt (t : ATree K O) : t.height < t.addrs.length := by
  induction t with
  | leaf => simp [height, addrs]
  | node i b l r hl hr => simp [height, addrs]; omega

theorem leaves_addrs {t : ATree K O} {x : ℕ × AABB K × O} (h : x ∈ t.leaves) : x.1 ∈ t.addrs := by
  induction t with
  | leaf => simp at h; simp [h, addrs]
  | node i b l r hl hr =>
    simp at h
    rcases h with h | h
    · simp [addrs, hl h]
    · simp [addrs, hr h]

theorem leaves_ids_sublist (t : ATree K O) : (t.leaves.map (·.1)).Sublist t.addrs := by
  induction t with
  | leaf => simp [addrs]
  | node i b l r hl hr =>
    simp only [leaves_node, List.map_append, addrs]
    exact (hl.append hr).cons _

theorem leaves_length (t : ATree K O) : t.addrs.length + 1 = 2 * t.leaves.length := by
  induction t with
  | leaf => simp [addrs]
  | node i b l r hl hr => simp [addrs]; omega

end ATree

/-- The tree is in the array, its root with this link. -/
def Rep (h : Heap K O) : Option ℕ → ATree K O → Prop
  | p, .leaf i b o => h i = some ⟨b, p, .data (some o), none⟩
  | p, .node i b l r => h i = some ⟨b, p, .child (some l.addr), some r.addr⟩ ∧ Rep h (some i) l ∧ Rep h (some i) r

theorem Rep.congr {h h' : Heap K O} {p : Option ℕ} {t : ATree K O} (r : Rep h p t) (e : ∀ i ∈ t.addrs, h' i = h i) :
    Rep h' p t := by
  induction t generalizing p with
  | leaf i b o => simpa [Rep, e i (by simp [ATree.addrs])] using r
  | node i b l r' hl hr =>
    obtain ⟨a, c, d⟩ := r
    exact ⟨by rw [e i (by simp [ATree.addrs]), a], hl c fun j hj => e j (by simp [ATree.addrs, hj]),
      hr d fun j hj => e j (by simp [ATree.addrs, hj])⟩

@[simp] theorem upd_same (h : Heap K O) (i : ℕ) (n : Node K O) : h.upd i n i = some n := by simp [Heap.upd]
theorem upd_ne {h : Heap K O} {i j : ℕ} {n : Node K O} (e : j ≠ i) : h.upd i n j = h j := by simp [Heap.upd, e]
theorem mod_eq {h : Heap K O} {i : ℕ} {n : Node K O} (e : h i = some n) (f : Node K O → Node K O) :
    h.mod i f = some (h.upd i (f n)) := by simp [Heap.mod, e]
@[simp] theorem addr_leaf (i : ℕ) (b : AABB K) (o : O) : (ATree.leaf i b o).addr = i := rfl
@[simp] theorem addr_node (i : ℕ) (b : AABB K) (l r : ATree K O) : (ATree.node i b l r).addr = i := rfl

theorem Rep.upd {h : Heap K O} {p : Option ℕ} {t : ATree K O} (r : Rep h p t) {i : ℕ} (hi : i ∉ t.addrs) (n : Node K O) :
    Rep (h.upd i n) p t := r.congr fun j hj => upd_ne fun e => hi (e ▸ hj)

/-- The root of a tree in the array. -/
theorem Rep.get {h : Heap K O} {p : Option ℕ} {t : ATree K O} (r : Rep h p t) :
    ∃ n, h t.addr = some n ∧ n.bv = t.bv ∧ n.link = p := by
  cases t with
  | leaf i b o => exact ⟨_, r, rfl, rfl⟩
  | node i b l r' => exact ⟨_, r.1, rfl, rfl⟩

theorem Rep.bv {h : Heap K O} {p : Option ℕ} {t : ATree K O} (r : Rep h p t) : h.bv t.addr = some t.bv := by
  obtain ⟨n, e, b, _⟩ := r.get
  simp [Heap.bv, e, b]

theorem Rep.some {h : Heap K O} {p : Option ℕ} {t : ATree K O} (r : Rep h p t) {i : ℕ} (hi : i ∈ t.addrs) :
    (h i).isSome := by
  induction t generalizing p with
  | leaf j b o =>
    have e : i = j := by simpa [ATree.addrs] using hi
    have : h j = _ := r
    simp [e, this]
  | node j b l r' hl hr =>
    simp only [ATree.addrs, List.mem_cons, List.mem_append] at hi
    rcases hi with e | hi | hi
    · simp [e, r.1]
    · exact hl r.2.1 hi
    · exact hr r.2.2 hi

/-- Change of the link of the root. -/
theorem Rep.relink {h : Heap K O} {p : Option ℕ} {t : ATree K O} (r : Rep h p t) (nd : t.addrs.Nodup) (q : Option ℕ) :
    ∃ n, h t.addr = .some n ∧ Rep (h.upd t.addr { n with link := q }) q t := by
  cases t with
  | leaf i b o => exact ⟨_, r, by simp [Rep]⟩
  | node i b l r' =>
    simp only [ATree.addrs, List.nodup_cons, List.mem_append, not_or] at nd
    exact ⟨_, r.1, by simp, r.2.1.upd nd.1.1 _, r.2.2.upd nd.1.2 _⟩

/-- Change of the box of the root. -/
def ATree.setBv (b : AABB K) : ATree K O → ATree K O
  | .leaf i _ o => .leaf i b o
  | .node i _ l r => .node i b l r

/-! ### Contexts -/

/-- A node on the way from a subtree to the root, with the other child; `dir` if the way comes from child 1. -/
structure Frame (K O : Type*) where
  i : ℕ
  b : AABB K
  dir : Bool
  sib : ATree K O

/-- The node with a subtree put back. -/
def Frame.fill (f : Frame K O) (t : ATree K O) : ATree K O :=
  if f.dir then .node f.i f.b f.sib t else .node f.i f.b t f.sib

@[simp] theorem Frame.fill_addr (f : Frame K O) (t : ATree K O) : (f.fill t).addr = f.i := by
  unfold Frame.fill; split <;> rfl
@[simp] theorem Frame.fill_bv (f : Frame K O) (t : ATree K O) : (f.fill t).bv = f.b := by
  unfold Frame.fill; split <;> rfl

/-- The tree from the innermost node to the root. -/
def plug : List (Frame K O) → ATree K O → ATree K O
  | [], t => t
  | f :: c, t => plug c (f.fill t)

/-- The link of the subtree. -/
def up : List (Frame K O) → Option ℕ
  | [] => none
  | f :: _ => some f.i

def Frame.addrs (f : Frame K O) : List ℕ := f.i :: f.sib.addrs
def caddrs (c : List (Frame K O)) : List ℕ := c.flatMap Frame.addrs

/-- The content of the node. -/
def Frame.cell (f : Frame K O) (p : Option ℕ) (a : ℕ) : Node K O :=
  ⟨f.b, p, .child (some (if f.dir then f.sib.addr else a)), some (if f.dir then a else f.sib.addr)⟩

/-- The context is in the array, around a subtree at the index. -/
def RepC (h : Heap K O) : List (Frame K O) → ℕ → Prop
  | [], _ => True
  | f :: c, a => h f.i = some (f.cell (up c) a) ∧ Rep h (some f.i) f.sib ∧ RepC h c f.i

theorem rep_fill {h : Heap K O} {p : Option ℕ} {f : Frame K O} {t : ATree K O} :
    Rep h p (f.fill t) ↔ h f.i = some (f.cell p t.addr) ∧ Rep h (some f.i) f.sib ∧ Rep h (some f.i) t := by
  unfold Frame.fill Frame.cell
  cases f.dir <;> simp [Rep] <;> tauto

theorem rep_plug {h : Heap K O} {c : List (Frame K O)} {t : ATree K O} :
    Rep h none (plug c t) ↔ RepC h c t.addr ∧ Rep h (up c) t := by
  induction c generalizing t with
  | nil => simp [plug, RepC, up]
  | cons f c ih =>
    rw [plug, ih, rep_fill]
    simp [RepC, up]
    tauto

theorem fill_addrs (f : Frame K O) (t : ATree K O) : (f.fill t).addrs.Perm (f.addrs ++ t.addrs) := by
  unfold Frame.fill Frame.addrs
  cases f.dir
  · simp [ATree.addrs, List.perm_append_comm]
  · simp [ATree.addrs]

theorem plug_addrs (c : List (Frame K O)) (t : ATree K O) : (plug c t).addrs.Perm (caddrs c ++ t.addrs) := by
  induction c generalizing t with
  | nil => simp [plug, caddrs]
  | cons f c ih =>
    refine (ih _).trans ?_
    have := (fill_addrs f t).append_left (caddrs c)
    refine this.trans ?_
    simp only [caddrs, List.flatMap_cons, List.append_assoc]
    rw [← List.append_assoc, ← List.append_assoc]
    exact List.perm_append_comm.append_right _

theorem fill_leaves (f : Frame K O) (t : ATree K O) : (f.fill t).leaves.Perm (f.sib.leaves ++ t.leaves) := by
  unfold Frame.fill
  cases f.dir
  · simp [List.perm_append_comm]
  · simp

def cleaves (c : List (Frame K O)) : List (ℕ × AABB K × O) := c.flatMap fun f => f.sib.leaves

theorem plug_leaves (c : List (Frame K O)) (t : ATree K O) : (plug c t).leaves.Perm (cleaves c ++ t.leaves) := by
  induction c generalizing t with
  | nil => simp [plug, cleaves]
  | cons f c ih =>
    refine (ih _).trans ?_
    have := (fill_leaves f t).append_left (cleaves c)
    refine this.trans ?_
    simp only [cleaves, List.flatMap_cons, List.append_assoc]
    rw [← List.append_assoc, ← List.append_assoc]
    exact List.perm_append_comm.append_right _

theorem RepC.congr {h h' : Heap K O} {c : List (Frame K O)} {a : ℕ} (r : RepC h c a) (e : ∀ i ∈ caddrs c, h' i = h i) :
    RepC h' c a := by
  induction c generalizing a with
  | nil => trivial
  | cons f c ih =>
    simp only [caddrs, List.flatMap_cons, List.mem_append, Frame.addrs, List.mem_cons] at e
    exact ⟨by rw [e f.i (by simp), r.1], r.2.1.congr fun i hi => e i (by simp [hi]), ih r.2.2 fun i hi => e i (by
      right; simpa [caddrs, Frame.addrs] using hi)⟩

theorem RepC.upd {h : Heap K O} {c : List (Frame K O)} {a : ℕ} (r : RepC h c a) {i : ℕ} (hi : i ∉ caddrs c) (n : Node K O) :
    RepC (h.upd i n) c a := r.congr fun j hj => upd_ne fun e => hi (e ▸ hj)

/-- Every leaf is somewhere. -/
theorem exists_plug {t : ATree K O} {x : ℕ × AABB K × O} (h : x ∈ t.leaves) :
    ∃ c, t = plug c (.leaf x.1 x.2.1 x.2.2) := by
  suffices H : ∀ (t : ATree K O), x ∈ t.leaves → ∀ c, ∃ c', plug c t = plug c' (.leaf x.1 x.2.1 x.2.2) by
    exact H t h []
  intro t
  induction t with
  | leaf i b o => intro hx c; simp at hx; exact ⟨c, by rw [hx]⟩
  | node i b l r hl hr =>
    intro hx c
    simp at hx
    rcases hx with hx | hx
    · exact hl hx (⟨i, b, false, r⟩ :: c)
    · exact hr hx (⟨i, b, true, l⟩ :: c)

/-! ### Boxes -/

section order
variable [LinearOrder K]

def ATree.Enc (t : ATree K O) : Prop := t.erase.Enc

/-- The boxes of the context enclose what is below, except possibly the subtree. -/
def EncC : List (Frame K O) → Prop
  | [] => True
  | f :: c => f.b.contain f.sib.bv = true ∧ f.sib.Enc ∧ (∀ g ∈ c.head?, g.b.contain f.b = true) ∧ EncC c

theorem enc_fill {f : Frame K O} {t : ATree K O} :
    (f.fill t).Enc ↔ f.b.contain f.sib.bv = true ∧ f.sib.Enc ∧ f.b.contain t.bv = true ∧ t.Enc := by
  unfold Frame.fill ATree.Enc
  cases f.dir <;> simp [ATree.erase, HTree.Enc] <;> tauto

theorem enc_plug {c : List (Frame K O)} {t : ATree K O} :
    (plug c t).Enc ↔ EncC c ∧ (∀ f ∈ c.head?, f.b.contain t.bv = true) ∧ t.Enc := by
  induction c generalizing t with
  | nil => simp [plug, EncC]
  | cons f c ih =>
    rw [plug, ih, enc_fill]
    simp [EncC]
    tauto

end order
end TArr
end Fcl
