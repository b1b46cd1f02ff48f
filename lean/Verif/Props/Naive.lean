import Verif.Naive.Model
import Verif.Base.Registered
import Verif.Tree.QueryLemmas
import Mathlib.Tactic.NormNum

/-! # C12: the brute force manager -/

namespace Fcl
namespace Naive
variable {K O : Type*} [LinearOrder K] [DecidableEq O]

/-- Execute a history from a new manager. -/
def run (h : List (MgrOp O)) : Naive O := h.foldl step empty

theorem run_snoc (h : List (MgrOp O)) (c : MgrOp O) : run (h ++ [c]) = (run h).step c := by
  simp [run]

theorem mem_run (h : List (MgrOp O)) (o : O) : o ∈ (run h).objs ↔ registered o h = true := by
  induction h using List.reverseRecOn with
  | nil => simp [run, empty, registered, registeredRev]
  | append_singleton h c ih =>
    rw [run_snoc, registered_snoc]
    cases c <;> simp [step, registeredRev, ih, registered] <;> grind

theorem nodup_run {h : List (MgrOp O)} (hh : FreshHistory h) : (run h).objs.Nodup := by
  induction hh with
  | nil => simp [run, empty]
  | @snoc h c hh hc ih =>
    rw [run_snoc]
    cases c with
    | register o =>
      simp only [step, List.nodup_append]
      refine ⟨ih, List.nodup_singleton _, ?_⟩
      rintro a ha b hb rfl
      rw [List.mem_singleton] at hb
      subst hb
      rw [mem_run] at ha
      simp only [MgrOp.Fresh] at hc
      rw [hc] at ha; exact absurd ha (by simp)
    | registerMany os =>
      simp only [step, List.nodup_append]
      refine ⟨ih, hc.1, ?_⟩
      rintro a ha b hb rfl
      have := hc.2 a hb
      rw [mem_run, this] at ha; exact absurd ha (by simp)
    | unregister o => exact ih.filter _
    | clear => exact List.nodup_nil
    | _ => exact ih

theorem collideObjLoop_eq {σ : Type*} (cb : CB σ O) (q : O) (l : List O) (s : σ) :
    collideObjLoop cb q l s = runUntil cb s (l.map (fun o => (q, o))) := by
  induction l generalizing s with
  | nil => rfl
  | cons o l ih => simp only [collideObjLoop, List.map_cons, runUntil, ih]

theorem collideInner_eq {σ : Type*} (w : O → AABB K) (cb : CB σ O) (a : O) (l : List O) (s : σ) :
    collideInner w cb a l s =
      runUntil cb s ((l.filter (fun b => (w a).overlap (w b))).map (fun b => (a, b))) := by
  induction l generalizing s with
  | nil => rfl
  | cons o l ih =>
    cases h : (w a).overlap (w o) with
    | true => simp [collideInner, h, runUntil, ih]
    | false => simp [collideInner, h, ih]

theorem selfLoop_eq {σ : Type*} (w : O → AABB K) (cb : CB σ O) (l : List O) (s : σ) :
    selfLoop w cb l s =
      runUntil cb s ((pairsUp l).filter (fun p => (w p.1).overlap (w p.2))) := by
  induction l generalizing s with
  | nil => rfl
  | cons o l ih =>
    simp only [selfLoop, pairsUp, List.filter_append, runUntil_append, collideInner_eq, List.filter_map,
      Function.comp_def]
    congr 1
    funext s
    exact ih s

theorem crossLoop_eq {σ : Type*} (w : O → AABB K) (cb : CB σ O) (m l : List O) (s : σ) :
    crossLoop w cb m l s =
      runUntil cb s ((l.product m).filter (fun p => (w p.1).overlap (w p.2))) := by
  induction l generalizing s with
  | nil => rfl
  | cons o l ih =>
    simp only [crossLoop, product_cons', List.filter_append, runUntil_append, collideInner_eq,
      List.filter_map, Function.comp_def]
    congr 1
    funext s
    exact ih s

section dist
variable {σ : Type*} {dist : AABB K → AABB K → K} {w : O → AABB K} {cb : DCB σ K O}
  {P : σ → K → Prop}

theorem distObjLoop_covers (hcb : cb.NonInc P) (q : O) (l : List O) :
    Covers P cb (fun p : O × O => dist (w p.1) (w p.2)) id (l.map (fun o => (q, o)))
      (distObjLoop dist w cb q l) := by
  induction l with
  | nil => exact Covers.nil
  | cons o l ih =>
    have h1 := Covers.skip (P := P) (cb := cb) (lb := fun p : O × O => dist (w p.1) (w p.2)) (obj := id)
      (dist (w q) (w o)) (Covers.one (q, o)) (by simp)
    refine (funext fun s => funext fun md => ?_ : _ = distObjLoop dist w cb q (o :: l)) ▸ (h1.seq hcb ih)
    by_cases hd : dist (w q) (w o) < md
    · simp [distObjLoop, hd]
    · simp [distObjLoop, hd]

theorem selfDistLoop_covers (hcb : cb.NonInc P) (l : List O) :
    Covers P cb (fun p : O × O => dist (w p.1) (w p.2)) id (pairsUp l)
      (selfDistLoop dist w cb l) := by
  induction l with
  | nil => exact Covers.nil
  | cons o l ih => exact (distObjLoop_covers hcb o l).seq hcb ih

theorem crossDistLoop_covers (hcb : cb.NonInc P) (m l : List O) :
    Covers P cb (fun p : O × O => dist (w p.1) (w p.2)) id (l.product m)
      (crossDistLoop dist w cb m l) := by
  induction l with
  | nil => exact Covers.nil
  | cons o l ih => exact (distObjLoop_covers hcb o m).seq hcb ih
end dist

end Naive

open Naive
variable {K O : Type*} [LinearOrder K] [DecidableEq O]

/-- C12, contents: after any history of calls the manager lists exactly the registered objects (each once
when the client registers no object twice), `size` is the length of the list and `empty` says whether it
is empty. -/
theorem C12_objects (h : List (MgrOp O)) :
    (∀ o, o ∈ (run h).getObjects ↔ registered o h = true) ∧
    (FreshHistory h → (run h).getObjects.Nodup) ∧
    (run h).size = (run h).getObjects.length ∧
    ((run h).isEmpty = true ↔ ∀ o, registered o h = false) := by
  refine ⟨mem_run h, nodup_run, rfl, ?_⟩
  unfold isEmpty
  rw [List.isEmpty_iff]
  constructor
  · intro he o
    have := (mem_run h o).not
    rw [he] at this
    simpa using this
  · intro ha
    rw [List.eq_nil_iff_forall_not_mem]
    intro o ho
    rw [mem_run, ha o] at ho
    exact absurd ho (by simp)

/-- Non-vacuity: a history of correct calls with three objects left at the end. -/
example : FreshHistory [.registerMany [1, 2, 3], .unregister 2, .register (4 : ℕ)] ∧
    (run [.registerMany [1, 2, 3], .unregister 2, .register (4 : ℕ)]).getObjects = [1, 3, 4] := by
  refine ⟨?_, by decide⟩
  refine .snoc (h := [.registerMany [1, 2, 3], .unregister 2]) (.snoc (h := [.registerMany [1, 2, 3]])
    (.snoc (h := []) .nil ⟨by decide, by decide⟩) trivial) (show registered 4 _ = false by decide)

/-- C12, `collide(obj)`: every registered object is paired with the query object (query first), in the
order of `getObjects`, until the callback says stop. (This manager does not filter by boxes here.) -/
theorem C12_collide_object {σ : Type*} (m : Naive O) (cb : CB σ O) (q : O) (s : σ) :
    m.collideObj cb q s = (runUntil cb s (m.getObjects.map (fun o => (q, o)))).1 := by
  unfold collideObj getObjects
  cases ho : m.objs with
  | nil => rfl
  | cons a l => rw [← ho, collideObjLoop_eq]; simp [ho]

/-- C13 for the brute force manager: every registered object is reported, whatever the boxes. -/
theorem C13_naive (h : List (MgrOp O)) (q : O) :
    ∃ l : List O, (∀ o, registered o h = true → o ∈ l) ∧
      ∀ {σ : Type*} (cb : CB σ O) (s : σ),
        (run h).collideObj cb q s = (runUntil cb s (l.map (fun o => (q, o)))).1 :=
  ⟨(run h).getObjects, fun o ho => (mem_run h o).2 ho, fun cb s => C12_collide_object _ cb q s⟩

/-- C12, self-collide: exactly the pairs of listed objects with overlapping boxes, each unordered pair
once, until the callback says stop. -/
theorem C12_collide_self {σ : Type*} (w : O → AABB K) (m : Naive O) (cb : CB σ O) (s : σ) :
    m.collideSelf w cb s =
      (runUntil cb s ((pairsUp m.getObjects).filter (fun p => (w p.1).overlap (w p.2)))).1 := by
  unfold collideSelf getObjects
  cases ho : m.objs with
  | nil => rfl
  | cons a l => rw [← ho, selfLoop_eq]; simp [ho]

/-- C12, manager against manager: exactly the pairs (own object, other's object) with overlapping boxes,
each once, until the callback says stop. -/
theorem C12_collide_managers {σ : Type*} (w : O → AABB K) (m m' : Naive O) (cb : CB σ O) (s : σ) :
    m.collideOther w m' cb s =
      (runUntil cb s ((m.getObjects.product m'.getObjects).filter
        (fun p => (w p.1).overlap (w p.2)))).1 := by
  unfold collideOther getObjects
  by_cases h1 : m.objs.length = 0
  · rw [List.length_eq_zero_iff] at h1; simp [h1, List.product]
  by_cases h2 : m'.objs.length = 0
  · rw [List.length_eq_zero_iff] at h2; simp [h2, product_nil_right]
  rw [if_neg (by simp only [not_or]; exact ⟨h1, h2⟩), crossLoop_eq]

/-- C12, `distance(obj)`: for a callback that tracks the minimum of `d`, where `d` is never smaller than
the box distance, the final bound is the minimum of `d` over all registered objects. -/
theorem C12_distance_object {σ : Type*} (dist : AABB K → AABB K → K) (big : K) (w : O → AABB K)
    (m : Naive O) (q : O) (d : O → O → K) (cb : DCB σ K O)
    (P : σ → K → Prop) (hd : ∀ o ∈ m.getObjects, dist (w q) (w o) ≤ d q o)
    (hcb : cb.Tracks P d (m.getObjects.map (fun o => (q, o)))) (s : σ) (hP : P s big) :
    (m.distanceObj dist big w cb q s).2.1 = minDist d big (m.getObjects.map (fun o => (q, o))) := by
  unfold distanceObj
  split
  · rename_i h; rw [List.length_eq_zero_iff] at h; simp [getObjects, h, minDist]
  · rw [(distObjLoop_covers (dist := dist) (w := w) hcb.nonInc q m.objs).minimum (d := d) ?_ ?_ hP]
    · simp [getObjects]
    · rw [List.map_id]; exact hcb
    · intro p hp; obtain ⟨o, ho, rfl⟩ := List.mem_map.1 hp; exact hd o ho

/-- C12, self-distance. -/
theorem C12_distance_self {σ : Type*} (dist : AABB K → AABB K → K) (big : K) (w : O → AABB K)
    (m : Naive O) (d : O → O → K) (cb : DCB σ K O)
    (P : σ → K → Prop) (hd : ∀ p ∈ pairsUp m.getObjects, dist (w p.1) (w p.2) ≤ d p.1 p.2)
    (hcb : cb.Tracks P d (pairsUp m.getObjects)) (s : σ) (hP : P s big) :
    (m.distanceSelf dist big w cb s).2.1 = minDist d big (pairsUp m.getObjects) := by
  unfold distanceSelf
  split
  · rename_i h; rw [List.length_eq_zero_iff] at h; simp [getObjects, h, minDist, pairsUp]
  · rw [(selfDistLoop_covers (dist := dist) (w := w) hcb.nonInc m.objs).minimum (d := d) ?_ ?_ hP]
    · simp [getObjects]
    · rw [List.map_id]; exact hcb
    · exact hd

/-- C12, manager-manager distance. -/
theorem C12_distance_managers {σ : Type*} (dist : AABB K → AABB K → K) (big : K) (w : O → AABB K)
    (m m' : Naive O) (d : O → O → K) (cb : DCB σ K O)
    (P : σ → K → Prop) (hd : ∀ p ∈ m.getObjects.product m'.getObjects, dist (w p.1) (w p.2) ≤ d p.1 p.2)
    (hcb : cb.Tracks P d (m.getObjects.product m'.getObjects)) (s : σ) (hP : P s big) :
    (m.distanceOther dist big w m' cb s).2.1 = minDist d big (m.getObjects.product m'.getObjects) := by
  unfold distanceOther
  split
  · rename_i h
    rcases h with h | h <;> rw [List.length_eq_zero_iff] at h <;>
      simp [getObjects, h, minDist, product_nil_right, product_nil_left]
  · rw [(crossDistLoop_covers (dist := dist) (w := w) hcb.nonInc m'.objs m.objs).minimum (d := d) ?_ ?_ hP]
    · simp [getObjects]
    · rw [List.map_id]; exact hcb
    · intro p hp; exact hd p hp

namespace NaiveExample
/-- A callback that tracks the minimum of `d` (with integers as distances), and never stops. -/
def track (d : ℕ → ℕ → ℤ) : DCB Unit ℤ ℕ := fun _ md a b => ((), min md (d a b), false)

theorem track_tracks (d : ℕ → ℕ → ℤ) (ps : List (ℕ × ℕ)) : (track d).Tracks (fun _ _ => True) d ps :=
  fun _ _ _ _ _ => ⟨trivial, rfl, by simp [track]⟩

/-- The hypotheses of the distance theorems are met: boxes at distinct places, a pruning distance, and
the minimum is attained by a pair that is not the first one visited. -/
example : ((Naive.mk [1, 2, 4, 9]).distanceSelf (fun a b => max 0 (max (b.lo.x - a.hi.x) (a.lo.x - b.hi.x)))
    100 (fun n : ℕ => (⟨⟨3 * n * n, 0, 0⟩, ⟨3 * n * n + 1, 1, 1⟩⟩ : AABB ℤ))
    (track (fun a b => |3 * (a * a : ℤ) - 3 * (b * b)|)) ()).2.1 = 9 := by
  refine (C12_distance_self _ _ _ _ (fun a b : ℕ => |3 * (a * a : ℤ) - 3 * (b * b)|) _
    (fun _ _ => True) ?_ ?_ _ trivial).trans ?_
  · decide
  · exact track_tracks _ _
  · decide
end NaiveExample

end Fcl
