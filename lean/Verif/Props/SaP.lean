import Verif.SaP.Lemmas
import Verif.Base.Callback
import Mathlib.Data.List.Sort

/-!
# The sweep-and-prune manager: C16, C17, C13 and C55 (its parts), C24 and C54 (its parts)

`PHistory h`: `h` is a sequence of public calls on a new manager for which the code has defined behaviour
and keeps its lists in order (`PCall.Good`). `GenHistory h`: in addition objects are registered as one
batch and no two boxes have ends at the same coordinate (`PCall.General`). `SaP.run` executes a history;
`none` is undefined behaviour or a corrupted list. `lastBox o h` is the box of `o` the manager was last
told about. `approx` is `AABB::equal`; the theorems assume that it is true for equal boxes only (exact
comparison).
-/

set_option linter.unusedSectionVars false

namespace Fcl
open SaP
variable {K O : Type*} [LinearOrder K] [LinearOrder O]

namespace SaPExample
/-- A sorting function. -/
def srt (f : EP ℕ → ℤ) (l : List (EP ℕ)) : List (EP ℕ) := l.insertionSort (fun a b => f a ≤ f b)

theorem srt_lawful : LawfulSortE srt := by
  intro f l
  haveI : Std.Total (fun a b : EP ℕ => f a ≤ f b) := ⟨fun a b => le_total _ _⟩
  haveI : IsTrans (EP ℕ) (fun a b : EP ℕ => f a ≤ f b) := ⟨fun a b c h h' => le_trans h h'⟩
  exact ⟨List.perm_insertionSort _ _, List.pairwise_insertionSort _ _⟩

/-- The cube from `a` to `b` on every axis. -/
def cube (a b : ℤ) : AABB ℤ := ⟨⟨a, a, a⟩, ⟨b, b, b⟩⟩

theorem cube_lo (a b : ℤ) (c : Fin 3) : (cube a b).lo.get c = a := by fin_cases c <;> rfl
theorem cube_hi (a b : ℤ) (c : Fin 3) : (cube a b).hi.get c = b := by fin_cases c <;> rfl
theorem cube_solid {a b : ℤ} (h : a < b) : (cube a b).Solid := fun c => by rw [cube_lo, cube_hi]; exact h
theorem cube_apart {a b c d : ℤ} (h : a ≠ c ∧ a ≠ d ∧ b ≠ c ∧ b ≠ d) : (cube a b).Apart (cube c d) :=
  fun k => by rw [cube_lo, cube_lo, cube_hi, cube_hi]; exact h

/-- A comparison that is exact. -/
def same (a b : AABB ℤ) : Bool :=
  decide (a.lo.x = b.lo.x ∧ a.lo.y = b.lo.y ∧ a.lo.z = b.lo.z ∧ a.hi.x = b.hi.x ∧ a.hi.y = b.hi.y ∧ a.hi.z = b.hi.z)

theorem same_exact (a b : AABB ℤ) (h : same a b = true) : a = b := by
  obtain ⟨⟨_, _, _⟩, ⟨_, _, _⟩⟩ := a
  obtain ⟨⟨_, _, _⟩, ⟨_, _, _⟩⟩ := b
  simp only [same, decide_eq_true_eq] at h
  obtain ⟨h1, h2, h3, h4, h5, h6⟩ := h
  subst h1 h2 h3 h4 h5 h6
  rfl

/-- A call on the example manager. -/
def call (op : MgrOp ℕ) (w : ℕ → AABB ℤ) : PCall ℤ ℕ := ⟨op, w, srt, 0, 0, true⟩

/-- Object 1 is nested in object 0, object 2 is away. -/
def w0 : ℕ → AABB ℤ
  | 0 => cube 0 10
  | 1 => cube 2 3
  | _ => cube 20 30
/-- Then object 2 comes to overlap object 0. -/
def w1 : ℕ → AABB ℤ
  | 0 => cube 0 10
  | 1 => cube 2 3
  | _ => cube 5 15

def hist : List (PCall ℤ ℕ) := [call (.registerMany [0, 1, 2]) w0, call .update w1]

theorem last0 (o : ℕ) : lastBox o [call (.registerMany [0, 1, 2]) w0] = if o ∈ [0, 1, 2] then some (w0 o) else none := rfl

theorem hist_ok : GenHistory hist := by
  refine .snoc (h := [call (.registerMany [0, 1, 2]) w0]) (.snoc (h := []) .nil ?_ ?_) ?_ ?_
  · refine ⟨⟨by decide, ?_, srt_lawful⟩, fun o b hu => hu.elim⟩
    intro o ho
    refine ⟨fun h => h rfl, ?_⟩
    simp only [List.mem_cons, List.not_mem_nil, or_false] at ho
    rcases ho with rfl | rfl | rfl <;> exact ⟨by decide, by decide, by decide⟩
  · refine ⟨⟨fun p h => h rfl, ?_, ?_⟩, ?_⟩
    · intro o ho
      simp only [List.mem_cons, List.not_mem_nil, or_false] at ho
      rcases ho with rfl | rfl | rfl <;> exact cube_solid (by decide)
    · intro o ho p hp hne
      simp only [List.mem_cons, List.not_mem_nil, or_false] at ho hp
      rcases ho with rfl | rfl | rfl <;> rcases hp with rfl | rfl | rfl <;>
        first | exact absurd rfl hne | exact cube_apart (by decide)
    · intro o p b b' _ hb _
      rcases hb with h | ⟨h, -⟩
      · cases h
      · exact h.elim
  · refine ⟨trivial, ?_⟩
    intro o b _ hb
    rw [last0] at hb
    split at hb
    · next ho =>
      obtain rfl := Option.some.inj hb
      simp only [List.mem_cons, List.not_mem_nil, or_false] at ho
      rcases ho with rfl | rfl | rfl
      · exact ⟨cube_solid (by decide), cube_solid (by decide), fun c => Or.inr (Or.inr ⟨rfl, rfl⟩)⟩
      · exact ⟨cube_solid (by decide), cube_solid (by decide), fun c => Or.inr (Or.inr ⟨rfl, rfl⟩)⟩
      · refine ⟨cube_solid (by decide), cube_solid (by decide), fun c => Or.inl ?_⟩
        show (cube 5 15).lo.get c < (cube 20 30).lo.get c ∧ (cube 5 15).hi.get c < (cube 20 30).hi.get c
        rw [cube_lo, cube_lo, cube_hi, cube_hi]; decide
    · cases hb
  · refine ⟨trivial, ?_⟩
    intro o p b b' hne hb hb'
    have key : ∀ (q : ℕ) (x : AABB ℤ), (lastBox q [call (.registerMany [0, 1, 2]) w0] = some x ∨
        (call .update w1).Updates q ∧ InMgr q [call (.registerMany [0, 1, 2]) w0] ∧ x = (call .update w1).w q) →
        (q = 0 ∧ x = cube 0 10) ∨ (q = 1 ∧ x = cube 2 3) ∨ (q = 2 ∧ (x = cube 20 30 ∨ x = cube 5 15)) := by
      intro q x hx
      have hq : q ∈ [0, 1, 2] := by
        by_contra hq
        rcases hx with h | ⟨-, h, -⟩
        · rw [last0, if_neg hq] at h; cases h
        · exact h (by rw [last0, if_neg hq])
      have hx' : x = w0 q ∨ x = w1 q := by
        rcases hx with h | ⟨-, -, h⟩
        · rw [last0, if_pos hq] at h; exact Or.inl (Option.some.inj h).symm
        · exact Or.inr h
      simp only [List.mem_cons, List.not_mem_nil, or_false] at hq
      rcases hq with rfl | rfl | rfl
      · exact Or.inl ⟨rfl, hx'.elim id id⟩
      · exact Or.inr (Or.inl ⟨rfl, hx'.elim id id⟩)
      · exact Or.inr (Or.inr ⟨rfl, hx'⟩)
    rcases key o b hb with ⟨rfl, rfl⟩ | ⟨rfl, rfl⟩ | ⟨rfl, rfl | rfl⟩ <;>
      rcases key p b' hb' with ⟨rfl, rfl⟩ | ⟨rfl, rfl⟩ | ⟨rfl, rfl | rfl⟩ <;>
      first | exact absurd rfl hne | exact cube_apart (by decide)

theorem hist_current : LastCurrent hist w1 := by
  intro o b hb
  have : lastBox o hist = (lastBox o [call (.registerMany [0, 1, 2]) w0]).map (fun _ => w1 o) := rfl
  rw [this] at hb
  cases h : lastBox o [call (.registerMany [0, 1, 2]) w0] with
  | none => rw [h] at hb; cases hb
  | some x => rw [h] at hb; exact (Option.some.inj hb).symm

end SaPExample

/-! ## C16 -/

/-- C16, what holds: when the objects were registered as one batch (or one object alone), their boxes have
positive extents and are only translated, and no two boxes ever have ends at the same coordinate, then
after every such history the pairs reported by `collide(cdata, callback)` are exactly the pairs of
registered objects with overlapping boxes, each once, until the callback says stop.

Missing from the full statement: single registration into a manager that is not empty, touching boxes and
other equal coordinates, boxes that grow, shrink or rotate. There the statement is false
(`C16_violated_nested`, `C16_violated_twice`, `C16_violated_touching`, `C16_violated_grow`). -/
theorem C16_pairs_partial.{v} {approx : AABB K → AABB K → Bool} (hap : ∀ a b, approx a b = true → a = b)
    (b0 : AABB K) {h : List (PCall K O)} (hh : GenHistory h) {w : O → AABB K} (hw : LastCurrent h w) :
    ∃ m, run approx b0 h = some m ∧ ∃ l : List (O × O), l.Nodup ∧
      (∀ a b, (a, b) ∈ l ↔ InMgr a h ∧ InMgr b h ∧ a < b ∧ (w a).overlap (w b) = true) ∧
      ∀ (σ : Type v) (cb : CB σ O) (s : σ), m.collideSelf cb s = (runUntil cb s l).1 := by
  obtain ⟨m, hm, ha, hex, -⟩ := run_exact hap b0 hh
  refine ⟨m, hm, m.pairs, hex.nodup, ?_, ?_⟩
  · intro a b
    rw [hex.mem, ha.arr, ha.arr]
    constructor
    · rintro ⟨h1, h2, h3, h4⟩
      obtain ⟨x, hx⟩ := lastBox_of_mem h1
      obtain ⟨y, hy⟩ := lastBox_of_mem h2
      rw [ha.cached a x hx, ha.cached b y hy, hw a x hx, hw b y hy] at h4
      exact ⟨h1, h2, h3, h4⟩
    · rintro ⟨h1, h2, h3, h4⟩
      obtain ⟨x, hx⟩ := lastBox_of_mem h1
      obtain ⟨y, hy⟩ := lastBox_of_mem h2
      rw [ha.cached a x hx, ha.cached b y hy, hw a x hx, hw b y hy]
      exact ⟨h1, h2, h3, h4⟩
  · intro σ cb s
    unfold collideSelf
    split
    · next h0 =>
      have harr : m.arr = [] := List.length_eq_zero_iff.1 h0
      have : m.pairs = [] := by
        rw [List.eq_nil_iff_forall_not_mem]
        rintro ⟨a, b⟩ hab
        have := ((hex.mem a b).1 hab).1
        rw [harr] at this; cases this
      rw [this]; rfl
    · rfl

/-- Non-vacuity: three objects, one nested in another; the third is moved to overlap the first. Two of the
three pairs are reported. -/
example : GenHistory SaPExample.hist ∧ LastCurrent SaPExample.hist SaPExample.w1 ∧
    (run SaPExample.same (SaPExample.cube 0 0) SaPExample.hist).map (·.pairs) = some [(0, 1), (0, 2)] :=
  ⟨SaPExample.hist_ok, SaPExample.hist_current, by decide +kernel⟩

/-- C16 fails for nested boxes: object 1 is registered after object 0 and lies inside it; the overlapping
pair is never reported. -/
theorem C16_violated_nested :
    ∃ (h : List (PCall ℤ ℕ)) (m : SaP ℤ ℕ), PHistory h ∧ LastCurrent h SaPExample.w0 ∧
      (∀ o, InMgr o h ↔ o = 0 ∨ o = 1) ∧ run SaPExample.same (SaPExample.cube 0 0) h = some m ∧
      (SaPExample.w0 0).overlap (SaPExample.w0 1) = true ∧
      ∀ (σ : Type) (cb : CB σ ℕ) (s : σ), m.collideSelf cb s = s := by
  set h : List (PCall ℤ ℕ) := [SaPExample.call (.register 0) SaPExample.w0, SaPExample.call (.register 1) SaPExample.w0]
  have hlast : ∀ o, lastBox o h = if o = 1 then some (SaPExample.w0 o) else if o = 0 then some (SaPExample.w0 o) else none :=
    fun o => rfl
  refine ⟨h, ((SaP.empty (SaPExample.cube 0 0)).register SaPExample.w0 0).register SaPExample.w0 1, ?_, ?_, ?_, rfl,
    by decide, ?_⟩
  · refine .snoc (h := [_]) (.snoc (h := []) .nil ⟨⟨fun h => h rfl, by decide, by decide, by decide⟩,
      fun o b hu => hu.elim⟩) ⟨⟨fun h => h rfl, by decide, by decide, by decide⟩, fun o b hu => hu.elim⟩
  · intro o b hb
    rw [hlast] at hb
    split_ifs at hb
    · exact (Option.some.inj hb).symm
    · exact (Option.some.inj hb).symm
  · intro o
    unfold InMgr
    rw [hlast]
    split_ifs <;> simp_all
  · intro σ cb s
    have hp : (((SaP.empty (SaPExample.cube 0 0)).register SaPExample.w0 0).register SaPExample.w0 1).pairs = [] := by
      decide +kernel
    unfold collideSelf
    rw [hp]
    split <;> rfl

/-- Boxes for `C16_violated_twice`: objects 0 and 1 inside object 2. -/
def SaPExample.w2 : ℕ → AABB ℤ
  | 0 => SaPExample.cube 2 3
  | 1 => SaPExample.cube 4 5
  | _ => SaPExample.cube 0 10

/-- C16 fails for the number of reports: an object registered around existing ones is reported with one of
them twice. -/
theorem C16_violated_twice :
    ∃ (h : List (PCall ℤ ℕ)) (m : SaP ℤ ℕ), PHistory h ∧ LastCurrent h SaPExample.w2 ∧
      run SaPExample.same (SaPExample.cube 0 0) h = some m ∧
      m.collideSelf (fun (s : List (ℕ × ℕ)) a b => (s ++ [(a, b)], false)) [] = [(0, 2), (0, 2), (1, 2)] := by
  set h : List (PCall ℤ ℕ) := [SaPExample.call (.register 0) SaPExample.w2, SaPExample.call (.register 1) SaPExample.w2,
    SaPExample.call (.register 2) SaPExample.w2]
  have hlast : ∀ o, lastBox o h = if o = 2 then some (SaPExample.w2 o) else if o = 1 then some (SaPExample.w2 o)
      else if o = 0 then some (SaPExample.w2 o) else none := fun o => rfl
  refine ⟨h, (((SaP.empty (SaPExample.cube 0 0)).register SaPExample.w2 0).register SaPExample.w2 1).register
    SaPExample.w2 2, ?_, ?_, rfl, by decide +kernel⟩
  · refine .snoc (h := [_, _]) (.snoc (h := [_]) (.snoc (h := []) .nil
      ⟨⟨fun h => h rfl, by decide, by decide, by decide⟩, fun o b hu => hu.elim⟩)
      ⟨⟨fun h => h rfl, by decide, by decide, by decide⟩, fun o b hu => hu.elim⟩)
      ⟨⟨fun h => h rfl, by decide, by decide, by decide⟩, fun o b hu => hu.elim⟩
  · intro o b hb
    rw [hlast] at hb
    split_ifs at hb
    all_goals exact (Option.some.inj hb).symm

/-- Boxes for `C16_violated_touching`: object 1 is beside object 0, then touches it. -/
def SaPExample.w3 (x : ℤ) : ℕ → AABB ℤ
  | 0 => ⟨⟨0, 0, 0⟩, ⟨10, 7, 7⟩⟩
  | _ => ⟨⟨x, 1, 1⟩, ⟨x + 10, 8, 8⟩⟩

theorem SaPExample.w3_facts (x : ℤ) (o : ℕ) : (SaPExample.w3 x o).Solid ∧ (SaPExample.w3 x o).Valid := by
  cases o with
  | zero =>
    have h7 : (0 : ℤ) < 7 := by decide
    have h10 : (0 : ℤ) < 10 := by decide
    exact ⟨fun c => by fin_cases c; exacts [h10, h7, h7], h10.le, h7.le, h7.le⟩
  | succ n =>
    constructor
    · intro c
      fin_cases c
      · show x < x + 10; omega
      · show (1 : ℤ) < 8; decide
      · show (1 : ℤ) < 8; decide
    · refine ⟨?_, ?_, ?_⟩
      · show x ≤ x + 10; omega
      · show (1 : ℤ) ≤ 8; decide
      · show (1 : ℤ) ≤ 8; decide

theorem SaPExample.w3_shifted {x y : ℤ} (o : ℕ) : (SaPExample.w3 x o).Shifted (SaPExample.w3 y o) := by
  cases o with
  | zero => exact fun c => Or.inr (Or.inr ⟨rfl, rfl⟩)
  | succ n =>
    intro c
    fin_cases c
    · show (y < x ∧ y + 10 < x + 10) ∨ (x < y ∧ x + 10 < y + 10) ∨ (x = y ∧ x + 10 = y + 10)
      omega
    · exact Or.inr (Or.inr ⟨rfl, rfl⟩)
    · exact Or.inr (Or.inr ⟨rfl, rfl⟩)

/-- C16 fails for equal coordinates: a box is moved until it touches another one. The boxes overlap for
`AABB::overlap`, and for `collide(obj)` of this manager (`C13_sap`), but the pair is not reported. -/
theorem C16_violated_touching :
    ∃ (h : List (PCall ℤ ℕ)) (w : ℕ → AABB ℤ) (m : SaP ℤ ℕ), PHistory h ∧
      LastCurrent h w ∧ (∀ o, InMgr o h ↔ o = 0 ∨ o = 1) ∧ (w 0).overlap (w 1) = true ∧
      run SaPExample.same (SaPExample.cube 0 0) h = some m ∧
      ∀ (σ : Type) (cb : CB σ ℕ) (s : σ), m.collideSelf cb s = s := by
  set h : List (PCall ℤ ℕ) := [SaPExample.call (.registerMany [0, 1]) (SaPExample.w3 (-20)),
    SaPExample.call .update (SaPExample.w3 (-10))]
  have hl0 : ∀ o, lastBox o [SaPExample.call (.registerMany [0, 1]) (SaPExample.w3 (-20))] =
    if o ∈ [0, 1] then some (SaPExample.w3 (-20) o) else none := fun o => rfl
  have hl1 : ∀ o, lastBox o h = (if o ∈ [0, 1] then some (SaPExample.w3 (-20) o) else none).map
    (fun _ => SaPExample.w3 (-10) o) := fun o => rfl
  have hok : PHistory h := by
    refine .snoc (h := [_]) (.snoc (h := []) .nil ?_) ?_
    · refine ⟨⟨by decide, fun o _ => ⟨fun h => h rfl, (SaPExample.w3_facts _ _).2⟩, SaPExample.srt_lawful⟩,
        fun o b hu => hu.elim⟩
    · refine ⟨trivial, ?_⟩
      intro o b _ hb
      rw [hl0] at hb
      split_ifs at hb
      obtain rfl := Option.some.inj hb
      exact ⟨(SaPExample.w3_facts _ _).1, (SaPExample.w3_facts _ _).1, SaPExample.w3_shifted _⟩
  have hex1 : (run SaPExample.same (SaPExample.cube 0 0) h).map (·.pairs) = some [] := by decide +kernel
  obtain ⟨m, hm, hp⟩ := Option.map_eq_some_iff.1 hex1
  refine ⟨h, SaPExample.w3 (-10), m, hok, ?_, ?_, by decide, hm, ?_⟩
  · intro o b hb
    rw [hl1] at hb
    split_ifs at hb
    · exact (Option.some.inj hb).symm
    · cases hb
  · intro o; unfold InMgr; rw [hl1]; split_ifs with h01 <;> simp_all
  · intro σ cb s; unfold collideSelf; rw [hp]; split <;> rfl

/-- C16 fails for boxes that change size: the only object grows on both sides, and `update()` links its
upper end point to itself (`C16_violated_grow_any` is the general case). -/
theorem C16_violated_grow :
    ∃ (h : List (PCall ℤ ℕ)) (w : ℕ → AABB ℤ), PHistory h ∧ (∀ o, (w o).Solid) ∧ InMgr 0 h ∧
      (run SaPExample.same (SaPExample.cube 0 0) h).isSome = true ∧
      (run SaPExample.same (SaPExample.cube 0 0) (h ++ [SaPExample.call .update w])).isSome = false := by
  refine ⟨[SaPExample.call (.register 0) (fun _ => SaPExample.cube 0 1)], fun _ => SaPExample.cube (-1) 2, ?_,
    fun _ => SaPExample.cube_solid (by decide), (fun h => by cases h), rfl, by decide +kernel⟩
  exact .snoc (h := []) .nil ⟨⟨fun h => h rfl, by decide, by decide, by decide⟩, fun o b hu => hu.elim⟩

/-- The same for every manager: `update_` of an object whose lower end on the first axis moves down while
its upper end does not, on lists that are in order, corrupts the list. -/
theorem C16_violated_grow_any {m : SaP K O} (hi : SaP.Inv m) {o : O} (ho : o ∈ m.arr)
    (hsol : (m.cached o).Solid) {w : O → AABB K} {approx : AABB K → AABB K → Bool}
    (hap : ∀ a b, approx a b = true → a = b)
    (h1 : (w o).lo.x < (m.cached o).lo.x) (h2 : (m.cached o).hi.x ≤ (w o).hi.x) :
    update1 approx w m o = none := by
  have hne : ¬ approx (m.cached o) (w o) = true := by
    intro h
    have := hap _ _ h
    rw [this] at h1
    exact lt_irrefl _ h1
  have hdown : updateCoord o (w o) m 0 = none := by
    unfold updateCoord
    have : updateAxis 0 o (w o) ⟨m.elist 0, m.cached, m.pairs⟩ = none := by
      unfold updateAxis
      rw [if_pos (show (m.cached o).lo.get 0 > (w o).lo.get 0 from h1)]
      rw [downLo_eq (s := ⟨m.elist 0, m.cached, m.pairs⟩) (hi.enodup 0) ((hi.mem 0 _).2 ho) ((hi.mem 0 _).2 ho)
        (hi.sorted 0) (hsol 0), Option.bind_some]
      unfold downHi
      simp only
      rw [if_pos]
      rw [val_setLo, if_neg (by simp)]
      exact not_lt.2 h2
    rw [this]; rfl
  unfold update1
  rw [if_neg (not_not.2 ho), if_neg hne, List.foldlM_cons, hdown]
  rfl

/-- `unregisterObject` uses the list node it has just freed: when that memory does not survive, there is no
defined result, on any manager and for any object. -/
theorem C16_violated_unregister (m : SaP K O) (o : O) : m.unregister false o = none := by
  unfold unregister; rw [if_pos (Or.inr rfl)]

/-! ## C17 -/

/-- C17 fails: `empty()` is true exactly when there are registered objects. -/
theorem C17_violated {approx : AABB K → AABB K → Bool} (hap : ∀ a b, approx a b = true → a = b)
    (b0 : AABB K) {h : List (PCall K O)} (hh : PHistory h) :
    ∃ m, run approx b0 h = some m ∧ (m.isEmpty = true ↔ m.size ≠ 0) ∧ (m.isEmpty = true ↔ ∃ o, InMgr o h) := by
  obtain ⟨m, hm, ha⟩ := run_agrees hap b0 hh
  refine ⟨m, hm, by simp [isEmpty, size], ?_⟩
  simp only [isEmpty, decide_eq_true_eq]
  rw [ne_eq, List.length_eq_zero_iff]
  constructor
  · intro h
    obtain ⟨o, ho⟩ := List.exists_mem_of_ne_nil _ h
    exact ⟨o, (ha.arr o).1 ho⟩
  · rintro ⟨o, ho⟩
    exact List.ne_nil_of_mem ((ha.arr o).2 ho)

/-- C17, what holds, and C54 for this manager: `getObjects` lists exactly the registered objects, each
once, and `size` is their number. -/
theorem C17_size_partial {approx : AABB K → AABB K → Bool} (hap : ∀ a b, approx a b = true → a = b)
    (b0 : AABB K) {h : List (PCall K O)} (hh : PHistory h) :
    ∃ m, run approx b0 h = some m ∧ (∀ o, o ∈ m.getObjects ↔ InMgr o h) ∧ m.getObjects.Nodup ∧
      m.size = m.getObjects.length ∧ (m.size = 0 ↔ ∀ o, ¬ InMgr o h) := by
  obtain ⟨m, hm, ha⟩ := run_agrees hap b0 hh
  refine ⟨m, hm, ha.arr, ha.inv.nodup, rfl, ?_⟩
  rw [size, List.length_eq_zero_iff, List.eq_nil_iff_forall_not_mem]
  exact ⟨fun h o ho => h o ((ha.arr o).2 ho), fun h o ho => h o ((ha.arr o).1 ho)⟩

/-- Non-vacuity: after the example history three objects are registered and `empty()` returns true. -/
example : (run SaPExample.same (SaPExample.cube 0 0) SaPExample.hist).map (fun m => (m.size, m.isEmpty)) =
    some (3, true) := by decide +kernel

/-! ## C13, C55 and C24 -/

theorem SaP.upTo_eq_filter {f : EP O → K} {v : K} {l : List (EP O)} (hs : Srt f l) :
    upTo f v l = l.filter (fun e => decide (f e ≤ v)) := by
  induction l with
  | nil => rfl
  | cons a l ih =>
    obtain ⟨h1, h2⟩ := List.pairwise_cons.1 hs
    have ih := ih h2
    unfold upTo at ih ⊢
    by_cases ha : f a ≤ v
    · simp only [List.takeWhile_cons, List.filter_cons, decide_eq_true ha, if_true, ih]
    · simp only [List.takeWhile_cons, List.filter_cons, decide_eq_false ha, Bool.false_eq_true, if_false]
      symm
      rw [List.filter_eq_nil_iff]
      intro b hb hv
      exact ha ((h1 b hb).trans (of_decide_eq_true hv))

theorem SaP.checkColl_eq {σ : Type*} (cached : O → AABB K) (ax : Fin 3) (b : AABB K) (cb : CB σ O) (q : O)
    (l : List (EP O)) (s : σ) :
    checkColl cached ax b cb q l s = runUntil cb s ((l.filter (fun e => decide (e.obj ≠ q) && !e.hi &&
      (cached e.obj).overlap b)).map (fun e => (q, e.obj))) := by
  induction l generalizing s with
  | nil => rfl
  | cons e l ih =>
    unfold checkColl
    by_cases h1 : e.obj = q
    · simp [h1, ih]
    · rw [if_pos h1]
      cases hh : e.hi
      · by_cases h3 : (cached e.obj).overlap b = true
        · have h2 : (cached e.obj).hi.get ax ≥ b.lo.get ax := ((overlap_iff_ov _ _).1 h3 ax).2
          rw [if_pos ⟨rfl, h2⟩, if_pos h3]
          simp only [List.filter_cons, hh, h3, decide_eq_true (show e.obj ≠ q from h1), Bool.not_false, Bool.and_self,
            if_true, List.map_cons, runUntil]
          split
          · rfl
          · exact ih _
        · simp only [List.filter_cons, h3, Bool.and_false, Bool.false_eq_true, if_false]
          split <;> exact ih _
      · simp [hh, ih]

/-- `collide_` reports exactly the overlapping registered objects. -/
theorem SaP.collideQ_spec.{v} {m : SaP K O} (hi : SaP.Inv m) (hf : m.fresh = true) (w : O → AABB K) (q : O) :
    ∃ l : List O, l.Nodup ∧ (∀ o, o ∈ l ↔ o ∈ m.arr ∧ o ≠ q ∧ (m.cached o).overlap (w q) = true) ∧
      ∀ (σ : Type v) (cb : CB σ O) (s : σ),
        m.collideQ w cb q s = some (runUntil cb s (l.map (fun o => (q, o)))) := by
  set L := (upTo (val m.cached m.axis) ((w q).hi.get m.axis) (m.elist m.axis)).filter
    (fun e => decide (e.obj ≠ q) && !e.hi && (m.cached e.obj).overlap (w q)) with hL
  have hmem : ∀ e, e ∈ L ↔ e.obj ∈ m.arr ∧ e.obj ≠ q ∧ e.hi = false ∧ (m.cached e.obj).overlap (w q) = true := by
    intro e
    rw [hL, List.mem_filter, upTo_eq_filter (hi.sorted _), List.mem_filter, hi.mem]
    simp only [decide_eq_true_eq, Bool.and_eq_true, Bool.not_eq_eq_eq_not, Bool.not_true]
    constructor
    · rintro ⟨⟨h1, h2⟩, ⟨h3, h4⟩, h5⟩
      exact ⟨h1, h3, h4, h5⟩
    · rintro ⟨h1, h2, h3, h4⟩
      refine ⟨⟨h1, ?_⟩, ⟨h2, h3⟩, h4⟩
      unfold val
      rw [h3]
      simp only [Bool.false_eq_true, if_false]
      exact ((overlap_iff_ov _ _).1 h4 _).1
  refine ⟨L.map (·.obj), ?_, ?_, ?_⟩
  · refine List.Nodup.map_on ?_ ?_
    · intro a ha b hb hab
      have h1 := ((hmem a).1 ha).2.2.1
      have h2 := ((hmem b).1 hb).2.2.1
      cases a; cases b
      simp_all
    · rw [hL]
      exact List.Nodup.filter _ ((hi.enodup _).sublist (List.takeWhile_sublist _))
  · intro o
    rw [List.mem_map]
    constructor
    · rintro ⟨e, he, rfl⟩
      obtain ⟨h1, h2, -, h4⟩ := (hmem e).1 he
      exact ⟨h1, h2, h4⟩
    · rintro ⟨h1, h2, h3⟩
      exact ⟨⟨o, false⟩, (hmem _).2 ⟨h1, h2, rfl, h3⟩, rfl⟩
  · intro σ cb s
    unfold collideQ
    rw [if_pos hf, checkColl_eq, ← hL, List.map_map]
    rfl

/-- C13 for this manager: after a history in which boxes were only translated (single registrations,
batches, equal coordinates allowed), and not directly after an object has been unregistered,
`collide(obj)` calls back exactly the registered objects other than the query object whose box overlaps the
query box, each once, until the callback says stop. -/
theorem C13_sap.{v} {approx : AABB K → AABB K → Bool} (hap : ∀ a b, approx a b = true → a = b)
    (b0 : AABB K) {h : List (PCall K O)} (hh : PHistory h) {w : O → AABB K} (hw : LastCurrent h w)
    (hr : removedLast h = false) (q : O) :
    ∃ m, run approx b0 h = some m ∧ ∃ l : List O, l.Nodup ∧
      (∀ o, o ∈ l ↔ InMgr o h ∧ o ≠ q ∧ (w o).overlap (w q) = true) ∧
      ∀ (σ : Type v) (cb : CB σ O) (s : σ),
        m.collideObj w cb q s = some (runUntil cb s (l.map (fun o => (q, o)))).1 := by
  obtain ⟨m, hm, ha⟩ := run_agrees hap b0 hh
  obtain ⟨l, l1, l2, l3⟩ := collideQ_spec.{_, _, v} ha.inv (ha.fresh hr) w q
  refine ⟨m, hm, l, l1, ?_, ?_⟩
  · intro o
    rw [l2, ha.arr]
    constructor
    · rintro ⟨h1, h2, h3⟩
      obtain ⟨x, hx⟩ := lastBox_of_mem h1
      rw [ha.cached o x hx, hw o x hx] at h3
      exact ⟨h1, h2, h3⟩
    · rintro ⟨h1, h2, h3⟩
      obtain ⟨x, hx⟩ := lastBox_of_mem h1
      rw [ha.cached o x hx, hw o x hx]
      exact ⟨h1, h2, h3⟩
  · intro σ cb s
    unfold collideObj
    split
    · next h0 =>
      have harr : m.arr = [] := List.length_eq_zero_iff.1 h0
      have : l = [] := by
        rw [List.eq_nil_iff_forall_not_mem]
        intro o ho
        have := ((l2 o).1 ho).1
        rw [harr] at this; cases this
      rw [this]; rfl
    · rw [l3]; rfl

/-- Non-vacuity: the example history and query object 2, whose box overlaps that of object 0. -/
example : PHistory SaPExample.hist ∧ LastCurrent SaPExample.hist SaPExample.w1 ∧
    removedLast SaPExample.hist = false ∧ InMgr 0 SaPExample.hist ∧
    (SaPExample.w1 0).overlap (SaPExample.w1 2) = true :=
  ⟨GenHistory.good SaPExample.hist_ok, SaPExample.hist_current, rfl, (fun h => by cases h), by decide⟩

/-- Directly after an object has been unregistered `collide(obj)` searches the deleted end points: there is
no defined result unless the manager is empty. -/
theorem C13_sap_violated_unregister {m m' : SaP K O} {o : O} (hm : m.unregister true o = some m')
    (hne : m'.size ≠ 0) {σ : Type*} (w : O → AABB K) (cb : CB σ O) (q : O) (s : σ) :
    m'.collideObj w cb q s = none := by
  unfold unregister at hm
  split at hm
  · cases hm
  · split at hm
    · cases hm
    · obtain rfl := Option.some.inj hm
      unfold collideObj collideQ
      rw [if_neg hne]
      rfl

/-- Non-vacuity: one of the three objects of the example is unregistered; two are left. -/
example : ((run SaPExample.same (SaPExample.cube 0 0) SaPExample.hist).bind
    (fun m => m.unregister true 1)).map (·.size) = some 2 := by decide +kernel

theorem SaP.collideEach_spec.{v} {m : SaP K O} (hi : SaP.Inv m) (hf : m.fresh = true) (w : O → AABB K) (os : List O)
    (hn : os.Nodup) :
    ∃ ps : List (O × O), ps.Nodup ∧ (∀ a b, (a, b) ∈ ps ↔ a ∈ os ∧ b ∈ m.arr ∧ b ≠ a ∧
        (m.cached b).overlap (w a) = true) ∧
      ∀ (σ : Type v) (cb : CB σ O) (s : σ), m.collideEach w cb os s = some (runUntil cb s ps) := by
  induction os with
  | nil => exact ⟨[], List.nodup_nil, by simp, fun _ _ _ => rfl⟩
  | cons q os ih =>
    obtain ⟨hq, hn'⟩ := List.nodup_cons.1 hn
    obtain ⟨ps, p1, p2, p3⟩ := ih hn'
    obtain ⟨l, l1, l2, l3⟩ := collideQ_spec.{_, _, v} hi hf w q
    refine ⟨l.map (fun o => (q, o)) ++ ps, ?_, ?_, ?_⟩
    · rw [List.nodup_append]
      refine ⟨l1.map (fun a b h => by simpa using h), p1, ?_⟩
      rintro ⟨a, b⟩ hab ⟨c, d⟩ hcd heq
      obtain ⟨x, -, hx⟩ := List.mem_map.1 hab
      have h1 := ((p2 c d).1 hcd).1
      simp only [Prod.mk.injEq] at hx heq
      rw [← heq.1, ← hx.1] at h1
      exact hq h1
    · intro a b
      rw [List.mem_append, p2, List.mem_map]
      constructor
      · rintro (⟨x, hx, he⟩ | ⟨h1, h2⟩)
        · simp only [Prod.mk.injEq] at he
          obtain ⟨rfl, rfl⟩ := he
          obtain ⟨i1, i2, i3⟩ := (l2 _).1 hx
          exact ⟨List.mem_cons_self, i1, i2, i3⟩
        · exact ⟨List.mem_cons_of_mem _ h1, h2⟩
      · rintro ⟨h1, h2⟩
        rcases List.mem_cons.1 h1 with rfl | h1
        · exact Or.inl ⟨b, (l2 b).2 h2, rfl⟩
        · exact Or.inr ⟨h1, h2⟩
    · intro σ cb s
      rw [collideEach, l3, runUntil_append]
      simp only
      cases hc : (runUntil cb s (l.map (fun o => (q, o)))).2
      · simp only [Bool.false_eq_true, if_false]
        rw [p3, andThen, hc]
        simp
      · simp only [andThen, hc, if_true]
        rw [← hc]

/-- C55 for this manager: `collide(other_manager)` reports exactly the pairs of an object of one and a
different object of the other with overlapping boxes, each once; `swap` says which of the two comes
first. -/
theorem C55_sap_managers.{v} {approx : AABB K → AABB K → Bool} (hap : ∀ a b, approx a b = true → a = b)
    (b0 : AABB K) {h h' : List (PCall K O)} (hh : PHistory h) (hh' : PHistory h') {w : O → AABB K}
    (hw : LastCurrent h w) (hw' : LastCurrent h' w) (hr : removedLast h = false) (hr' : removedLast h' = false) :
    ∃ m m', run approx b0 h = some m ∧ run approx b0 h' = some m' ∧
    ∃ (swap : Bool) (ps : List (O × O)), ps.Nodup ∧
      (∀ a b, (if swap then (b, a) else (a, b)) ∈ ps ↔
        InMgr a h ∧ InMgr b h' ∧ a ≠ b ∧ (w a).overlap (w b) = true) ∧
      ∀ (σ : Type v) (cb : CB σ O) (s : σ), m.collideOther w m' cb s = some (runUntil cb s ps).1 := by
  obtain ⟨m, hm, ha⟩ := run_agrees hap b0 hh
  obtain ⟨m', hm', ha'⟩ := run_agrees hap b0 hh'
  refine ⟨m, m', hm, hm', ?_⟩
  have hcur : ∀ {g : List (PCall K O)} {n : SaP K O}, Agrees g n → LastCurrent g w → ∀ o ∈ n.arr, n.cached o = w o := by
    intro g n hg hc o ho
    obtain ⟨x, hx⟩ := lastBox_of_mem ((hg.arr o).1 ho)
    rw [hg.cached o x hx, hc o x hx]
  unfold collideOther
  by_cases h0 : m.size = 0
  · refine ⟨false, [], List.nodup_nil, ?_, fun σ cb s => by rw [if_pos (Or.inl h0)]; rfl⟩
    intro a b
    have : m.arr = [] := List.length_eq_zero_iff.1 h0
    rw [← ha.arr, this]; simp
  by_cases h0' : m'.size = 0
  · refine ⟨false, [], List.nodup_nil, ?_, fun σ cb s => by rw [if_pos (Or.inr h0')]; rfl⟩
    intro a b
    have : m'.arr = [] := List.length_eq_zero_iff.1 h0'
    rw [← ha'.arr, this]; simp
  have hn : ¬ (m.size = 0 ∨ m'.size = 0) := by simp [h0, h0']
  by_cases hlt : m.size < m'.size
  · obtain ⟨ps, p1, p2, p3⟩ := collideEach_spec.{_, _, v} ha'.inv (ha'.fresh hr') w m.arr ha.inv.nodup
    refine ⟨false, ps, p1, ?_, ?_⟩
    · intro a b
      simp only [Bool.false_eq_true, if_false]
      rw [p2, ha.arr, ← ha'.arr]
      constructor
      · rintro ⟨x1, x2, x3, x4⟩
        rw [hcur ha' hw' b x2, overlap_symm'] at x4
        exact ⟨x1, x2, x3.symm, x4⟩
      · rintro ⟨x1, x2, x3, x4⟩
        refine ⟨x1, x2, x3.symm, ?_⟩
        rw [hcur ha' hw' b x2, overlap_symm']; exact x4
    · intro σ cb s
      rw [if_neg hn, if_pos hlt, p3]; rfl
  · obtain ⟨ps, p1, p2, p3⟩ := collideEach_spec.{_, _, v} ha.inv (ha.fresh hr) w m'.arr ha'.inv.nodup
    refine ⟨true, ps, p1, ?_, ?_⟩
    · intro a b
      simp only [if_true]
      rw [p2, ha'.arr, ← ha.arr]
      constructor
      · rintro ⟨x1, x2, x3, x4⟩
        rw [hcur ha hw a x2] at x4
        exact ⟨x2, x1, x3, x4⟩
      · rintro ⟨x1, x2, x3, x4⟩
        refine ⟨x2, x1, x3, ?_⟩
        rw [hcur ha hw a x1]; exact x4
    · intro σ cb s
      rw [if_neg hn, if_neg hlt, p3]; rfl

/-- Non-vacuity: the example manager against one with the single object 7 in the place of object 2. -/
example : ∃ (h' : List (PCall ℤ ℕ)), PHistory h' ∧ LastCurrent h' SaPExample.w1 ∧ removedLast h' = false ∧
    InMgr 7 h' ∧ InMgr 0 SaPExample.hist ∧ (SaPExample.w1 0).overlap (SaPExample.w1 7) = true := by
  refine ⟨[SaPExample.call (.register 7) SaPExample.w1], ?_, ?_, rfl, (fun h => by cases h), (fun h => by cases h), by decide⟩
  · exact .snoc (h := []) .nil ⟨⟨fun h => h rfl, by decide, by decide, by decide⟩, fun o b hu => hu.elim⟩
  · intro o b hb
    have : lastBox o [SaPExample.call (.register 7) SaPExample.w1] =
      if o = 7 then some (SaPExample.w1 o) else none := rfl
    rw [this] at hb
    split_ifs at hb
    exact (Option.some.inj hb).symm

/-- C24 for this manager: `clear()` restores the state of a new manager, except that the chosen axis is kept
and that the memory of the boxes is not reset (both only affect later choices, not what is registered). -/
theorem C24_sap (approx : AABB K → AABB K → Bool) (b0 : AABB K) (m : SaP K O) (c : PCall K O) (hc : c.op = .clear) :
    ∃ m', m.step approx c = some m' ∧ m'.elist = (SaP.empty b0 : SaP K O).elist ∧ m'.arr = [] ∧ m'.pairs = [] ∧
      m'.fresh = true ∧
      (∀ (σ : Type) (w : O → AABB K) (cb : CB σ O) (q : O) (s : σ), m'.collideObj w cb q s = some s ∧ m'.collideSelf cb s = s) := by
  refine ⟨m.clear, by unfold step; rw [hc], rfl, rfl, rfl, rfl, ?_⟩
  intro σ w cb q s
  exact ⟨rfl, rfl⟩

end Fcl
