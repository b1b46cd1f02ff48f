import Verif.SSaP.Dist
import Verif.Props.AABB
import Mathlib.Tactic.NormNum
import Mathlib.Data.List.Sort

/-!
# The SSaP manager: C13 (its part), C14, C15 (its part), C24 (its part), C54

`SHistory h`: `h` is a sequence of public calls a correct client makes on a new manager; `SSaP.run h`
executes them. `UpToDate h w`: the manager has been set up or updated and no registered object's box has
changed since; `w` gives the boxes at query time.
-/

set_option linter.unusedSectionVars false

namespace Fcl
open SSaP
variable {K O : Type*} [LinearOrder K] [DecidableEq O]

namespace SSaPExample
/-- A sorting function. -/
def srt {K : Type*} [LinearOrder K] (f : ℕ → K) (l : List ℕ) : List ℕ :=
  l.insertionSort (fun a b => f a ≤ f b)

theorem srt_lawful {K : Type*} [LinearOrder K] : LawfulSort (srt (K := K)) := by
  intro f l
  haveI : Std.Total (fun a b : ℕ => f a ≤ f b) := ⟨fun a b => le_total _ _⟩
  haveI : IsTrans ℕ (fun a b : ℕ => f a ≤ f b) := ⟨fun a b c h h' => le_trans h h'⟩
  exact ⟨List.perm_insertionSort _ _, List.pairwise_insertionSort _ _⟩

/-- Unit cubes at `x = n mod 3`. -/
def w (n : ℕ) : AABB ℚ := ⟨⟨((n % 3 : ℕ) : ℚ), 0, 0⟩, ⟨((n % 3 : ℕ) : ℚ) + 1, 1, 1⟩⟩

/-- Register 5, 1, 2, 3, set up, drop 2, and register 4, update. -/
def hist : List (SCall ℚ ℕ) :=
  [⟨.registerMany [5, 1, 2, 3], w, srt⟩, ⟨.setup, w, srt⟩, ⟨.unregister 2, w, srt⟩, ⟨.register 4, w, srt⟩,
   ⟨.update, w, srt⟩]

theorem w_valid (n : ℕ) : (w n).Valid := by
  refine ⟨?_, ?_, ?_⟩ <;> simp [w]

theorem hist_ok : SHistory hist := by
  refine .snoc (h := [⟨.registerMany [5, 1, 2, 3], w, srt⟩, ⟨.setup, w, srt⟩, ⟨.unregister 2, w, srt⟩,
    ⟨.register 4, w, srt⟩]) (.snoc (h := [⟨.registerMany [5, 1, 2, 3], w, srt⟩, ⟨.setup, w, srt⟩,
    ⟨.unregister 2, w, srt⟩]) (.snoc (h := [⟨.registerMany [5, 1, 2, 3], w, srt⟩, ⟨.setup, w, srt⟩])
    (.snoc (h := [⟨.registerMany [5, 1, 2, 3], w, srt⟩]) (.snoc (h := []) .nil srt_lawful
    ⟨by decide, by decide⟩ ?_) srt_lawful trivial ?_) srt_lawful trivial ?_) srt_lawful
    (show registered 4 _ = false by decide) ?_) srt_lawful trivial ?_
  · intro o h; simp at h
  · intro o h; simp at h
  · intro o _
    refine ⟨fun _ => w_valid o, ?_⟩
    intro w0 h0 p _
    simp [seen, seenRev] at h0
    rw [← h0]
  · intro o h; simp at h
  · intro o h; simp at h

theorem upToDate : UpToDate hist w := ⟨w, rfl, fun _ _ => rfl⟩
end SSaPExample

/-- C54, contents of the SSaP manager: `getObjects` lists exactly the registered objects, each once;
`size` is their number and `empty` is true exactly when there are none. -/
theorem C54_ssap_objects {h : List (SCall K O)} (hh : SHistory h) :
    (∀ o, o ∈ (run h).getObjects ↔ regd o h = true) ∧ (run h).getObjects.Nodup ∧
    (run h).size = (run h).getObjects.length ∧ ((run h).isEmpty = true ↔ ∀ o, regd o h = false) := by
  have hi := inv_run hh
  refine ⟨hi.mem, hi.nodup, rfl, ?_⟩
  unfold isEmpty
  rw [List.isEmpty_iff]
  constructor
  · intro he o
    have := (hi.mem o).not
    rw [he] at this
    simpa using this
  · intro ha
    rw [List.eq_nil_iff_forall_not_mem]
    intro o ho
    rw [hi.mem, ha o] at ho
    exact absurd ho (by simp)

/-- Non-vacuity: the example history leaves the objects 5, 1, 3, 4. -/
example : (run SSaPExample.hist).size = 4 := by
  have h := C54_ssap_objects SSaPExample.hist_ok
  rw [h.2.2.1]
  have : (run SSaPExample.hist).getObjects.Perm [5, 1, 3, 4] := by
    rw [List.perm_ext_iff_of_nodup h.2.1 (by decide)]
    intro o
    rw [h.1]
    simp only [regd, registered, SSaPExample.hist, List.map, List.reverse_cons, List.reverse_nil,
      List.nil_append, List.cons_append, registeredRev]
    simp
    grind
  rw [this.length_eq]; rfl

/-- What `unregisterObject` needs and does not check: the boxes must not have moved since the last set-up.
Here object 1, registered at `x = 5` next to objects 2 and 3 at `x = 3`, has moved to `x = 0` before it is
unregistered; it is not found and stays registered. (The current keys of `objs_x` are `[3, 3, 0]`, searched
for 1: both a linear scan and the usual bisection return the beginning.) -/
theorem C54_ssap_unregister_moved :
    ∃ (w w' : ℕ → AABB ℚ), (∀ o, (w o).Valid ∧ (w' o).Valid) ∧
      1 ∈ (((SSaP.empty.step SSaPExample.srt w (.registerMany [1, 2, 3])).step SSaPExample.srt w .setup).step
        SSaPExample.srt w' (.unregister 1)).getObjects := by
  refine ⟨fun n => if n = 1 then ⟨⟨5, 0, 0⟩, ⟨6, 1, 1⟩⟩ else ⟨⟨3, 0, 0⟩, ⟨4, 1, 1⟩⟩,
    fun n => if n = 1 then ⟨⟨0, 0, 0⟩, ⟨1, 1, 1⟩⟩ else ⟨⟨3, 0, 0⟩, ⟨4, 1, 1⟩⟩, ?_, ?_⟩
  · intro o
    dsimp only
    split <;> refine ⟨⟨?_, ?_, ?_⟩, ?_, ?_, ?_⟩ <;> norm_num
  · decide +kernel

/-- C13 for SSaP: `collide(obj)` calls back exactly the registered objects other than the query object
whose box overlaps the query box, each once, in a fixed order, until the callback says stop. -/
theorem C13_ssap.{v} {h : List (SCall K O)} (hh : SHistory h) {w : O → AABB K} (hu : UpToDate h w) (q : O) :
    ∃ l : List O, l.Nodup ∧ (∀ o, o ∈ l ↔ regd o h = true ∧ o ≠ q ∧ (w o).overlap (w q) = true) ∧
      ∀ (σ : Type v) (cb : CB σ O) (s : σ),
        (run h).collideObj w cb q s = (runUntil cb s (l.map (fun o => (o, q)))).1 := by
  have hi := inv_run hh
  obtain ⟨l, hp, hl⟩ := collideQ_spec.{_, _, v} hi hu q
  refine ⟨l, hp.nodup_iff.2 (hi.nodup.filter _), ?_, ?_⟩
  · intro o
    rw [hp.mem_iff, List.mem_filter, hi.mem]
    simp
  · intro σ cb s
    unfold collideObj
    split
    · rename_i h0
      have : (run h).x = [] := List.length_eq_zero_iff.1 h0
      rw [this] at hp
      obtain rfl := hp.eq_nil
      rfl
    · rw [hl]

/-- C14: self-collide of an SSaP manager that is up to date, whichever axis is swept and however ties are
ordered: exactly the unordered pairs of registered objects with overlapping boxes, each once. -/
theorem C14_ssap_self.{v} {h : List (SCall K O)} (hh : SHistory h) {w : O → AABB K} (hu : UpToDate h w)
    (hv : ∀ o, regd o h = true → (w o).Valid) (axis : Fin 3) :
    ∃ l : List O, l.Nodup ∧ (∀ o, o ∈ l ↔ regd o h = true) ∧
      ∀ (σ : Type v) (cb : CB σ O) (s : σ), (run h).collideSelf w axis cb s =
        (runUntil cb s ((pairsUp l).filter (fun p => (w p.1).overlap (w p.2)))).1 := by
  have hi := inv_run hh
  refine ⟨(run h).axisList axis, (hi.axis axis).nodup_iff.2 hi.nodup,
    fun o => by rw [(hi.axis axis).mem_iff, hi.mem], ?_⟩
  intro σ cb s
  unfold collideSelf
  split
  · rename_i h0
    have hp := hi.axis axis
    have h0' : (run h).x = [] := List.length_eq_zero_iff.1 h0
    rw [h0'] at hp
    rw [hp.eq_nil]; rfl
  · rw [sweep_eq cb _ s (hi.sortedNow hu axis)]
    intro p hp
    exact hv p ((hi.mem p).1 ((hi.axis axis).mem_iff.1 hp))

/-- Non-vacuity of C13 and C14: three pairs of the example scene overlap (boxes touch), others do not. -/
example : (∀ o, regd o SSaPExample.hist = true → (SSaPExample.w o).Valid) ∧
    ((pairsUp [5, 1, 3, 4]).filter (fun p => (SSaPExample.w p.1).overlap (SSaPExample.w p.2))) =
      [(5, 1), (5, 4), (1, 3), (1, 4), (3, 4)] :=
  ⟨fun o _ => SSaPExample.w_valid o, by decide +kernel⟩

theorem SSaP.collideEach_spec.{v} {h : List (SCall K O)} {m : SSaP O} (hi : SSaP.Inv h m) {w : O → AABB K}
    (hu : UpToDate h w) (l : List O) :
    ∃ ps : List (O × O),
      ps.Perm (l.flatMap (fun q => (m.x.filter (fun o => decide (o ≠ q) && (w o).overlap (w q))).map
        (fun o => (o, q)))) ∧
      ∀ (σ : Type v) (cb : CB σ O) (s : σ), collideEach w m cb l s = runUntil cb s ps := by
  induction l with
  | nil => exact ⟨[], by simp, fun σ cb s => rfl⟩
  | cons q l ih =>
    obtain ⟨ps, h1, h2⟩ := ih
    obtain ⟨l', h3, h4⟩ := SSaP.collideQ_spec.{_, _, v} hi hu q
    refine ⟨l'.map (fun o => (o, q)) ++ ps, ?_, ?_⟩
    · rw [List.flatMap_cons]
      exact (h3.map _).append h1
    · intro σ cb s
      rw [collideEach, h4, runUntil_append]
      congr 1
      funext s
      exact h2 σ cb s

/-- C55, manager-manager collide of SSaP: exactly the pairs of an object of one and a different object of
the other with overlapping boxes, each once; `swap` says which of the two comes first. -/
theorem C55_ssap_managers.{v} {h h' : List (SCall K O)} (hh : SHistory h) (hh' : SHistory h')
    {w : O → AABB K} (hu : UpToDate h w) (hu' : UpToDate h' w) :
    ∃ (swap : Bool) (ps : List (O × O)), ps.Nodup ∧
      (∀ a b, (if swap then (b, a) else (a, b)) ∈ ps ↔
        regd a h = true ∧ regd b h' = true ∧ a ≠ b ∧ (w a).overlap (w b) = true) ∧
      ∀ (σ : Type v) (cb : CB σ O) (s : σ),
        (run h).collideOther w (run h') cb s = (runUntil cb s ps).1 := by
  have hi := inv_run hh
  have hi' := inv_run hh'
  have key : ∀ {g g' : List (SCall K O)}, SSaP.Inv g (run g) → SSaP.Inv g' (run g') → UpToDate g w →
      ∃ ps : List (O × O), ps.Nodup ∧
      (∀ a b, (a, b) ∈ ps ↔ regd a g = true ∧ regd b g' = true ∧ a ≠ b ∧ (w a).overlap (w b) = true) ∧
      ∀ (σ : Type v) (cb : CB σ O) (s : σ),
        collideEach w (run g) cb (run g').x s = runUntil cb s ps := by
    intro g g' hg hg' hug
    obtain ⟨ps, h1, h2⟩ := SSaP.collideEach_spec.{_, _, v} hg hug (run g').x
    refine ⟨ps, ?_, ?_, h2⟩
    · rw [h1.nodup_iff, List.nodup_flatMap]
      refine ⟨fun q _ => ((hg.nodup.filter _).map (fun a b e => by simpa using e)), ?_⟩
      refine hg'.nodup.imp ?_
      intro a b hab p hp hp'
      obtain ⟨x, _, rfl⟩ := List.mem_map.1 hp
      obtain ⟨y, _, e⟩ := List.mem_map.1 hp'
      exact hab (by simpa using (congrArg Prod.snd e).symm)
    · intro a b
      rw [h1.mem_iff, List.mem_flatMap]
      constructor
      · rintro ⟨q, hq, hp⟩
        obtain ⟨x, hx, e⟩ := List.mem_map.1 hp
        obtain ⟨rfl, rfl⟩ : x = a ∧ q = b := by simpa using e
        obtain ⟨hx1, hx2⟩ := List.mem_filter.1 hx
        simp only [Bool.and_eq_true, decide_eq_true_eq] at hx2
        exact ⟨(hg.mem _).1 hx1, (hg'.mem _).1 hq, hx2⟩
      · rintro ⟨ha, hb, hab, ho⟩
        refine ⟨b, (hg'.mem b).2 hb, List.mem_map.2 ⟨a, List.mem_filter.2 ⟨(hg.mem a).2 ha, ?_⟩, rfl⟩⟩
        simp [hab, ho]
  have emp : ∀ g : List (SCall K O), SSaP.Inv g (run g) → (run g).size = 0 → ∀ o, ¬ regd o g = true := by
    intro g hg h0 o ho
    have : (run g).x = [] := List.length_eq_zero_iff.1 h0
    rw [← hg.mem, this] at ho
    exact absurd ho (by simp)
  unfold collideOther
  by_cases h0 : (run h).size = 0
  · refine ⟨false, [], by simp, ?_, by simp [h0]⟩
    intro a b
    simp [emp h hi h0]
  by_cases h0' : (run h').size = 0
  · refine ⟨false, [], by simp, ?_, by simp [h0']⟩
    intro a b
    simp [emp h' hi' h0']
  have hn : ¬ ((run h).size = 0 ∨ (run h').size = 0) := by simp [h0, h0']
  by_cases hlt : (run h).size < (run h').size
  · obtain ⟨ps, h1, h2, h3⟩ := key hi' hi hu'
    refine ⟨true, ps, h1, ?_, ?_⟩
    · intro a b
      simp only [if_true]
      rw [h2, AABB.overlap_comm]
      constructor
      · rintro ⟨x, y, z, t⟩; exact ⟨y, x, fun e => z e.symm, t⟩
      · rintro ⟨x, y, z, t⟩; exact ⟨y, x, fun e => z e.symm, t⟩
    · intro σ cb s
      rw [if_neg hn, if_pos hlt, h3]
  · obtain ⟨ps, h1, h2, h3⟩ := key hi hi' hu
    refine ⟨false, ps, h1, ?_, ?_⟩
    · intro a b
      simpa using h2 a b
    · intro σ cb s
      rw [if_neg hn, if_neg hlt, h3]

/-- Non-vacuity of C55: the example against itself. -/
example : ∃ a b, regd a SSaPExample.hist = true ∧ regd b SSaPExample.hist = true ∧ a ≠ b ∧
    (SSaPExample.w a).overlap (SSaPExample.w b) = true := ⟨5, 1, by decide +kernel⟩

/-- C24 for SSaP: after `clear()` the manager is the freshly constructed one. -/
theorem C24_ssap (m : SSaP O) (srt : (O → K) → List O → List O) (w : O → AABB K) :
    m.step srt w .clear = SSaP.empty := rfl

/-! ## C15 for SSaP -/

section distance
variable {K O σ : Type*} [LinearOrder K] [Field K] [IsStrictOrderedRing K] [DecidableEq O]
  {dist : AABB K → AABB K → K} {approx : V3 K → V3 K → Bool} {big : K} {w : O → AABB K}

theorem checkDis_only_self (cb : DCB σ K O) (q : O) (l : List O) (hl : ∀ o ∈ l, o = q) (s : σ) (md : K) :
    checkDis dist w cb q l s md = (s, md, false) := by
  induction l with
  | nil => rfl
  | cons o l ih =>
    have := hl o (List.mem_cons_self ..)
    subst this
    simp [checkDis, ih (fun p hp => hl p (List.mem_cons_of_mem _ hp))]

/-- When every scan only meets the query object, the loop goes on for ever. -/
theorem distLoop_diverges (m : SSaP O) (cb : DCB σ K O) (q : O) (P : V3 K → Prop)
    (hc : ∀ v, P v → ∀ o ∈ cands w m v, o = q) (hw : ∀ v, P v → P (widen approx (w q) v))
    (fuel : Nat) (v : V3 K) (hv : P v) (s : σ) : distLoop dist approx big w m cb q fuel false v s big = none := by
  induction fuel generalizing v with
  | zero => rfl
  | succ n ih =>
    rw [distLoop, checkDis_only_self cb q _ (hc v hv)]
    simp only [Bool.false_eq_true, if_false, lt_irrefl]
    exact ih _ (hw v hv)

/-- The scan looks only at registered objects. -/
theorem cands_sub {h : List (SCall K O)} (hh : SHistory h) (hu : UpToDate h w) (v : V3 K) {o : O}
    (ho : o ∈ cands w (run h) v) : regd o h = true := by
  have hi := inv_run hh
  obtain ⟨i, hc⟩ := cands_spec hi hu v
  exact (hi.mem o).1 (List.mem_filter.1 (hc.mem_iff.1 ho)).1

/-- C15 fails for SSaP: with a single registered object, self-distance and `distance` to that very object
never return, whatever the callback, the box and the scalar settings. (No number of loop iterations is
enough.) -/
theorem C15_ssap_diverges_single {h : List (SCall K O)} (hh : SHistory h) (hu : UpToDate h w) (o : O)
    (ho : ∀ p, regd p h = true ↔ p = o) (axis : Fin 3) (cb : DCB σ K O) (s : σ) (fuel : Nat) :
    (run h).distanceSelf dist approx big w axis cb fuel s = none ∧
    (run h).distanceObj dist approx big w cb fuel o s = none := by
  have hi := inv_run hh
  have hd : ∀ fuel, distQ dist approx big w (run h) cb fuel o s big = none := by
    intro fuel
    unfold distQ
    rw [if_neg (lt_irrefl _)]
    exact distLoop_diverges _ _ _ (fun _ => True) (fun v _ p hp => (ho p).1 (cands_sub hh hu v hp))
      (fun _ _ => trivial) _ _ trivial s
  have hx : (run h).x = [o] := by
    refine List.perm_singleton.1 ((List.perm_ext_iff_of_nodup hi.nodup (List.nodup_singleton o)).2 ?_)
    intro p
    rw [hi.mem, ho, List.mem_singleton]
  have hn : (run h).size ≠ 0 := by simp [size, hx]
  constructor
  · unfold distanceSelf
    rw [if_neg hn]
    have : (run h).axisList axis = [o] := List.perm_singleton.1 (hx ▸ hi.axis axis)
    rw [this, distEach, hd]
  · unfold distanceObj
    rw [if_neg hn, hd]

/-- C15 fails for SSaP also with several objects (at most 100 of them): if the query box is flat in x and
all other registered boxes lie to its right, `distance(obj)` never returns. -/
theorem C15_ssap_diverges_flat {h : List (SCall K O)} (hh : SHistory h) (hu : UpToDate h w) (q : O)
    (hne : ∃ p, regd p h = true) (hsz : (run h).size ≤ 100) (hflat : (w q).lo.x = (w q).hi.x)
    (hright : ∀ p, regd p h = true → p ≠ q → (w q).hi.x < (w p).lo.x)
    (cb : DCB σ K O) (s : σ) (fuel : Nat) :
    (run h).distanceObj dist approx big w cb fuel q s = none := by
  have hi := inv_run hh
  obtain ⟨p, hp⟩ := hne
  have hn : (run h).size ≠ 0 := by
    intro h0
    have : (run h).x = [] := List.length_eq_zero_iff.1 h0
    rw [← hi.mem, this] at hp
    exact absurd hp (by simp)
  unfold distanceObj
  rw [if_neg hn]
  unfold distQ
  rw [if_neg (lt_irrefl _)]
  refine distLoop_diverges _ _ _ (fun v => v.x = (w q).hi.x) ?_ ?_ _ _ rfl s
  · intro v hv o ho
    have hl : ¬ (upTo w 0 v.x (run h).x).length > 100 := by
      have : (upTo w 0 v.x (run h).x).length ≤ (run h).x.length := List.Sublist.length_le (List.takeWhile_sublist _)
      unfold size at hsz
      omega
    simp only [cands, if_neg hl] at ho
    obtain ⟨h1, h2⟩ := (mem_upTo_of_sorted (l := (run h).x) (hi.sortedNow hu 0) o).1 ho
    by_contra hne
    have := hright o ((hi.mem o).1 h1) hne
    rw [hv] at h2
    exact absurd h2 (not_le.2 this)
  · intro v hv
    unfold widen
    split
    · show v.x + ((w q).hi.x - (w q).lo.x) * (1 / 2) = _
      rw [hv, hflat]; ring
    · show v.x * 2 - (w q).hi.x = _
      rw [hv]; ring

/-- Non-vacuity of the two divergence theorems: a manager with the one object 7, and one with object 8 to
the right of the flat query box of object 0. -/
example : SHistory [(⟨.register 7, SSaPExample.w, SSaPExample.srt⟩ : SCall ℚ ℕ),
      ⟨.update, SSaPExample.w, SSaPExample.srt⟩] ∧
    (∀ p, regd p [(⟨.register 7, SSaPExample.w, SSaPExample.srt⟩ : SCall ℚ ℕ),
      ⟨.update, SSaPExample.w, SSaPExample.srt⟩] = true ↔ p = 7) := by
  refine ⟨.snoc (h := [_]) (.snoc (h := []) .nil SSaPExample.srt_lawful rfl (by simp))
    SSaPExample.srt_lawful trivial (by simp), ?_⟩
  intro p
  simp [regd, registered, registeredRev, eq_comm]

/-- C15 for SSaP, what holds of the value: whenever `distance(obj)` returns, and the callback tracks the
minimum of `d`, which is at least the box distance, the final bound is the minimum of `d` over the
registered objects other than the query object. Exact arithmetic is assumed. -/
theorem C15_ssap_object_partial {h : List (SCall K O)} (hh : SHistory h) (hu : UpToDate h w)
    (hg : GapDist dist) (q : O) (d : O → O → K) (cb : DCB σ K O) (P : σ → K → Prop)
    (ps : List (O × O))
    (hps : ∀ p, p ∈ ps ↔ regd p.1 h = true ∧ p.1 ≠ q ∧ p.2 = q)
    (hd : ∀ p ∈ ps, dist (w p.1) (w p.2) ≤ d p.1 p.2) (hcb : cb.Tracks P d ps)
    (fuel : Nat) (s : σ) (hP : P s big) (r : σ × K × Bool)
    (hr : (run h).distanceObj dist approx big w cb fuel q s = some r) : r.2.1 = minDist d big ps := by
  have hi := inv_run hh
  unfold distanceObj at hr
  split at hr
  · rename_i h0
    have hx : (run h).x = [] := List.length_eq_zero_iff.1 h0
    obtain rfl := Option.some.inj hr
    have : ps = [] := by
      rw [List.eq_nil_iff_forall_not_mem]
      intro p hp
      have := ((hps p).1 hp).1
      rw [← hi.mem, hx] at this
      exact absurd this (by simp)
    rw [this]; rfl
  · refine (distQ_visits hi hu hg hcb.nonInc q fuel s big hP hr).minimum ?_ hcb hP hd
    intro p
    rw [hps, hi.mem]

/-- C15 for SSaP, self-distance: the value when it returns. `ps` lists all ordered pairs of different
registered objects. -/
theorem C15_ssap_self_partial {h : List (SCall K O)} (hh : SHistory h) (hu : UpToDate h w)
    (hg : GapDist dist) (axis : Fin 3) (d : O → O → K) (cb : DCB σ K O) (P : σ → K → Prop)
    (ps : List (O × O))
    (hps : ∀ p, p ∈ ps ↔ regd p.1 h = true ∧ p.1 ≠ p.2 ∧ regd p.2 h = true)
    (hd : ∀ p ∈ ps, dist (w p.1) (w p.2) ≤ d p.1 p.2) (hcb : cb.Tracks P d ps)
    (fuel : Nat) (s : σ) (hP : P s big) (r : σ × K × Bool)
    (hr : (run h).distanceSelf dist approx big w axis cb fuel s = some r) : r.2.1 = minDist d big ps := by
  have hi := inv_run hh
  unfold distanceSelf at hr
  split at hr
  · rename_i h0
    have hx : (run h).x = [] := List.length_eq_zero_iff.1 h0
    obtain rfl := Option.some.inj hr
    have : ps = [] := by
      rw [List.eq_nil_iff_forall_not_mem]
      intro p hp
      have := ((hps p).1 hp).1
      rw [← hi.mem, hx] at this
      exact absurd this (by simp)
    rw [this]; rfl
  · refine (distEach_visits hi hu hg hcb.nonInc fuel _ s big hP hr).minimum ?_ hcb hP hd
    intro p
    rw [hps, hi.mem, (hi.axis axis).mem_iff, hi.mem]

variable [Archimedean K]

/-- C15 for SSaP, what holds of termination: if the query box has positive extents and some other
registered object is at a finite distance, `distance(obj)` returns (with exact arithmetic), so by
`C15_ssap_object_partial` with the minimum. -/
theorem C15_ssap_object_terminates_partial {h : List (SCall K O)} (hh : SHistory h) (hu : UpToDate h w)
    (hap : ∀ v, approx v v = true) (q o : O) (d : O → O → K) (cb : DCB σ K O) (P : σ → K → Prop)
    (ps : List (O × O))
    (hcb : cb.Tracks P d ps) (ho : regd o h = true) (hne : o ≠ q) (hps : (o, q) ∈ ps)
    (hd : dist (w o) (w q) ≤ d o q) (hfin : d o q < big)
    (hext : ∀ i : Fin 3, (w q).lo.get i < (w q).hi.get i) :
    ∃ fuel, ∀ s, P s big → ∃ r, (run h).distanceObj dist approx big w cb fuel q s = some r := by
  have hi := inv_run hh
  obtain ⟨fuel, hf⟩ := distQ_terminates hi hu hap hcb ((hi.mem o).2 ho) hne hps hd hfin hext
  refine ⟨fuel, fun s hP => ?_⟩
  unfold distanceObj
  split
  · exact ⟨_, rfl⟩
  · exact hf s big hP

/-- C15 for SSaP, termination of self-distance: every registered box has positive extents and every
object has a partner at finite distance. -/
theorem C15_ssap_self_terminates_partial {h : List (SCall K O)} (hh : SHistory h) (hu : UpToDate h w)
    (hap : ∀ v, approx v v = true) (axis : Fin 3) (d : O → O → K) (cb : DCB σ K O) (P : σ → K → Prop)
    (ps : List (O × O))
    (hcb : cb.Tracks P d ps)
    (hl : ∀ q, regd q h = true → ∃ o, regd o h = true ∧ o ≠ q ∧ (o, q) ∈ ps ∧
      dist (w o) (w q) ≤ d o q ∧ d o q < big)
    (hext : ∀ q, regd q h = true → ∀ i : Fin 3, (w q).lo.get i < (w q).hi.get i) :
    ∃ fuel, ∀ s, P s big → ∃ r, (run h).distanceSelf dist approx big w axis cb fuel s = some r := by
  have hi := inv_run hh
  have hm : ∀ q ∈ (run h).axisList axis, regd q h = true := fun q hq =>
    (hi.mem q).1 ((hi.axis axis).mem_iff.1 hq)
  obtain ⟨fuel, hf⟩ := distEach_terminates hi hu hap hcb ((run h).axisList axis)
    (fun q hq => by
      obtain ⟨o, h1, h2, h3⟩ := hl q (hm q hq)
      exact ⟨o, (hi.mem o).2 h1, h2, h3⟩)
    (fun q hq => hext q (hm q hq))
  refine ⟨fuel, fun s hP => ?_⟩
  unfold distanceSelf
  split
  · exact ⟨_, rfl⟩
  · exact hf s big hP

end distance

/-- The distance used by the code has the gap property in exact real arithmetic. -/
theorem gapDist_distance : GapDist (AABB.distance (K := ℝ)) := by
  have h : ∀ (r amin amax bmin bmax : ℝ), 0 ≤ r →
      (amin - bmax ≤ Real.sqrt (AABB.distStep r amin amax bmin bmax)) ∧
      r ≤ AABB.distStep r amin amax bmin bmax := by
    intro r amin amax bmin bmax hr
    unfold AABB.distStep
    simp only [AABB.ArithOps.sub, AABB.ArithOps.add, AABB.ArithOps.mul]
    split
    · refine ⟨Real.le_sqrt_of_sq_le ?_, ?_⟩ <;> nlinarith [sq_nonneg (bmax - amin)]
    · rename_i h1
      split
      · refine ⟨le_trans (by linarith) (Real.sqrt_nonneg _), ?_⟩
        nlinarith [mul_self_nonneg (amax - bmin)]
      · exact ⟨le_trans (by linarith) (Real.sqrt_nonneg _), le_refl _⟩
  intro a b i
  unfold AABB.distance
  simp only
  have hz : (AABB.ArithOps.zero : ℝ) = 0 := rfl
  rw [hz]
  set r1 := AABB.distStep (0 : ℝ) a.lo.x a.hi.x b.lo.x b.hi.x with e1
  set r2 := AABB.distStep r1 a.lo.y a.hi.y b.lo.y b.hi.y with e2
  set r3 := AABB.distStep r2 a.lo.z a.hi.z b.lo.z b.hi.z with e3
  obtain ⟨p1, q1⟩ := h 0 a.lo.x a.hi.x b.lo.x b.hi.x le_rfl
  rw [← e1] at p1 q1
  obtain ⟨p2, q2⟩ := h r1 a.lo.y a.hi.y b.lo.y b.hi.y q1
  rw [← e2] at p2 q2
  obtain ⟨p3, q3⟩ := h r2 a.lo.z a.hi.z b.lo.z b.hi.z (q1.trans q2)
  rw [← e3] at p3 q3
  show _ ≤ Real.sqrt r3
  fin_cases i
  · exact p1.trans (Real.sqrt_le_sqrt (q2.trans q3))
  · exact p2.trans (Real.sqrt_le_sqrt q3)
  · exact p3

end Fcl
