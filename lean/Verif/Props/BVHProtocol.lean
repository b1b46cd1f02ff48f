import Verif.BVH.ProtocolStep

/-! # C30: the calls of `BVHModel` -/

namespace Fcl
set_option linter.unusedSectionVars false

section C30
variable {V K : Type*} [Field K] [LinearOrder K] [IsStrictOrderedRing K]
variable {o : BVOps V K} {pts : V → Set (V3 K)} (right : Geom K → V → List ℕ → ℕ → Bool)
variable (junk : BVNode V) (junkIdx : ℕ)

/-- **C30, partial.** For every history of allowed calls on a new model, whatever the numbers passed to `beginModel`,
the splitter and the contents of new arrays: no call has undefined behaviour, every call returns the code of the
specification, and afterwards the model holds the geometry of the specification; if it is finished, its hierarchy is a
binary tree in which every primitive is in one leaf and every volume encloses all primitives below it, after an update
along the whole motion.

Missing are the calls that are not `Allowed`; see the witnesses below. -/
theorem C30_protocol_partial (hs : o.Sound pts) (cs : List (BCall K)) (h : Abs.AllAllowed .empty cs) :
    ∃ m, BModel.fresh.run (o.type right) junk junkIdx cs = some ((Abs.run .empty cs).1, m) ∧
      m.Rep pts (Abs.run .empty cs).2 := by
  have key : ∀ (cs : List (BCall K)) (a : Abs K) (m : BModel V K), m.Rep pts a → a.AllAllowed cs →
      ∃ m', m.run (o.type right) junk junkIdx cs = some ((a.run cs).1, m') ∧ m'.Rep pts (a.run cs).2 := by
    intro cs
    induction cs with
    | nil => exact fun a m hm _ => ⟨m, rfl, hm⟩
    | cons c cs ih =>
      intro a m hm ha
      obtain ⟨m1, e1, h1⟩ := step_call (right := right) (junk := junk) (junkIdx := junkIdx) hs hm c ha.1
      obtain ⟨m2, e2, h2⟩ := ih _ m1 h1 ha.2
      exact ⟨m2, by simp only [BModel.run, e1, e2]; rfl, h2⟩
  exact key cs .empty .fresh rep_fresh h

/-- **C30.** In every state, reachable or not: a call that is not answered with `ok` leaves the model exactly as it was.
The exception is `beginModel`, which empties the model. -/
theorem C30_refused (t : BVType V K) (m m' : BModel V K) (c : BCall K) (code : Code)
    (h : m.call t junk junkIdx c = some (code, m')) (hc : code ≠ .ok) :
    m' = m ∨ (∃ nt nv, c = .beginModel nt nv) ∧ code = .outOfSequence ∧ m'.state = .empty ∧ m'.numV = 0 ∧ m'.numT = 0 ∧
      m'.numBvs = 0 ∧ m'.prev = none := by
  have over : ∀ (m : BModel V K) ps, m.overwrite ps = some (code, m') → False := by
    intro m ps h
    simp only [BModel.overwrite] at h
    split at h
    · cases h
    · split at h
      · cases h
      · cases h; exact hc rfl
  cases c with
  | beginModel nt nv =>
    refine .inr ⟨⟨nt, nv, rfl⟩, ?_⟩
    replace h := Option.some.inj h
    by_cases hs : m.state ≠ .empty
    · simp only [BModel.beginModel, if_pos hs] at h
      generalize (if nv ≤ 0 then 8 else nv.toNat) = kv at h
      generalize (if nt < 0 then 8 else nt.toNat) = kt at h
      split at h <;> cases h <;> exact ⟨rfl, rfl, rfl, rfl, rfl, rfl⟩
    · simp only [BModel.beginModel, if_neg hs] at h
      exact absurd (congrArg Prod.fst h).symm hc
  | addVertex p =>
    simp only [BModel.call, BModel.addVertex] at h
    split at h
    · cases h; exact .inl rfl
    · split at h
      · cases h
      · split at h
        · cases h
        · cases h; exact absurd rfl hc
  | addTriangle p1 p2 p3 =>
    simp only [BModel.call, BModel.addTriangle] at h
    split at h
    · cases h; exact .inl rfl
    · repeat' split at h
      all_goals cases h
      exact absurd rfl hc
  | addPoints ps =>
    simp only [BModel.call, BModel.addPoints] at h
    split at h
    · cases h; exact .inl rfl
    · repeat' split at h
      all_goals cases h
      exact absurd rfl hc
  | addMesh ps ts =>
    simp only [BModel.call, BModel.addMesh] at h
    split at h
    · cases h; exact .inl rfl
    · repeat' split at h
      all_goals cases h
      exact absurd rfl hc
  | endModel =>
    simp only [BModel.call, BModel.endModel] at h
    split at h
    · cases h; exact .inl rfl
    · split at h
      · cases h; exact .inl rfl
      · split at h
        · cases h
        · split at h
          · cases h
          · split at h
            · cases h
            · cases h; exact absurd rfl hc
  | beginReplace =>
    simp only [BModel.call, BModel.beginReplace] at h
    split at h
    · cases h; exact .inl rfl
    · cases h; exact absurd rfl hc
  | replaceVertex p =>
    simp only [BModel.call, BModel.replace] at h
    split at h
    · cases h; exact .inl rfl
    · exact (over _ _ h).elim
  | replaceTriangle p1 p2 p3 =>
    simp only [BModel.call, BModel.replace] at h
    split at h
    · cases h; exact .inl rfl
    · exact (over _ _ h).elim
  | replaceSub ps =>
    simp only [BModel.call, BModel.replace] at h
    split at h
    · cases h; exact .inl rfl
    · exact (over _ _ h).elim
  | endReplace r b =>
    simp only [BModel.call, BModel.endReplace] at h
    split at h
    · cases h; exact .inl rfl
    · split at h
      · cases h
      · split at h
        · cases h; exact .inl rfl
        · split at h
          · cases h
          · cases h; exact absurd rfl hc
  | beginUpdate =>
    simp only [BModel.call, BModel.beginUpdate] at h
    split at h
    · cases h; exact .inl rfl
    · split at h <;> cases h <;> exact absurd rfl hc
  | updateVertex p =>
    simp only [BModel.call, BModel.update] at h
    split at h
    · cases h; exact .inl rfl
    · exact (over _ _ h).elim
  | updateTriangle p1 p2 p3 =>
    simp only [BModel.call, BModel.update] at h
    split at h
    · cases h; exact .inl rfl
    · exact (over _ _ h).elim
  | updateSub ps =>
    simp only [BModel.call, BModel.update] at h
    split at h
    · cases h; exact .inl rfl
    · exact (over _ _ h).elim
  | endUpdate r b =>
    simp only [BModel.call, BModel.endUpdate] at h
    split at h
    · cases h; exact .inl rfl
    · split at h
      · cases h
      · split at h
        · cases h; exact .inl rfl
        · split at h
          · cases h
          · cases h; exact absurd rfl hc
  | copy =>
    simp only [BModel.call] at h
    cases hcp : m.copy with
    | none => rw [hcp] at h; cases h
    | some x => rw [hcp] at h; cases h; exact absurd rfl hc

end C30

section witnesses

private abbrev o : BVOps (AABB ℚ) ℚ := aabbOps 1000 (-1000)
/-- Split by the centre of the box on the x axis. -/
private def split (g : Geom ℚ) (v : AABB ℚ) (_ : List ℕ) (p : ℕ) : Bool :=
  match g.primVerts p with
  | x :: _ => decide (x.x > (v.lo.x + v.hi.x) / 2)
  | [] => false
private abbrev T : BVType (AABB ℚ) ℚ := o.type split
private def runQ (cs : List (BCall ℚ)) : Option (List Code × BModel (AABB ℚ) ℚ) :=
  BModel.fresh.run T ⟨⟨⟨7, 7, 7⟩, ⟨7, 7, 7⟩⟩, 9, 9, 9⟩ 8 cs
private def codes (cs : List (BCall ℚ)) : Option (List Code) := (runQ cs).map Prod.fst

private abbrev a : V3 ℚ := ⟨0, 0, 0⟩
private abbrev b : V3 ℚ := ⟨1, 0, 0⟩
private abbrev c : V3 ℚ := ⟨0, 1, 0⟩
private abbrev d : V3 ℚ := ⟨0, 0, 1⟩

/-- A long history of allowed calls: a mesh of two triangles is built, copied, replaced, and updated twice; calls in the
wrong phase and with the wrong number of vertices are refused. -/
def exCalls : List (BCall ℚ) :=
  [.addVertex a, .endModel, .beginModel 0 1, .endModel, .addTriangle a b c, .addMesh [b, c, d] [(0, 1, 2)], .copy,
    .beginReplace, .endModel, .addTriangle a b c, .copy, .beginUpdate, .updateTriangle a a a, .endUpdate true true,
    .updateSub [d, d, d], .endUpdate false true, .copy, .beginReplace, .beginUpdate, .updateSub [a, b, c, b, c, d],
    .endUpdate true false]

private theorem exAllowed : Abs.AllAllowed .empty exCalls := by
  simp only [Abs.AllAllowed, exCalls, Abs.Allowed, Abs.step, Abs.add, Abs.replace, Abs.update, Abs.isBuilding, Abs.isReady,
    Abs.isUpdating, Abs.isReplacing, Abs.room]
  simp

example := C30_protocol_partial split ⟨⟨⟨7, 7, 7⟩, ⟨7, 7, 7⟩⟩, 9, 9, 9⟩ 8 (aabb_sound (1000 : ℚ) (-1000)) exCalls exAllowed

example : codes exCalls = some [.outOfSequence, .outOfSequence, .ok, .emptyModel, .ok, .ok, .ok, .emptyPreviousFrame, .ok,
    .outOfSequence, .ok, .ok, .ok, .incorrectData, .ok, .ok, .ok, .emptyPreviousFrame, .ok, .ok, .ok] := by decide +kernel

/-- A whole replacement. -/
example : codes [.beginModel 0 0, .addVertex a, .addVertex b, .endModel, .beginReplace, .replaceSub [c, d], .endReplace true false,
    .beginReplace, .replaceVertex c, .endReplace true true, .replaceVertex c, .endReplace false false] =
    some [.ok, .ok, .ok, .ok, .ok, .ok, .ok, .ok, .ok, .incorrectData, .ok, .ok] := by decide +kernel

/-- `addTriangle` on a new model: it is not refused, and writes three vertices to an array of two. -/
theorem C30_violated_add_before_begin :
    codes [.addTriangle a b c] = none ∧ codes [.addPoints [a]] = none ∧ codes [.addMesh [a, b, c] [(0, 1, 2)]] = none := by
  decide +kernel

/-- `addTriangle` and `addSubModel` are not refused while a model is replaced or updated, nor after an update; the new
vertices are not in the hierarchy. -/
theorem C30_violated_add_accepted :
    codes [.beginModel 1 3, .addTriangle a b c, .endModel, .beginReplace, .addTriangle a b d] =
      some [.ok, .ok, .ok, .ok, .ok] ∧
    codes [.beginModel 1 3, .addTriangle a b c, .endModel, .beginUpdate, .updateTriangle a b c, .endUpdate true true,
      .addTriangle a b d] = some [.ok, .ok, .ok, .ok, .ok, .ok, .ok] ∧
    (runQ [.beginModel 1 3, .addTriangle a b c, .endModel, .beginUpdate, .updateTriangle a b c, .endUpdate true true,
      .addTriangle a b d]).map (fun x => (x.2.numT, x.2.numBvs)) = some (2, 1) := by decide +kernel

/-- More vertices than the model has: written past the end of the array. -/
theorem C30_violated_too_many :
    codes [.beginModel 0 1, .addVertex a, .endModel, .beginReplace, .replaceSub [a, b]] = none ∧
    codes [.beginModel 0 1, .addVertex a, .endModel, .beginUpdate, .updateTriangle a b c] = none := by decide +kernel

/-- `beginModel` on a finished model empties it, returns an error and does not begin a new model: the next `addVertex` is
refused. -/
theorem C30_begin_twice :
    codes [.beginModel 0 1, .addVertex a, .endModel, .beginModel 0 1, .addVertex b, .endModel] =
      some [.ok, .ok, .ok, .outOfSequence, .outOfSequence, .outOfSequence] ∧
    (runQ [.beginModel 0 1, .addVertex a, .endModel, .beginModel 0 1]).map (fun x => (x.2.state, x.2.numV)) =
      some (.empty, 0) := by decide +kernel

/-- After an update no replacement can be begun. -/
theorem C30_replace_after_update :
    codes [.beginModel 0 1, .addVertex a, .endModel, .beginUpdate, .updateVertex b, .endUpdate true true, .beginReplace] =
      some [.ok, .ok, .ok, .ok, .ok, .ok, .emptyPreviousFrame] := by decide +kernel

/-- A copy of a model without vertices that was begun has arrays of length 0, which doubling does not change: the next
vertex is written past the end. -/
theorem C30_violated_copy_begun : codes [.beginModel 0 1, .copy, .addVertex a] = none := by decide +kernel

/-- The number of vertices replaced so far is not copied: the next vertex goes to an arbitrary place. -/
theorem C30_violated_copy_replacing :
    codes [.beginModel 0 1, .addVertex a, .endModel, .beginReplace, .copy, .replaceVertex b] = none ∧
    codes [.beginModel 0 1, .addVertex a, .endModel, .beginUpdate, .copy, .updateVertex b] = none := by decide +kernel

/-- `endModel` accepts triangles without vertices; the hierarchy then has one node that was never written. -/
theorem C30_violated_no_vertices :
    codes [.beginModel 1 1, .addMesh [] [(0, 1, 2)], .endModel] = some [.ok, .ok, .ok] ∧
    (runQ [.beginModel 1 1, .addMesh [] [(0, 1, 2)], .endModel]).map (fun x => (x.2.state, x.2.numBvs, x.2.bvs)) =
      some (.processed, 1, [⟨⟨⟨7, 7, 7⟩, ⟨7, 7, 7⟩⟩, 9, 9, 9⟩]) := by decide +kernel

/-- `endModel` does not check the indices of the triangles. -/
theorem C30_violated_bad_index :
    codes [.beginModel 1 1, .addMesh [a] [(0, 1, 2)], .endModel] = none := by decide +kernel

end witnesses
end Fcl
