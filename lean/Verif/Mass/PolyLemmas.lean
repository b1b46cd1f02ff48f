import Verif.Mass.Tetra
import Verif.Mass.PolyModel

/-! The loops of the code as sums over the triangles. -/

namespace Fcl
namespace Mass
open MeasureTheory Set

theorem orient_zero (t : Tri3) : orient 0 t = sixVol t.1 t.2.1 t.2.2 := by
  simp [orient, sixVol, V3.cross, V3.dot]

theorem foldl_vol (T : List Tri3) (s : ℝ) : T.foldl volStep s = s + 6 * (T.map (mom1 0)).sum := by
  induction T generalizing s with
  | nil => simp
  | cons t T ih =>
    rw [List.foldl_cons, ih, List.map_cons, List.sum_cons, volStep, mom1, orient_zero]; ring

theorem foldl_com (T : List Tri3) (s : ℝ × V3 ℝ) :
    (T.foldl comStep s).1 = s.1 + 6 * (T.map (mom1 0)).sum ∧ (T.foldl comStep s).2.x = s.2.x + 24 * (T.map (momL V3.x 0)).sum ∧
    (T.foldl comStep s).2.y = s.2.y + 24 * (T.map (momL V3.y 0)).sum ∧ (T.foldl comStep s).2.z = s.2.z + 24 * (T.map (momL V3.z 0)).sum := by
  induction T generalizing s with
  | nil => simp
  | cons t T ih =>
    obtain ⟨h1, h2, h3, h4⟩ := ih (comStep s t)
    simp only [List.foldl_cons, List.map_cons, List.sum_cons, h1, h2, h3, h4]
    simp only [comStep, mom1, momL, orient_zero, V3.add_x, V3.add_y, V3.add_z,
      V3.smul_x, V3.smul_y, V3.smul_z, V3.zero_x, V3.zero_y, V3.zero_z]
    refine ⟨?_, ?_, ?_, ?_⟩ <;> ring

/-- The matrix of the second moments. -/
noncomputable def secondMoments (T : List Tri3) : M3 ℝ :=
  let q := fun g h => (T.map (momQ g h 0)).sum
  ⟨⟨q V3.x V3.x, q V3.x V3.y, q V3.x V3.z⟩, ⟨q V3.y V3.x, q V3.y V3.y, q V3.y V3.z⟩, ⟨q V3.z V3.x, q V3.z V3.y, q V3.z V3.z⟩⟩

theorem madd_zero (a : M3 ℝ) : madd a ⟨0, 0, 0⟩ = a := by
  obtain ⟨⟨a1, a2, a3⟩, ⟨b1, b2, b3⟩, ⟨c1, c2, c3⟩⟩ := a
  simp only [madd, M3.mk.injEq]
  refine ⟨?_, ?_, ?_⟩ <;> apply V3.ext' <;> simp

theorem foldl_cov (T : List Tri3) (s : M3 ℝ) : T.foldl covStep s = madd s (secondMoments T) := by
  induction T generalizing s with
  | nil =>
    have : secondMoments [] = ⟨0, 0, 0⟩ := rfl
    rw [this, madd_zero]; rfl
  | cons t T ih =>
    obtain ⟨⟨a1, a2, a3⟩, ⟨b1, b2, b3⟩, ⟨c1, c2, c3⟩⟩ := t
    obtain ⟨⟨s1, s2, s3⟩, ⟨u1, u2, u3⟩, ⟨v1, v2, v3⟩⟩ := s
    rw [List.foldl_cons, ih]
    simp only [madd, secondMoments, covStep, mscale, canonical, M3.mul, M3.tr, M3.col, V3.get, M3.mk.injEq, List.map_cons, List.sum_cons]
    refine ⟨?_, ?_, ?_⟩ <;> apply V3.ext' <;>
      simp [momQ, orient_zero, sixVol, V3.dot, V3.cross, M3.row, V3.get] <;> ring

/-! ### The triangles of a mesh -/

theorem foldl_corners {σ : Type} (step : σ → Tri3 → σ) {vs : List (V3 ℝ)} {ts : List (ℕ × ℕ × ℕ)} {T : List Tri3} (h : Corners vs ts T) (s : σ) :
    ts.foldl (fun s t => step s (corners vs t)) s = T.foldl step s := by
  induction h generalizing s with
  | nil => rfl
  | @cons t u ts T hd _ ih =>
    have : corners vs t = u := by
      obtain ⟨h1, h2, h3⟩ := hd
      simp [corners, List.getD, h1, h2, h3]
    rw [List.foldl_cons, List.foldl_cons, this, ih]

/-! ### The triangles of a `Convex` -/

theorem foldl_add (P : List (V3 ℝ)) (c : V3 ℝ) : P.foldl (fun c p => c + p) c = c + P.sum := by
  induction P generalizing c with
  | nil => apply V3.ext' <;> simp
  | cons p P ih =>
    rw [List.foldl_cons, ih, List.sum_cons]
    apply V3.ext' <;> simp <;> ring

/-- The face at position `k` of the array is `P`. -/
def FaceAt (vs : List (V3 ℝ)) (faces : List ℕ) (k : ℕ) (P : Polygon) : Prop :=
  faces.getD k 0 = P.length ∧ ∀ j : ℕ, (h : j < P.length) → vs.getD (faces.getD (k + (j + 1)) 0) 0 = P[j]

theorem center_eq {vs : List (V3 ℝ)} {faces : List ℕ} {k : ℕ} {P : Polygon} (h : FaceAt vs faces k P) :
    faceCenter vs faces k P.length = mean P := by
  have : (List.range P.length).foldl (fun c j => c + vs.getD (faces.getD (k + (j + 1)) 0) 0) 0 = P.sum := by
    have e : (List.range P.length).map (fun j => vs.getD (faces.getD (k + (j + 1)) 0) 0) = P := by
      refine List.ext_getElem (by simp) fun j h1 h2 => ?_
      rw [List.getElem_map, List.getElem_range]
      exact h.2 j h2
    have f := foldl_add P 0
    rw [← e, List.foldl_map, e] at f
    rw [f]
    apply V3.ext' <;> simp
  rw [faceCenter, this, mean]

theorem faceLoop_eq {σ : Type} (step : σ → Tri3 → σ) {vs : List (V3 ℝ)} {faces : List ℕ} {k : ℕ} {P : Polygon} (h : FaceAt vs faces k P) (s : σ) :
    faceLoop step vs faces k P.length s = (fan P).foldl step s := by
  have e : (List.range P.length).map (fun j => ((vs.getD (faces.getD (k + (j + 1)) 0) 0, vs.getD (faces.getD (k + ((j + 1) % P.length + 1)) 0) 0,
      mean P) : Tri3)) = fan P := by
    refine List.ext_getElem (by simp [fan, polySides]) fun j h1 h2 => ?_
    have hj : j < P.length := by simpa using h1
    rw [List.getElem_map, List.getElem_range]
    simp only [fan, polySides, List.getElem_map, List.getElem_zip, List.getElem_rotate]
    rw [h.2 j hj, h.2 _ (Nat.mod_lt _ (by omega))]
  rw [← e, List.foldl_map]
  simp only [faceLoop, center_eq h]

theorem getD_append_add (a b : List ℕ) (i d : ℕ) : (a ++ b).getD (a.length + i) d = b.getD i d := by
  rw [List.getD, List.getD, List.getElem?_append_right (by omega), Nat.add_sub_cancel_left]

theorem convexLoop_eq {σ : Type} (step : σ → Tri3 → σ) {vs : List (V3 ℝ)} {faces : List ℕ} {Ps : List Polygon} (h : Lists vs faces Ps) (s : σ) :
    convexLoop step vs faces Ps.length 0 s = (Ps.flatMap fan).foldl step s := by
  obtain ⟨L, hL, hf⟩ := h
  have key : ∀ (pre : List ℕ) (L : List (List ℕ)) (Ps : List Polygon) (s : σ), faces = pre ++ L.flatMap (fun l => l.length :: l) →
      List.Forall₂ (fun l P => l.length = P.length ∧ ∀ j : ℕ, j < P.length → vs[l.getD j 0]? = P[j]?) L Ps →
      convexLoop step vs faces Ps.length pre.length s = (Ps.flatMap fan).foldl step s := by
    intro pre L Ps s he hf
    induction hf generalizing pre s with
    | nil => rfl
    | @cons l P L Ps hd htl ih =>
      obtain ⟨hl, hc⟩ := hd
      have hfa : FaceAt vs faces pre.length P := by
        constructor
        · have := getD_append_add pre ((l :: L).flatMap (fun l => l.length :: l)) 0 0
          rw [← he] at this
          simpa [hl] using this
        · intro j hj
          have := getD_append_add pre ((l :: L).flatMap (fun l => l.length :: l)) (j + 1) 0
          rw [← he] at this
          rw [this]
          have e2 : ((l :: L).flatMap (fun l => l.length :: l)).getD (j + 1) 0 = l.getD j 0 := by
            simp only [List.flatMap_cons, List.cons_append, List.getD, List.getElem?_cons_succ]
            rw [List.getElem?_append_left (by omega)]
          have h3 := hc j hj
          rw [e2, List.getD, h3, List.getElem?_eq_getElem hj]
          rfl
      rw [List.length_cons, convexLoop, hfa.1, faceLoop_eq step hfa, List.flatMap_cons, List.foldl_append]
      have := ih (pre ++ (l.length :: l)) ((fan P).foldl step s) (by rw [he]; simp)
      rw [← this]
      simp only [List.length_append, List.length_cons, hl]
  exact key [] L Ps s (by simpa using hL) hf

theorem noBorder_fans {Ps : List Polygon} (h : NoBorderP Ps) : NoBorder (Ps.flatMap fan) := by
  let S : Polygon → List (V3 ℝ × V3 ℝ) := fun P => P.map (fun v => (v, mean P)) ++ P.map (fun v => (mean P, v))
  have hS : ∀ P, (S P).Perm ((S P).map Prod.swap) := by
    intro P
    simp only [S, List.map_append, List.map_map]
    exact List.perm_append_comm
  have h1 : ∀ P, (sides3 (fan P)).Perm (polySides P ++ S P) := by
    intro P
    have e : ∀ (c : V3 ℝ) (E : List (V3 ℝ × V3 ℝ)), (sides3 (E.map fun e => (e.1, e.2, c))).Perm
        (E ++ ((E.map Prod.snd).map (fun v => (v, c)) ++ (E.map Prod.fst).map (fun v => (c, v)))) := by
      intro c E
      induction E with
      | nil => exact .refl _
      | cons e E ih =>
        have : sides3 ((e :: E).map fun e => (e.1, e.2, c)) = [(e.1, e.2), (e.2, c), (c, e.1)] ++ sides3 (E.map fun e => (e.1, e.2, c)) := rfl
        rw [this]
        refine (List.Perm.append_left _ ih).trans ?_
        simp only [List.map_cons, List.cons_append, List.nil_append]
        refine List.Perm.cons _ ?_
        refine List.Perm.trans ?_ (List.perm_middle.symm)
        refine List.Perm.cons _ ?_
        refine List.Perm.trans ?_ (List.Perm.append_left _ List.perm_middle.symm)
        exact List.perm_middle.symm
    refine (e (mean P) (polySides P)).trans (List.Perm.append_left _ ?_)
    have e1 : (polySides P).map Prod.snd = P.rotate 1 := List.map_snd_zip (by simp)
    have e2 : (polySides P).map Prod.fst = P := List.map_fst_zip (by simp)
    rw [e1, e2]
    exact List.Perm.append_right _ ((List.rotate_perm P 1).map _)
  have h2 : (sides3 (Ps.flatMap fan)).Perm (Ps.flatMap polySides ++ Ps.flatMap S) := by
    have : sides3 (Ps.flatMap fan) = Ps.flatMap fun P => sides3 (fan P) := by
      rw [sides3, List.flatMap_assoc]; rfl
    rw [this]
    refine List.Perm.trans (List.Perm.flatMap_left Ps fun P _ => h1 P) ?_
    exact (List.flatMap_append_perm Ps polySides S).symm
  have h3 : (Ps.flatMap S).Perm ((Ps.flatMap S).map Prod.swap) := by
    rw [List.map_flatMap]
    exact List.Perm.flatMap_left Ps fun P _ => hS P
  refine h2.trans ?_
  refine List.Perm.trans ?_ (h2.map Prod.swap).symm
  rw [List.map_append]
  exact List.Perm.append h h3

end Mass
end Fcl
