import Verif.OBB.Model
import Verif.Geom.Rotation

/-!
# Model of `eigen_old`, the Jacobi eigenvalue iteration
(`include/fcl/math/geometry-inl.h:477-561`)

`absorb x g` stands for the test `x + g == x` of the working arithmetic, by which the code recognises
that `g` is negligible beside `x`: an oracle. In exact arithmetic it is `exactAbsorb`. If
`absorb 0 g` implies `g = 0`, as in any arithmetic, the model divides by zero nowhere.
-/

namespace Fcl
namespace Jacobi

/-- The locals of `eigen_old`: the entries of `R` above the diagonal (the others are not read after
the start), `d`, `z`, `b` and the rotation `v`, whose rows are `v[0]`, `v[1]`, `v[2]`. -/
structure State where
  r01 : ℝ
  r02 : ℝ
  r12 : ℝ
  d : V3 ℝ
  z : V3 ℝ
  b : V3 ℝ
  v : M3 ℝ

/-- `g - s * (h + g * tau)` and `h + s * (g - h * tau)`, lines 535-538, with `s`, `tau` computed from
`t` in lines 526-528. -/
noncomputable def rot (t g h : ℝ) : ℝ × ℝ :=
  let c := 1 / Real.sqrt (1 + t * t)
  let s := t * c
  let tau := s / (1 + c)
  (g - s * (h + g * tau), h + s * (g - h * tau))

/-- The tangent `t`, lines 518-525. `r` is `R(ip, iq)`, `h` is `d[iq] - d[ip]`. -/
noncomputable def tangent (absorb : ℝ → ℝ → Bool) (r h : ℝ) : ℝ :=
  let g := 100 * |r|
  if absorb |h| g then r / h
  else
    let theta := 1/2 * h / r
    let t := 1 / (|theta| + Real.sqrt (1 + theta * theta))
    if theta < 0 then -t else t

/-- What is done at one pair `(ip, iq)`, lines 512-541: drop the entry, rotate, or nothing. -/
noncomputable def choose (absorb : ℝ → ℝ → Bool) (i : Nat) (tresh r dp dq : ℝ) : Option ℝ × Bool :=
  let g := 100 * |r|
  if i > 3 && absorb |dp| g && absorb |dq| g then (none, true)
  else if |r| > tresh then (some (tangent absorb r (dq - dp)), false)
  else (none, false)

/-- The pair `(0, 1)`: the loops over `j` in lines 535-537 reach `j = 2` only. -/
noncomputable def step01 (absorb : ℝ → ℝ → Bool) (i : Nat) (tresh : ℝ) (S : State) : State :=
  match choose absorb i tresh S.r01 S.d.x S.d.y with
  | (none, true) => { S with r01 := 0 }
  | (none, false) => S
  | (some t, _) =>
    let h := t * S.r01
    let p := rot t S.r02 S.r12
    let v0 := rot t S.v.r0.x S.v.r0.y
    let v1 := rot t S.v.r1.x S.v.r1.y
    let v2 := rot t S.v.r2.x S.v.r2.y
    { r01 := 0, r02 := p.1, r12 := p.2
      z := ⟨S.z.x - h, S.z.y + h, S.z.z⟩, d := ⟨S.d.x - h, S.d.y + h, S.d.z⟩, b := S.b
      v := ⟨⟨v0.1, v0.2, S.v.r0.z⟩, ⟨v1.1, v1.2, S.v.r1.z⟩, ⟨v2.1, v2.2, S.v.r2.z⟩⟩ }

/-- The pair `(0, 2)`: `j = 1` lies between. -/
noncomputable def step02 (absorb : ℝ → ℝ → Bool) (i : Nat) (tresh : ℝ) (S : State) : State :=
  match choose absorb i tresh S.r02 S.d.x S.d.z with
  | (none, true) => { S with r02 := 0 }
  | (none, false) => S
  | (some t, _) =>
    let h := t * S.r02
    let p := rot t S.r01 S.r12
    let v0 := rot t S.v.r0.x S.v.r0.z
    let v1 := rot t S.v.r1.x S.v.r1.z
    let v2 := rot t S.v.r2.x S.v.r2.z
    { r01 := p.1, r02 := 0, r12 := p.2
      z := ⟨S.z.x - h, S.z.y, S.z.z + h⟩, d := ⟨S.d.x - h, S.d.y, S.d.z + h⟩, b := S.b
      v := ⟨⟨v0.1, S.v.r0.y, v0.2⟩, ⟨v1.1, S.v.r1.y, v1.2⟩, ⟨v2.1, S.v.r2.y, v2.2⟩⟩ }

/-- The pair `(1, 2)`: `j = 0` lies before. -/
noncomputable def step12 (absorb : ℝ → ℝ → Bool) (i : Nat) (tresh : ℝ) (S : State) : State :=
  match choose absorb i tresh S.r12 S.d.y S.d.z with
  | (none, true) => { S with r12 := 0 }
  | (none, false) => S
  | (some t, _) =>
    let h := t * S.r12
    let p := rot t S.r01 S.r02
    let v0 := rot t S.v.r0.y S.v.r0.z
    let v1 := rot t S.v.r1.y S.v.r1.z
    let v2 := rot t S.v.r2.y S.v.r2.z
    { r01 := p.1, r02 := p.2, r12 := 0
      z := ⟨S.z.x, S.z.y - h, S.z.z + h⟩, d := ⟨S.d.x, S.d.y - h, S.d.z + h⟩, b := S.b
      v := ⟨⟨S.v.r0.x, v0.1, v0.2⟩, ⟨S.v.r1.x, v1.1, v1.2⟩, ⟨S.v.r2.x, v2.1, v2.2⟩⟩ }

/-- The end of a sweep, lines 545-550. -/
noncomputable def endSweep (S : State) : State := { S with b := S.b + S.z, d := S.b + S.z, z := 0 }

/-- The loop over sweeps, lines 498-551: `fuel` sweeps left, this being sweep `i`. Returns
`(dout, vout)`; column `j` of `vout` is `v[j]`, so `vout` is the transpose of `v`. -/
noncomputable def sweeps (absorb : ℝ → ℝ → Bool) : (fuel i : Nat) → State → Option (V3 ℝ × M3 ℝ)
  | 0, _, _ => none
  | fuel + 1, i, S =>
    let sm := |S.r01| + |S.r02| + |S.r12|
    if sm = 0 then some (S.d, S.v.tr)
    else
      let tresh := if i < 3 then 1/5 * sm / 9 else 0
      sweeps absorb fuel (i + 1)
        (endSweep (step12 absorb i tresh (step02 absorb i tresh (step01 absorb i tresh S))))

/-- `eigen_old(m, dout, vout)`, lines 477-561. `none`: fifty sweeps did not suffice, the message of
line 553 is printed and `dout`, `vout` are not written. -/
noncomputable def eigenOld (absorb : ℝ → ℝ → Bool) (m : M3 ℝ) : Option (V3 ℝ × M3 ℝ) :=
  let d : V3 ℝ := ⟨m.get 0 0, m.get 1 1, m.get 2 2⟩
  sweeps absorb 50 0 ⟨m.get 0 1, m.get 0 2, m.get 1 2, d, 0, d, M3.one⟩

open Classical in
/-- `x + g == x` in exact arithmetic. -/
noncomputable def exactAbsorb (x g : ℝ) : Bool := decide (x + g = x)

/-! ## The rotation stays orthonormal -/

/-- The dot products of the columns of the rotation. -/
def Ortho (v : M3 ℝ) : Prop := v.tr.mul v = M3.one

theorem ortho_iff (v : M3 ℝ) : Ortho v ↔
    ((v.r0.x * v.r0.x + v.r1.x * v.r1.x + v.r2.x * v.r2.x = 1 ∧
      v.r0.y * v.r0.y + v.r1.y * v.r1.y + v.r2.y * v.r2.y = 1 ∧
      v.r0.z * v.r0.z + v.r1.z * v.r1.z + v.r2.z * v.r2.z = 1) ∧
     (v.r0.x * v.r0.y + v.r1.x * v.r1.y + v.r2.x * v.r2.y = 0 ∧
      v.r0.x * v.r0.z + v.r1.x * v.r1.z + v.r2.x * v.r2.z = 0 ∧
      v.r0.y * v.r0.z + v.r1.y * v.r1.z + v.r2.y * v.r2.z = 0)) := by
  obtain ⟨⟨a, b, c⟩, ⟨d, e, f⟩, ⟨g, h, i⟩⟩ := v
  simp only [Ortho, M3.tr, M3.mul, M3.col, V3.get, V3.dot, M3.one, M3.mk.injEq, V3.mk.injEq]
  constructor
  · rintro ⟨⟨h1, h2, h3⟩, ⟨h4, h5, h6⟩, h7, h8, h9⟩
    exact ⟨⟨h1, h5, h9⟩, h2, h3, h6⟩
  · rintro ⟨⟨h1, h2, h3⟩, h4, h5, h6⟩
    refine ⟨⟨h1, h4, h5⟩, ⟨?_, h2, h6⟩, ?_, ?_, h3⟩ <;> linarith

/-- `1 - s * tau = c`: the rotation in its usual form. -/
theorem rot_eq (t g h : ℝ) : ∃ c s : ℝ, c * c + s * s = 1 ∧ s = t * c ∧
    0 < c ∧ ∀ g h, rot t g h = (c * g - s * h, c * h + s * g) := by
  have hp : 0 < 1 + t * t := by nlinarith [mul_self_nonneg t]
  have hs := Real.sqrt_pos.2 hp
  refine ⟨1 / Real.sqrt (1 + t * t), t * (1 / Real.sqrt (1 + t * t)), ?_, rfl, by positivity, ?_⟩
  · have := Real.mul_self_sqrt hp.le
    have e : 1 / Real.sqrt (1 + t * t) * (1 / Real.sqrt (1 + t * t)) * (1 + t * t) = 1 := by
      rw [div_mul_div_comm, this]; field_simp
    linear_combination e
  · intro g h
    have e : 1 / Real.sqrt (1 + t * t) * (1 / Real.sqrt (1 + t * t)) * (1 + t * t) = 1 := by
      rw [div_mul_div_comm, Real.mul_self_sqrt hp.le]; field_simp
    rw [rot]
    set c := 1 / Real.sqrt (1 + t * t) with hc
    have hcp : 0 < c := by positivity
    have hne : (1 : ℝ) + c ≠ 0 := by positivity
    have k : t * c * (t * c / (1 + c)) = 1 - c := by
      field_simp; nlinarith
    refine Prod.ext ?_ ?_
    · show g - t * c * (h + g * (t * c / (1 + c))) = c * g - t * c * h
      linear_combination (-g) * k
    · show h + t * c * (g - h * (t * c / (1 + c))) = c * h + t * c * g
      linear_combination (-h) * k

theorem step01_ortho {absorb : ℝ → ℝ → Bool} {i : Nat} {tresh : ℝ} {S : State} (h : Ortho S.v) :
    Ortho (step01 absorb i tresh S).v := by
  rw [step01]
  cases choose absorb i tresh S.r01 S.d.x S.d.y with
  | mk o b =>
    cases o with
    | none => cases b <;> exact h
    | some t =>
      obtain ⟨c, s, hcs, -, -, hr⟩ := rot_eq t 0 0
      rw [ortho_iff] at h ⊢
      obtain ⟨⟨h1, h2, h3⟩, h4, h5, h6⟩ := h
      simp only [hr]
      refine ⟨⟨?_, ?_, h3⟩, ?_, ?_, ?_⟩
      · linear_combination c * c * h1 + s * s * h2 - 2 * c * s * h4 + hcs
      · linear_combination c * c * h2 + s * s * h1 + 2 * c * s * h4 + hcs
      · linear_combination c * s * h1 - c * s * h2 + (c * c - s * s) * h4
      · linear_combination c * h5 - s * h6
      · linear_combination c * h6 + s * h5

theorem step02_ortho {absorb : ℝ → ℝ → Bool} {i : Nat} {tresh : ℝ} {S : State} (h : Ortho S.v) :
    Ortho (step02 absorb i tresh S).v := by
  rw [step02]
  cases choose absorb i tresh S.r02 S.d.x S.d.z with
  | mk o b =>
    cases o with
    | none => cases b <;> exact h
    | some t =>
      obtain ⟨c, s, hcs, -, -, hr⟩ := rot_eq t 0 0
      rw [ortho_iff] at h ⊢
      obtain ⟨⟨h1, h2, h3⟩, h4, h5, h6⟩ := h
      simp only [hr]
      refine ⟨⟨?_, h2, ?_⟩, ?_, ?_, ?_⟩
      · linear_combination c * c * h1 + s * s * h3 - 2 * c * s * h5 + hcs
      · linear_combination c * c * h3 + s * s * h1 + 2 * c * s * h5 + hcs
      · linear_combination c * h4 - s * h6
      · linear_combination c * s * h1 - c * s * h3 + (c * c - s * s) * h5
      · linear_combination c * h6 + s * h4

theorem step12_ortho {absorb : ℝ → ℝ → Bool} {i : Nat} {tresh : ℝ} {S : State} (h : Ortho S.v) :
    Ortho (step12 absorb i tresh S).v := by
  rw [step12]
  cases choose absorb i tresh S.r12 S.d.y S.d.z with
  | mk o b =>
    cases o with
    | none => cases b <;> exact h
    | some t =>
      obtain ⟨c, s, hcs, -, -, hr⟩ := rot_eq t 0 0
      rw [ortho_iff] at h ⊢
      obtain ⟨⟨h1, h2, h3⟩, h4, h5, h6⟩ := h
      simp only [hr]
      refine ⟨⟨h1, ?_, ?_⟩, ?_, ?_, ?_⟩
      · linear_combination c * c * h2 + s * s * h3 - 2 * c * s * h6 + hcs
      · linear_combination c * c * h3 + s * s * h2 + 2 * c * s * h6 + hcs
      · linear_combination c * h4 - s * h5
      · linear_combination c * h5 + s * h4
      · linear_combination c * s * h2 - c * s * h3 + (c * c - s * s) * h6

theorem sweeps_ortho {absorb : ℝ → ℝ → Bool} {r : V3 ℝ × M3 ℝ} : ∀ {fuel i : Nat} {S : State}, Ortho S.v →
    sweeps absorb fuel i S = some r → Ortho r.2.tr
  | 0, _, _, _, e => by cases e
  | fuel + 1, i, S, h, e => by
    rw [sweeps] at e
    split at e
    · cases e; rw [M3.tr_tr]; exact h
    · exact sweeps_ortho (S := endSweep _) (step12_ortho (step02_ortho (step01_ortho h))) e

/-- **`eigen_old` returns an orthonormal matrix**, whatever is deemed negligible. -/
theorem eigenOld_orthonormal {absorb : ℝ → ℝ → Bool} {m : M3 ℝ} {d : V3 ℝ} {E : M3 ℝ}
    (h : eigenOld absorb m = some (d, E)) : E.Orthonormal := by
  have h1 := sweeps_ortho (absorb := absorb) (by
    rw [Ortho]; exact M3.orthonormal_one.cols) h
  have := (M3.orthonormal_of_cols h1).tr
  rwa [M3.tr_tr] at this

/-! ## In exact arithmetic the rows are eigenvectors -/

/-- The symmetric matrix that the state stands for. -/
def sym (S : State) : M3 ℝ := ⟨⟨S.d.x, S.r01, S.r02⟩, ⟨S.r01, S.d.y, S.r12⟩, ⟨S.r02, S.r12, S.d.z⟩⟩

/-- The invariant: `v` carries `M` to the matrix of the state. -/
structure Inv (M : M3 ℝ) (S : State) : Prop where
  similar : M.mul S.v = S.v.mul (sym S)
  diag : S.d = S.b + S.z

theorem exactAbsorb_iff {x g : ℝ} : exactAbsorb x g = true ↔ g = 0 := by
  rw [exactAbsorb]; simp

theorem tangent_spec {r h : ℝ} (hr : r ≠ 0) :
    r * (tangent exactAbsorb r h * tangent exactAbsorb r h) + h * tangent exactAbsorb r h = r := by
  have hz : ¬ exactAbsorb |h| (100 * |r|) = true := by
    rw [exactAbsorb_iff]; simpa using hr
  rw [tangent]
  simp only [hz]
  obtain ⟨θ, hθ⟩ : ∃ θ, 1/2 * h / r = θ := ⟨_, rfl⟩
  have hh : h = 2 * r * θ := by rw [← hθ]; field_simp
  rw [hθ, hh]
  have hp : 0 < 1 + θ * θ := by nlinarith [mul_self_nonneg θ]
  have hs := Real.sqrt_pos.2 hp
  have hq := Real.mul_self_sqrt hp.le
  generalize Real.sqrt (1 + θ * θ) = q at *
  have key : ∀ u : ℝ, u * u = θ * θ → 0 ≤ u → (1 / (u + q)) * (1 / (u + q)) + 2 * u * (1 / (u + q)) = 1 := by
    intro u hu hu0
    have : u + q ≠ 0 := by positivity
    field_simp
    nlinarith
  by_cases h0 : θ < 0
  · have k := key (-θ) (by ring) (by linarith)
    rw [abs_of_neg h0]
    simp only [h0, if_true]
    simp only [Bool.false_eq_true, if_false]
    linear_combination r * k
  · have k := key θ rfl (by linarith)
    rw [abs_of_nonneg (by linarith)]
    simp only [h0, if_false]
    simp only [Bool.false_eq_true, if_false]
    linear_combination r * k

theorem choose_exact {i : Nat} {tresh r dp dq : ℝ} (ht : 0 ≤ tresh) :
    (choose exactAbsorb i tresh r dp dq = (none, true) ∧ r = 0) ∨
    choose exactAbsorb i tresh r dp dq = (none, false) ∨
    (∃ t, choose exactAbsorb i tresh r dp dq = (some t, false) ∧ r * (t * t) + (dq - dp) * t = r) := by
  rw [choose]
  split
  · next h =>
    simp only [Bool.and_eq_true, exactAbsorb_iff] at h
    exact Or.inl ⟨rfl, by simpa using h.2⟩
  · split
    · next h =>
      refine Or.inr (Or.inr ⟨_, rfl, tangent_spec ?_⟩)
      intro h0; rw [h0, abs_zero] at h; linarith
    · exact Or.inr (Or.inl rfl)

/-- One rotation keeps the invariant. -/
theorem inv_rotate {M : M3 ℝ} {S S' : State} (h : Inv M S) (G : M3 ℝ) (hv : S'.v = S.v.mul G)
    (hs : (sym S).mul G = G.mul (sym S')) (hd : S'.d = S'.b + S'.z) : Inv M S' :=
  ⟨by rw [hv, ← M3.mul_assoc, h.similar, M3.mul_assoc, hs, M3.mul_assoc], hd⟩

theorem step01_inv {M : M3 ℝ} {i : Nat} {tresh : ℝ} {S : State} (ht : 0 ≤ tresh) (h : Inv M S) :
    Inv M (step01 exactAbsorb i tresh S) := by
  obtain ⟨e, h0⟩ | e | ⟨t, e, hq⟩ := choose_exact (i := i) (r := S.r01) (dp := S.d.x) (dq := S.d.y) ht
  · rw [step01, e]
    have : ({ S with r01 := 0 } : State) = S := by cases S; simp only at h0; subst h0; rfl
    simpa only [this] using h
  · rw [step01, e]; exact h
  · rw [step01, e]
    obtain ⟨c, s, hcs, hst, -, hr⟩ := rot_eq t 0 0
    have hd := h.diag
    refine inv_rotate h ⟨⟨c, s, 0⟩, ⟨-s, c, 0⟩, ⟨0, 0, 1⟩⟩ ?_ ?_ ?_
    · simp only [hr, M3.mul, M3.col, V3.get, V3.dot, M3.mk.injEq, V3.mk.injEq]
      refine ⟨⟨?_, ?_, ?_⟩, ⟨?_, ?_, ?_⟩, ?_, ?_, ?_⟩ <;> ring
    · simp only [sym, hr, M3.mul, M3.col, V3.get, V3.dot, M3.mk.injEq, V3.mk.injEq]
      refine ⟨⟨?_, ?_, ?_⟩, ⟨?_, ?_, ?_⟩, ?_, ?_, ?_⟩
      · rw [hst]; ring
      · rw [hst]; linear_combination (-c) * hq
      · linear_combination (-S.r02) * hcs
      · rw [hst]; linear_combination (-c) * hq
      · rw [hst]; ring
      · linear_combination (-S.r12) * hcs
      · ring
      · ring
      · ring
    · rw [hd]; v3

theorem step02_inv {M : M3 ℝ} {i : Nat} {tresh : ℝ} {S : State} (ht : 0 ≤ tresh) (h : Inv M S) :
    Inv M (step02 exactAbsorb i tresh S) := by
  obtain ⟨e, h0⟩ | e | ⟨t, e, hq⟩ := choose_exact (i := i) (r := S.r02) (dp := S.d.x) (dq := S.d.z) ht
  · rw [step02, e]
    have : ({ S with r02 := 0 } : State) = S := by cases S; simp only at h0; subst h0; rfl
    simpa only [this] using h
  · rw [step02, e]; exact h
  · rw [step02, e]
    obtain ⟨c, s, hcs, hst, -, hr⟩ := rot_eq t 0 0
    have hd := h.diag
    refine inv_rotate h ⟨⟨c, 0, s⟩, ⟨0, 1, 0⟩, ⟨-s, 0, c⟩⟩ ?_ ?_ ?_
    · simp only [hr, M3.mul, M3.col, V3.get, V3.dot, M3.mk.injEq, V3.mk.injEq]
      refine ⟨⟨?_, ?_, ?_⟩, ⟨?_, ?_, ?_⟩, ?_, ?_, ?_⟩ <;> ring
    · simp only [sym, hr, M3.mul, M3.col, V3.get, V3.dot, M3.mk.injEq, V3.mk.injEq]
      refine ⟨⟨?_, ?_, ?_⟩, ⟨?_, ?_, ?_⟩, ?_, ?_, ?_⟩
      · rw [hst]; ring
      · linear_combination (-S.r01) * hcs
      · rw [hst]; linear_combination (-c) * hq
      · ring
      · ring
      · ring
      · rw [hst]; linear_combination (-c) * hq
      · linear_combination (-S.r12) * hcs
      · rw [hst]; ring
    · rw [hd]; v3

theorem step12_inv {M : M3 ℝ} {i : Nat} {tresh : ℝ} {S : State} (ht : 0 ≤ tresh) (h : Inv M S) :
    Inv M (step12 exactAbsorb i tresh S) := by
  obtain ⟨e, h0⟩ | e | ⟨t, e, hq⟩ := choose_exact (i := i) (r := S.r12) (dp := S.d.y) (dq := S.d.z) ht
  · rw [step12, e]
    have : ({ S with r12 := 0 } : State) = S := by cases S; simp only at h0; subst h0; rfl
    simpa only [this] using h
  · rw [step12, e]; exact h
  · rw [step12, e]
    obtain ⟨c, s, hcs, hst, -, hr⟩ := rot_eq t 0 0
    have hd := h.diag
    refine inv_rotate h ⟨⟨1, 0, 0⟩, ⟨0, c, s⟩, ⟨0, -s, c⟩⟩ ?_ ?_ ?_
    · simp only [hr, M3.mul, M3.col, V3.get, V3.dot, M3.mk.injEq, V3.mk.injEq]
      refine ⟨⟨?_, ?_, ?_⟩, ⟨?_, ?_, ?_⟩, ?_, ?_, ?_⟩ <;> ring
    · simp only [sym, hr, M3.mul, M3.col, V3.get, V3.dot, M3.mk.injEq, V3.mk.injEq]
      refine ⟨⟨?_, ?_, ?_⟩, ⟨?_, ?_, ?_⟩, ?_, ?_, ?_⟩
      · ring
      · ring
      · ring
      · linear_combination (-S.r01) * hcs
      · rw [hst]; ring
      · rw [hst]; linear_combination (-c) * hq
      · linear_combination (-S.r02) * hcs
      · rw [hst]; linear_combination (-c) * hq
      · rw [hst]; ring
    · rw [hd]; v3

theorem endSweep_inv {M : M3 ℝ} {S : State} (h : Inv M S) : Inv M (endSweep S) := by
  have e : sym (endSweep S) = sym S := by rw [sym, sym, endSweep, ← h.diag]
  refine ⟨?_, ?_⟩
  · rw [e]; exact h.similar
  · show S.b + S.z = S.b + S.z + 0
    v3

theorem sweeps_inv {M : M3 ℝ} {r : V3 ℝ × M3 ℝ} : ∀ {fuel i : Nat} {S : State}, Inv M S →
    sweeps exactAbsorb fuel i S = some r →
    M.mul r.2.tr = r.2.tr.mul ⟨⟨r.1.x, 0, 0⟩, ⟨0, r.1.y, 0⟩, ⟨0, 0, r.1.z⟩⟩
  | 0, _, _, _, e => by cases e
  | fuel + 1, i, S, h, e => by
    rw [sweeps] at e
    split at e
    · next h0 =>
      cases e
      have a1 := abs_nonneg S.r01
      have a2 := abs_nonneg S.r02
      have a3 := abs_nonneg S.r12
      have e1 : S.r01 = 0 := abs_eq_zero.1 (by linarith)
      have e2 : S.r02 = 0 := abs_eq_zero.1 (by linarith)
      have e3 : S.r12 = 0 := abs_eq_zero.1 (by linarith)
      have hs := h.similar
      rw [sym, e1, e2, e3] at hs
      rw [M3.tr_tr]; exact hs
    · have ht : (0 : ℝ) ≤ if i < 3 then 1/5 * (|S.r01| + |S.r02| + |S.r12|) / 9 else 0 := by
        split
        · positivity
        · exact le_refl _
      exact sweeps_inv (endSweep_inv (step12_inv ht (step02_inv ht (step01_inv ht h)))) e

/-- **The rows returned by `eigen_old` are eigenvectors** of a symmetric matrix, in exact arithmetic. -/
theorem eigenOld_exact {m : M3 ℝ} (hm : m.tr = m) {d : V3 ℝ} {E : M3 ℝ} (h : eigenOld exactAbsorb m = some (d, E))
    (j : Fin 3) : m.mulVec (E.row j) = d.get j • E.row j := by
  have h1 := sweeps_inv (M := m) (by
    refine ⟨?_, ?_⟩
    · rw [M3.mul_one, M3.one_mul]
      obtain ⟨⟨a, b, c⟩, ⟨d, e, f⟩, ⟨g, k, l⟩⟩ := m
      simp only [M3.tr, M3.col, V3.get, M3.mk.injEq, V3.mk.injEq] at hm
      obtain ⟨⟨-, h1, h2⟩, ⟨h3, -, h4⟩, h5, h6, -⟩ := hm
      subst h3; subst h5; subst h6
      rfl
    · show _ = _ + (0 : V3 ℝ)
      v3) h
  obtain ⟨⟨a, b, c⟩, ⟨d', e, f⟩, ⟨g, k, l⟩⟩ := m
  obtain ⟨⟨x0, x1, x2⟩, ⟨y0, y1, y2⟩, ⟨z0, z1, z2⟩⟩ := E
  simp only [M3.mul, M3.tr, M3.col, V3.get, V3.dot, M3.mk.injEq, V3.mk.injEq] at h1
  obtain ⟨⟨h1, h2, h3⟩, ⟨h4, h5, h6⟩, h7, h8, h9⟩ := h1
  fin_cases j <;> apply V3.ext' <;>
    simp only [M3.mulVec, M3.row, V3.dot, V3.get, V3.smul_x, V3.smul_y, V3.smul_z] <;> linarith

/-- Fifty sweeps are more than enough for a diagonal matrix. -/
theorem eigenOld_diag (absorb : ℝ → ℝ → Bool) (d : V3 ℝ) :
    eigenOld absorb ⟨⟨d.x, 0, 0⟩, ⟨0, d.y, 0⟩, ⟨0, 0, d.z⟩⟩ = some (d, M3.one) := by
  rw [eigenOld]
  show sweeps absorb (49 + 1) 0 _ = _
  rw [sweeps]
  have h0 : |(0 : ℝ)| + |(0 : ℝ)| + |(0 : ℝ)| = 0 := by simp
  exact if_pos h0

end Jacobi
end Fcl
