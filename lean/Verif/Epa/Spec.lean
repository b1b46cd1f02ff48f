import Verif.Epa.Model

/-!
# What must hold of the faces of the expanding polytope algorithm
-/

namespace Fcl.Epa
open V3

/-- Every face of the store is in exactly one of the two lists, once. -/
def Partition (L : Limits) (s : St) : Prop := (s.hull ++ s.stock).Perm (List.range L.maxFace)

/-- The edge `i` of the face `a` is the edge `j` of the face `b` in the other direction, and the two faces know it. -/
def Joined (s : St) (a : ℕ) (i : Fin 3) (b : ℕ) (j : Fin 3) : Prop :=
  (s.faces a).adj i = some (b, j) ∧ (s.faces b).adj j = some (a, i) ∧
  (s.faces a).c i = (s.faces b).c (j + 1) ∧ (s.faces a).c (i + 1) = (s.faces b).c j

/-- The faces of the hull are a closed surface: every edge of each of them is an edge of another one, or of itself, in the
other direction, so that the surface has no border and its faces are oriented in the same way. -/
def Closed (s : St) : Prop := ∀ a ∈ s.hull, ∀ i, ∃ b ∈ s.hull, ∃ j, Joined s a i b j

end Fcl.Epa
