import Verif.Prob.Init

/-!
# What is asked of an initial state
-/

namespace Athena.Prob
open Athena.Pos
noncomputable section

/-- Zone (k,j,i) is an active zone of the Grid. -/
def Active (G : Grd) (k j i : ℤ) : Prop :=
  (G.x3.s ≤ k ∧ k ≤ G.x3.e) ∧ (G.x2.s ≤ j ∧ j ≤ G.x2.e) ∧ (G.x1.s ≤ i ∧ i ≤ G.x1.e)

/-- The net magnetic flux out of a zone, per volume; a direction with a single zone has no faces. -/
def divB (G : Grd) (S : St) (k j i : ℤ) : ℝ :=
  (S.b1 k j (i+1) - S.b1 k j i) / G.x1.dx
  + (if G.x2.e > G.x2.s then (S.b2 k (j+1) i - S.b2 k j i) / G.x2.dx else 0)
  + (if G.x3.e > G.x3.s then (S.b3 (k+1) j i - S.b3 k j i) / G.x3.dx else 0)

/-- No zone is a source of magnetic flux. -/
def Solenoidal (G : Grd) (S : St) : Prop := ∀ k j i, Active G k j i → divB G S k j i = 0

/-- The cell-centred field is the mean of the face fields. -/
def Centred (G : Grd) (S : St) : Prop := ∀ k j i, Active G k j i →
  S.b1c k j i = (S.b1 k j i + S.b1 k j (i+1)) / 2
  ∧ S.b2c k j i = (if G.x2.e > G.x2.s then (S.b2 k j i + S.b2 k (j+1) i) / 2 else S.b2 k j i)
  ∧ S.b3c k j i = (if G.x3.e > G.x3.s then (S.b3 k j i + S.b3 (k+1) j i) / 2 else S.b3 k j i)

/-- The gas pressure of a zone. -/
def pressure (gamma1 : ℝ) (S : St) (k j i : ℤ) : ℝ :=
  gamma1 * (S.e k j i - (S.m1 k j i ^ 2 + S.m2 k j i ^ 2 + S.m3 k j i ^ 2) / (2 * S.d k j i)
    - (S.b1c k j i ^ 2 + S.b2c k j i ^ 2 + S.b3c k j i ^ 2) / 2)

end
end Athena.Prob
