import Verif.Integr.D2
import Verif.Fofc.Fix3Zone

/-!
# First-order flux correction in two dimensions

Step 14 of src/integrators/integrate_2d_vl.c (`--enable-fofc`), as in `Fix3`: Newtonian and Cartesian, without the shearing box, in exact
arithmetic.  Unlike its namesake in integrate_3d_vl.c, `FixCell` also replaces fluxes and electric fields on the boundary of the Grid.
-/

namespace Athena.Fofc
open Athena.Vl3
open Athena.Gen (Pla loop2 mod2 facesI facesJ updV2 cB1 cB2 avg2 updB1 updB2 setPl)

variable {ns : ℕ}

/-- What Step 14 works on: plane `ks` of the Grid, `x1Flux`, `x2Flux`, `emf3`, and the predictor's `x1FluxP`, `x2FluxP`, `emf3P`. -/
structure Fy (ns : ℕ) where
  U : Pla (Cons ℝ ns)
  B1 : Pla ℝ
  B2 : Pla ℝ
  B3 : Pla ℝ
  F1 : Pla (Cons1 ℝ ns)
  F2 : Pla (Cons1 ℝ ns)
  e : Pla ℝ
  P1 : Pla (Cons1 ℝ ns)
  P2 : Pla (Cons1 ℝ ns)
  p : Pla ℝ

/-- A potential in the plane, as in `Pot`: integrate_2d_vl.c:1889-1934. -/
structure Pot2 where
  c : Pla ℝ
  f1 : Pla ℝ
  f2 : Pla ℝ

/-- No gravity. -/
def noPot2 : Pot2 := ⟨fun _ _ => 0, fun _ _ => 0, fun _ _ => 0⟩

/-- `a[j][i] = x`. -/
def set2 {α : Type} (a : Pla α) (j i : ℤ) (x : α) : Pla α := fun j' i' => if j' = j ∧ i' = i then x else a j' i'

/-- `a[j][i] += x`. -/
noncomputable def add2 (a : Pla ℝ) (j i : ℤ) (x : ℝ) : Pla ℝ := set2 a j i (a j i + x)

/-- Difference of two x1-fluxes (`By` is neither set nor used): integrate_2d_vl.c:1621-1669. -/
noncomputable def difA (a b : Cons1 ℝ ns) : Cons1 ℝ ns :=
  ⟨a.d - b.d, a.Mx - b.Mx, a.My - b.My, a.Mz - b.Mz, a.E - b.E, 0, a.Bz - b.Bz, fun n => a.s n - b.s n⟩

/-- Difference of two x2-fluxes (`Bz` is neither set nor used): integrate_2d_vl.c:1622-1670. -/
noncomputable def difB (a b : Cons1 ℝ ns) : Cons1 ℝ ns :=
  ⟨a.d - b.d, a.Mx - b.Mx, a.My - b.My, a.Mz - b.Mz, a.E - b.E, a.By - b.By, 0, fun n => a.s n - b.s n⟩

/-- `x1FD_i`, …, `emf3D_jp1ip1`. -/
structure Dif2 (ns : ℕ) where
  x1i : Cons1 ℝ ns
  x1ip : Cons1 ℝ ns
  x2j : Cons1 ℝ ns
  x2jp : Cons1 ℝ ns
  e_ji : ℝ
  e_jip : ℝ
  e_jpi : ℝ
  e_jpip : ℝ

/-- integrate_2d_vl.c:1619-1677. -/
noncomputable def difs2 (X : Fy ns) (j i : ℤ) : Dif2 ns where
  x1i := difA (X.F1 j i) (X.P1 j i)
  x1ip := difA (X.F1 j (i+1)) (X.P1 j (i+1))
  x2j := difB (X.F2 j i) (X.P2 j i)
  x2jp := difB (X.F2 (j+1) i) (X.P2 (j+1) i)
  e_ji := X.e j i - X.p j i
  e_jip := X.e j (i+1) - X.p j (i+1)
  e_jpi := X.e (j+1) i - X.p (j+1) i
  e_jpip := X.e (j+1) (i+1) - X.p (j+1) (i+1)

/-- The arguments `lx1`, `rx1`, `lx2`, `rx2` of `ApplyCorr`. -/
structure Sides2 where
  l1 : ℤ
  r1 : ℤ
  l2 : ℤ
  r2 : ℤ

/-- `ApplyCorr`, zone-centred variables: integrate_2d_vl.c:1764-1796, and the energy 1889-1934. -/
noncomputable def corU2 (q1 q2 : ℝ) (P : Pot2) (D : Dif2 ns) (j i : ℤ) (s : Sides2) (u : Cons ℝ ns) : Cons ℝ ns :=
  let u := { u with
    d := u.d + q1 * (s.r1 * D.x1ip.d - s.l1 * D.x1i.d)
    M1 := u.M1 + q1 * (s.r1 * D.x1ip.Mx - s.l1 * D.x1i.Mx)
    M2 := u.M2 + q1 * (s.r1 * D.x1ip.My - s.l1 * D.x1i.My)
    M3 := u.M3 + q1 * (s.r1 * D.x1ip.Mz - s.l1 * D.x1i.Mz)
    E := u.E + q1 * (s.r1 * D.x1ip.E - s.l1 * D.x1i.E)
    B3c := u.B3c + q1 * (s.r1 * D.x1ip.Bz - s.l1 * D.x1i.Bz)
    s := fun n => u.s n + q1 * (s.r1 * D.x1ip.s n - s.l1 * D.x1i.s n) }
  let u := { u with
    d := u.d + q2 * (s.r2 * D.x2jp.d - s.l2 * D.x2j.d)
    M1 := u.M1 + q2 * (s.r2 * D.x2jp.Mz - s.l2 * D.x2j.Mz)
    M2 := u.M2 + q2 * (s.r2 * D.x2jp.Mx - s.l2 * D.x2j.Mx)
    M3 := u.M3 + q2 * (s.r2 * D.x2jp.My - s.l2 * D.x2j.My)
    E := u.E + q2 * (s.r2 * D.x2jp.E - s.l2 * D.x2j.E)
    B3c := u.B3c + q2 * (s.r2 * D.x2jp.By - s.l2 * D.x2j.By)
    s := fun n => u.s n + q2 * (s.r2 * D.x2jp.s n - s.l2 * D.x2j.s n) }
  let phic := P.c j i
  let u := { u with E := u.E + q1 * (s.l1 * D.x1i.d * (phic - onLeft s.l1 phic (P.f1 j i) (P.f1 j (i+1))) +
    s.r1 * D.x1ip.d * (onRight s.r1 phic (P.f1 j i) (P.f1 j (i+1)) - phic)) }
  { u with E := u.E + q2 * (s.l2 * D.x2j.d * (phic - onLeft s.l2 phic (P.f2 j i) (P.f2 (j+1) i)) +
    s.r2 * D.x2jp.d * (onRight s.r2 phic (P.f2 j i) (P.f2 (j+1) i) - phic)) }

/-- `ApplyCorr`: integrate_2d_vl.c:1738-1949; the interface fields 1937-1948. -/
noncomputable def applyCorr2 (q1 q2 : ℝ) (P : Pot2) (D : Dif2 ns) (j i : ℤ) (s : Sides2) (X : Fy ns) : Fy ns :=
  { X with
    U := set2 X.U j i (corU2 q1 q2 P D j i s (X.U j i))
    B1 := add2 (add2 X.B1 j i (q2 * (s.r2 * D.e_jpi - s.l2 * D.e_ji))) j (i+1) (q2 * (s.r2 * D.e_jpip - s.l2 * D.e_jip))
    B2 := add2 (add2 X.B2 j i (-(q1 * (s.r1 * D.e_jip - s.l1 * D.e_ji)))) (j+1) i (-(q1 * (s.r1 * D.e_jpip - s.l1 * D.e_jpi))) }

/-- The calls of `ApplyCorr`: integrate_2d_vl.c:1681-1700. -/
noncomputable def spreadCorr2 (q1 q2 : ℝ) (P : Pot2) (g : Rng) (D : Dif2 ns) (j i : ℤ) (X : Fy ns) : Fy ns :=
  let X := applyCorr2 q1 q2 P D j i ⟨1, 1, 1, 1⟩ X
  let X := if i > g.is then applyCorr2 q1 q2 P D j (i-1) ⟨-1, 0, 0, 0⟩ X else X
  let X := if i < g.ie then applyCorr2 q1 q2 P D j (i+1) ⟨0, -1, 0, 0⟩ X else X
  let X := if j > g.js then applyCorr2 q1 q2 P D (j-1) i ⟨0, 0, -1, 0⟩ X else X
  if j < g.je then applyCorr2 q1 q2 P D (j+1) i ⟨0, 0, 0, -1⟩ X else X

/-- Four corners take the values of the other array: integrate_2d_vl.c:1731-1734. -/
def setCorner (e p : Pla ℝ) (j i : ℤ) : Pla ℝ :=
  let e := set2 e j i (p j i)
  let e := set2 e j (i+1) (p j (i+1))
  let e := set2 e (j+1) i (p (j+1) i)
  set2 e (j+1) (i+1) (p (j+1) (i+1))

/-- `FixCell`: integrate_2d_vl.c:1608-1736. -/
noncomputable def fixCell2 (q1 q2 : ℝ) (P : Pot2) (g : Rng) (X : Fy ns) (j i : ℤ) : Fy ns :=
  let Y := spreadCorr2 q1 q2 P g (difs2 X j i) j i X
  { Y with
    U := loop2 (j-1) (j+1) (i-1) (i+1) (fun j i => avg2 Y.B1 Y.B2 j i (Y.U j i)) Y.U
    B3 := loop2 (j-1) (j+1) (i-1) (i+1) (fun j i => (Y.U j i).B3c) Y.B3
    F1 := set2 (set2 X.F1 j i (X.P1 j i)) j (i+1) (X.P1 j (i+1))
    F2 := set2 (set2 X.F2 j i (X.P2 j i)) (j+1) i (X.P2 (j+1) i)
    e := setCorner X.e X.p j i }

/-- The active zones in the order of the loop: integrate_2d_vl.c:1186-1187. -/
def zones2 (g : Rng) : List (ℤ × ℤ) := (span g.js g.je).flatMap fun j => (span g.is g.ie).map fun i => (j, i)

/-- One turn of the loop: integrate_2d_vl.c:1188-1209. -/
noncomputable def turn2 (bad : Cons ℝ ns → Bool) (q1 q2 : ℝ) (P : Pot2) (g : Rng) (X : Fy ns) (z : ℤ × ℤ) : Fy ns :=
  if bad (X.U z.1 z.2) then fixCell2 q1 q2 P g X z.1 z.2 else X

/-- Step 14: integrate_2d_vl.c:1186-1214. -/
noncomputable def step14p (bad : Cons ℝ ns → Bool) (q1 q2 : ℝ) (P : Pot2) (g : Rng) (X : Fy ns) : Fy ns :=
  (zones2 g).foldl (turn2 bad q1 q2 P g) X

/-! ## Specification -/

/-- Zone `(j, i)` of the Grid is active. -/
def InGrid2 (g : Rng) (j i : ℤ) : Prop := (g.js ≤ j ∧ j ≤ g.je) ∧ (g.is ≤ i ∧ i ≤ g.ie)

/-- The work of gravity on the mass that crosses the faces: integrate_2d_vl.c:933-969, 976-1041. -/
noncomputable def work2 (q1 q2 : ℝ) (P : Pot2) (F1 F2 : Pla (Cons1 ℝ ns)) (j i : ℤ) : ℝ :=
  q1 * ((F1 j i).d * (P.c j i - P.f1 j i) + (F1 j (i+1)).d * (P.f1 j (i+1) - P.c j i)) +
  q2 * ((F2 j i).d * (P.c j i - P.f2 j i) + (F2 (j+1) i).d * (P.f2 (j+1) i - P.c j i))

/-- Plane `ks` of the Grid is what the step makes of the state `S0` with the fluxes and electric fields at hand. -/
structure Made2 (q : Athena.Gen.Step ℝ) (P : Pot2) (g : Rng) (S0 : St ℝ ns) (X : Fy ns) : Prop where
  U : ∀ j i, InGrid2 g j i → X.U j i =
    let u := (updV2 q g S0 X.F1 X.F2 X.e).U g.ks j i
    { u with E := u.E - work2 (q.dt/q.dx1) (q.dt/q.dx2) P X.F1 X.F2 j i }
  B1 : ∀ j i, g.js ≤ j → j ≤ g.je → g.is ≤ i → i ≤ g.ie + 1 → X.B1 j i = (updV2 q g S0 X.F1 X.F2 X.e).B1i g.ks j i
  B2 : ∀ j i, g.js ≤ j → j ≤ g.je + 1 → g.is ≤ i → i ≤ g.ie → X.B2 j i = (updV2 q g S0 X.F1 X.F2 X.e).B2i g.ks j i
  B3 : ∀ j i, InGrid2 g j i → X.B3 j i = (updV2 q g S0 X.F1 X.F2 X.e).B3i g.ks j i

/-- Sum over the active zones. -/
noncomputable def psum (n1 n2 : ℕ) (g : Rng) (f : Pla ℝ) : ℝ :=
  ∑ b ∈ Finset.range n2, ∑ a ∈ Finset.range n1, f (g.js + b) (g.is + a)

/-- A conserved variable or (`none`) `B3`. -/
def of2 : Option (CVar ns) → Cons ℝ ns → ℝ
  | some v, u => v.of u
  | none, u => u.B3c

end Athena.Fofc
