import Verif.Integr.Vl3Cons

/-!
# First-order flux correction in three dimensions

Step 14 of src/integrators/integrate_3d_vl.c (`--enable-fofc`): zones left with negative density or
pressure are redone with the first-order fluxes of the predictor step, and so are their neighbours as
far as they share a face or an edge with them.  `FixCell`, `ApplyCorr` and the loop that calls them, Newtonian and
Cartesian, with the work of a fixed or self-consistent potential, without the shearing box.  Arithmetic is exact.
-/

namespace Athena.Fofc
open Athena.Vl3

variable {ns : ℕ}

/-- What Step 14 works on: the Grid, `x1Flux`, …, `emf3`, and the predictor's `x1FluxP`, …, `emf3P`. -/
structure Fx (ns : ℕ) where
  S : St ℝ ns
  F1 : Arr (Cons1 ℝ ns)
  F2 : Arr (Cons1 ℝ ns)
  F3 : Arr (Cons1 ℝ ns)
  e1 : Arr ℝ
  e2 : Arr ℝ
  e3 : Arr ℝ
  P1 : Arr (Cons1 ℝ ns)
  P2 : Arr (Cons1 ℝ ns)
  P3 : Arr (Cons1 ℝ ns)
  p1 : Arr ℝ
  p2 : Arr ℝ
  p3 : Arr ℝ

/-- A potential: in the centres of zones and on their left faces.  `StaticGravPot` at these points, or
`Phi` and half the sum of the two `Phi` next to the face: integrate_3d_vl.c:2849-2906. -/
structure Pot where
  c : Arr ℝ
  f1 : Arr ℝ
  f2 : Arr ℝ
  f3 : Arr ℝ

/-- No gravity. -/
def noPot : Pot := ⟨fun _ _ _ => 0, fun _ _ _ => 0, fun _ _ _ => 0, fun _ _ _ => 0⟩

/-- `a[k][j][i] = x`. -/
def setAt {α : Type} (a : Arr α) (k j i : ℤ) (x : α) : Arr α := fun k' j' i' =>
  if k' = k ∧ j' = j ∧ i' = i then x else a k' j' i'

/-- `a[k][j][i] += x`. -/
noncomputable def addAt (a : Arr ℝ) (k j i : ℤ) (x : ℝ) : Arr ℝ := setAt a k j i (a k j i + x)

/-- The block at the start of `FixCell`: fluxes and electric fields on the boundary of the Grid are not to be
replaced; integrate_3d_vl.c:2523-2587. -/
noncomputable def keepEdges (g : Rng) (X : Fx ns) (k j i : ℤ) : Fx ns :=
  let X := if i = g.is then { X with
    P1 := setAt X.P1 k j i (X.F1 k j i)
    p2 := setAt (setAt X.p2 k j i (X.e2 k j i)) (k+1) j i (X.e2 (k+1) j i)
    p3 := setAt (setAt X.p3 k j i (X.e3 k j i)) k (j+1) i (X.e3 k (j+1) i) } else X
  let X := if i = g.ie then { X with
    P1 := setAt X.P1 k j (i+1) (X.F1 k j (i+1))
    p2 := setAt (setAt X.p2 k j (i+1) (X.e2 k j (i+1))) (k+1) j (i+1) (X.e2 (k+1) j (i+1))
    p3 := setAt (setAt X.p3 k j (i+1) (X.e3 k j (i+1))) k (j+1) (i+1) (X.e3 k (j+1) (i+1)) } else X
  let X := if j = g.js then { X with
    P2 := setAt X.P2 k j i (X.F2 k j i)
    p1 := setAt (setAt X.p1 k j i (X.e1 k j i)) (k+1) j i (X.e1 (k+1) j i)
    p3 := setAt (setAt X.p3 k j i (X.e3 k j i)) k j (i+1) (X.e3 k j (i+1)) } else X
  let X := if j = g.je then { X with
    P2 := setAt X.P2 k (j+1) i (X.F2 k (j+1) i)
    p1 := setAt (setAt X.p1 k (j+1) i (X.e1 k (j+1) i)) (k+1) (j+1) i (X.e1 (k+1) (j+1) i)
    p3 := setAt (setAt X.p3 k (j+1) i (X.e3 k (j+1) i)) k (j+1) (i+1) (X.e3 k (j+1) (i+1)) } else X
  let X := if k = g.ks then { X with
    P3 := setAt X.P3 k j i (X.F3 k j i)
    p1 := setAt (setAt X.p1 k j i (X.e1 k j i)) k (j+1) i (X.e1 k (j+1) i)
    p2 := setAt (setAt X.p2 k j i (X.e2 k j i)) k j (i+1) (X.e2 k j (i+1)) } else X
  if k = g.ke then { X with
    P3 := setAt X.P3 (k+1) j i (X.F3 (k+1) j i)
    p1 := setAt (setAt X.p1 (k+1) j i (X.e1 (k+1) j i)) (k+1) (j+1) i (X.e1 (k+1) (j+1) i)
    p2 := setAt (setAt X.p2 (k+1) j i (X.e2 (k+1) j i)) (k+1) j (i+1) (X.e2 (k+1) j (i+1)) } else X

/-- Difference of two fluxes; `By` and `Bz` are neither set nor used: integrate_3d_vl.c:2591-2651. -/
noncomputable def dif (a b : Cons1 ℝ ns) : Cons1 ℝ ns :=
  ⟨a.d - b.d, a.Mx - b.Mx, a.My - b.My, a.Mz - b.Mz, a.E - b.E, 0, 0, fun n => a.s n - b.s n⟩

/-- `x1FD_i`, …, `emf3D_jp1ip1`: integrate_3d_vl.c:52-56, with `kp`, `jp`, `ip` for `kp1`, `jp1`, `ip1`. -/
structure Dif (ns : ℕ) where
  x1i : Cons1 ℝ ns
  x1ip : Cons1 ℝ ns
  x2j : Cons1 ℝ ns
  x2jp : Cons1 ℝ ns
  x3k : Cons1 ℝ ns
  x3kp : Cons1 ℝ ns
  e1_kj : ℝ
  e1_kpj : ℝ
  e1_kjp : ℝ
  e1_kpjp : ℝ
  e2_ki : ℝ
  e2_kip : ℝ
  e2_kpi : ℝ
  e2_kpip : ℝ
  e3_ji : ℝ
  e3_jip : ℝ
  e3_jpi : ℝ
  e3_jpip : ℝ

/-- integrate_3d_vl.c:2591-2670. -/
noncomputable def difs (X : Fx ns) (k j i : ℤ) : Dif ns where
  x1i := dif (X.F1 k j i) (X.P1 k j i)
  x1ip := dif (X.F1 k j (i+1)) (X.P1 k j (i+1))
  x2j := dif (X.F2 k j i) (X.P2 k j i)
  x2jp := dif (X.F2 k (j+1) i) (X.P2 k (j+1) i)
  x3k := dif (X.F3 k j i) (X.P3 k j i)
  x3kp := dif (X.F3 (k+1) j i) (X.P3 (k+1) j i)
  e1_kj := X.e1 k j i - X.p1 k j i
  e1_kjp := X.e1 k (j+1) i - X.p1 k (j+1) i
  e1_kpj := X.e1 (k+1) j i - X.p1 (k+1) j i
  e1_kpjp := X.e1 (k+1) (j+1) i - X.p1 (k+1) (j+1) i
  e2_ki := X.e2 k j i - X.p2 k j i
  e2_kip := X.e2 k j (i+1) - X.p2 k j (i+1)
  e2_kpi := X.e2 (k+1) j i - X.p2 (k+1) j i
  e2_kpip := X.e2 (k+1) j (i+1) - X.p2 (k+1) j (i+1)
  e3_ji := X.e3 k j i - X.p3 k j i
  e3_jip := X.e3 k j (i+1) - X.p3 k j (i+1)
  e3_jpi := X.e3 k (j+1) i - X.p3 k (j+1) i
  e3_jpip := X.e3 k (j+1) (i+1) - X.p3 k (j+1) (i+1)

/-- The arguments `lx1`, `rx1`, …, `rx3` of `ApplyCorr`. -/
structure Sides where
  l1 : ℤ
  r1 : ℤ
  l2 : ℤ
  r2 : ℤ
  l3 : ℤ
  r3 : ℤ

/-- The potential half a zone away from the centre in the direction of the sign: `x1-lx1*0.5*dx1`, `Phi[i-lx1]` for
`l`, given the values on the lower and the upper face. -/
noncomputable def onLeft (l : ℤ) (c lo hi : ℝ) : ℝ := if l = 1 then lo else if l = -1 then hi else c

/-- `x1+rx1*0.5*dx1`, `Phi[i+rx1]`. -/
noncomputable def onRight (r : ℤ) (c lo hi : ℝ) : ℝ := if r = 1 then hi else if r = -1 then lo else c

/-- `ApplyCorr`, zone-centred variables: integrate_3d_vl.c:2755-2791, and the energy 2849-2906. -/
noncomputable def corU (c : Coef ℝ) (P : Pot) (D : Dif ns) (k j i : ℤ) (s : Sides) (u : Cons ℝ ns) : Cons ℝ ns :=
  let u := { u with
    d := u.d + c.dtodx1 * (s.r1 * D.x1ip.d - s.l1 * D.x1i.d)
    M1 := u.M1 + c.dtodx1 * (s.r1 * D.x1ip.Mx - s.l1 * D.x1i.Mx)
    M2 := u.M2 + c.dtodx1 * (s.r1 * D.x1ip.My - s.l1 * D.x1i.My)
    M3 := u.M3 + c.dtodx1 * (s.r1 * D.x1ip.Mz - s.l1 * D.x1i.Mz)
    E := u.E + c.dtodx1 * (s.r1 * D.x1ip.E - s.l1 * D.x1i.E)
    s := fun n => u.s n + c.dtodx1 * (s.r1 * D.x1ip.s n - s.l1 * D.x1i.s n) }
  let u := { u with
    d := u.d + c.dtodx2 * (s.r2 * D.x2jp.d - s.l2 * D.x2j.d)
    M1 := u.M1 + c.dtodx2 * (s.r2 * D.x2jp.Mz - s.l2 * D.x2j.Mz)
    M2 := u.M2 + c.dtodx2 * (s.r2 * D.x2jp.Mx - s.l2 * D.x2j.Mx)
    M3 := u.M3 + c.dtodx2 * (s.r2 * D.x2jp.My - s.l2 * D.x2j.My)
    E := u.E + c.dtodx2 * (s.r2 * D.x2jp.E - s.l2 * D.x2j.E)
    s := fun n => u.s n + c.dtodx2 * (s.r2 * D.x2jp.s n - s.l2 * D.x2j.s n) }
  let u := { u with
    d := u.d + c.dtodx3 * (s.r3 * D.x3kp.d - s.l3 * D.x3k.d)
    M1 := u.M1 + c.dtodx3 * (s.r3 * D.x3kp.My - s.l3 * D.x3k.My)
    M2 := u.M2 + c.dtodx3 * (s.r3 * D.x3kp.Mz - s.l3 * D.x3k.Mz)
    M3 := u.M3 + c.dtodx3 * (s.r3 * D.x3kp.Mx - s.l3 * D.x3k.Mx)
    E := u.E + c.dtodx3 * (s.r3 * D.x3kp.E - s.l3 * D.x3k.E)
    s := fun n => u.s n + c.dtodx3 * (s.r3 * D.x3kp.s n - s.l3 * D.x3k.s n) }
  let phic := P.c k j i
  let u := { u with E := u.E + c.dtodx1 * (s.l1 * D.x1i.d * (phic - onLeft s.l1 phic (P.f1 k j i) (P.f1 k j (i+1))) +
    s.r1 * D.x1ip.d * (onRight s.r1 phic (P.f1 k j i) (P.f1 k j (i+1)) - phic)) }
  let u := { u with E := u.E + c.dtodx2 * (s.l2 * D.x2j.d * (phic - onLeft s.l2 phic (P.f2 k j i) (P.f2 k (j+1) i)) +
    s.r2 * D.x2jp.d * (onRight s.r2 phic (P.f2 k j i) (P.f2 k (j+1) i) - phic)) }
  { u with E := u.E + c.dtodx3 * (s.l3 * D.x3k.d * (phic - onLeft s.l3 phic (P.f3 k j i) (P.f3 (k+1) j i)) +
    s.r3 * D.x3kp.d * (onRight s.r3 phic (P.f3 k j i) (P.f3 (k+1) j i) - phic)) }

/-- `ApplyCorr`: integrate_3d_vl.c:2733-2938, the interface fields 2910-2936. -/
noncomputable def applyCorr (c : Coef ℝ) (P : Pot) (D : Dif ns) (k j i : ℤ) (s : Sides) (S : St ℝ ns) : St ℝ ns where
  U := setAt S.U k j i (corU c P D k j i s (S.U k j i))
  B1i :=
    let B := addAt S.B1i k j i (-(c.dtodx3 * (s.r3 * D.e2_kpi - s.l3 * D.e2_ki) - c.dtodx2 * (s.r2 * D.e3_jpi - s.l2 * D.e3_ji)))
    addAt B k j (i+1) (-(c.dtodx3 * (s.r3 * D.e2_kpip - s.l3 * D.e2_kip) - c.dtodx2 * (s.r2 * D.e3_jpip - s.l2 * D.e3_jip)))
  B2i :=
    let B := addAt S.B2i k j i (-(c.dtodx1 * (s.r1 * D.e3_jip - s.l1 * D.e3_ji) - c.dtodx3 * (s.r3 * D.e1_kpj - s.l3 * D.e1_kj)))
    addAt B k (j+1) i (-(c.dtodx1 * (s.r1 * D.e3_jpip - s.l1 * D.e3_jpi) - c.dtodx3 * (s.r3 * D.e1_kpjp - s.l3 * D.e1_kjp)))
  B3i :=
    let B := addAt S.B3i k j i (-(c.dtodx2 * (s.r2 * D.e1_kjp - s.l2 * D.e1_kj) - c.dtodx1 * (s.r1 * D.e2_kip - s.l1 * D.e2_ki)))
    addAt B (k+1) j i (-(c.dtodx2 * (s.r2 * D.e1_kpjp - s.l2 * D.e1_kpj) - c.dtodx1 * (s.r1 * D.e2_kpip - s.l1 * D.e2_kpi)))

/-- The calls of `ApplyCorr` for the bad zone and its neighbours: integrate_3d_vl.c:2673-2700. -/
noncomputable def spreadCorr (c : Coef ℝ) (P : Pot) (g : Rng) (D : Dif ns) (k j i : ℤ) (S : St ℝ ns) : St ℝ ns :=
  let S := applyCorr c P D k j i ⟨1, 1, 1, 1, 1, 1⟩ S
  let S := if i > g.is then applyCorr c P D k j (i-1) ⟨-1, 0, 0, 0, 0, 0⟩ S else S
  let S := if i < g.ie then applyCorr c P D k j (i+1) ⟨0, -1, 0, 0, 0, 0⟩ S else S
  let S := if j > g.js then applyCorr c P D k (j-1) i ⟨0, 0, -1, 0, 0, 0⟩ S else S
  let S := if j < g.je then applyCorr c P D k (j+1) i ⟨0, 0, 0, -1, 0, 0⟩ S else S
  let S := if k > g.ks then applyCorr c P D (k-1) j i ⟨0, 0, 0, 0, -1, 0⟩ S else S
  if k < g.ke then applyCorr c P D (k+1) j i ⟨0, 0, 0, 0, 0, -1⟩ S else S

/-- Four edges take the values of the other array. -/
def setEdge1 (e p : Arr ℝ) (k j i : ℤ) : Arr ℝ :=
  let e := setAt e k j i (p k j i)
  let e := setAt e k (j+1) i (p k (j+1) i)
  let e := setAt e (k+1) j i (p (k+1) j i)
  setAt e (k+1) (j+1) i (p (k+1) (j+1) i)

/-- As `setEdge1`. -/
def setEdge2 (e p : Arr ℝ) (k j i : ℤ) : Arr ℝ :=
  let e := setAt e k j i (p k j i)
  let e := setAt e k j (i+1) (p k j (i+1))
  let e := setAt e (k+1) j i (p (k+1) j i)
  setAt e (k+1) j (i+1) (p (k+1) j (i+1))

/-- As `setEdge1`. -/
def setEdge3 (e p : Arr ℝ) (k j i : ℤ) : Arr ℝ :=
  let e := setAt e k j i (p k j i)
  let e := setAt e k j (i+1) (p k j (i+1))
  let e := setAt e k (j+1) i (p k (j+1) i)
  setAt e k (j+1) (i+1) (p k (j+1) (i+1))

/-- `FixCell`: integrate_3d_vl.c:2510-2731. -/
noncomputable def fixCell (c : Coef ℝ) (P : Pot) (g : Rng) (X : Fx ns) (k j i : ℤ) : Fx ns :=
  let X := keepEdges g X k j i
  let S := spreadCorr c P g (difs X k j i) k j i X.S
  { X with
    S := { S with U := loop3 (k-1) (k+1) (j-1) (j+1) (i-1) (i+1) (fun k j i => avgB S.B1i S.B2i S.B3i k j i (S.U k j i)) S.U }
    F1 := setAt (setAt X.F1 k j i (X.P1 k j i)) k j (i+1) (X.P1 k j (i+1))
    F2 := setAt (setAt X.F2 k j i (X.P2 k j i)) k (j+1) i (X.P2 k (j+1) i)
    F3 := setAt (setAt X.F3 k j i (X.P3 k j i)) (k+1) j i (X.P3 (k+1) j i)
    e1 := setEdge1 X.e1 X.p1 k j i
    e2 := setEdge2 X.e2 X.p2 k j i
    e3 := setEdge3 X.e3 X.p3 k j i }

/-- The integers from `a` to `b`, in order. -/
def span (a b : ℤ) : List ℤ := List.map (fun n : ℕ => a + (n : ℤ)) (List.range (b + 1 - a).toNat)

/-- The active zones in the order of the loop: integrate_3d_vl.c:1744-1746. -/
def zones (g : Rng) : List (ℤ × ℤ × ℤ) :=
  (span g.ks g.ke).flatMap fun k => (span g.js g.je).flatMap fun j => (span g.is g.ie).map fun i => (k, j, i)

/-- One turn of the loop.  `bad`: density or pressure below zero; integrate_3d_vl.c:1747-1767. -/
noncomputable def turn (bad : Cons ℝ ns → Bool) (c : Coef ℝ) (P : Pot) (g : Rng) (X : Fx ns) (z : ℤ × ℤ × ℤ) : Fx ns :=
  if bad (X.S.U z.1 z.2.1 z.2.2) then fixCell c P g X z.1 z.2.1 z.2.2 else X

/-- Step 14: integrate_3d_vl.c:1738-1774. -/
noncomputable def step14 (bad : Cons ℝ ns → Bool) (c : Coef ℝ) (P : Pot) (g : Rng) (X : Fx ns) : Fx ns :=
  (zones g).foldl (turn bad c P g) X

/-! ## Specification -/

/-- Zone `(k, j, i)` of the Grid is active. -/
def InGrid (g : Rng) (k j i : ℤ) : Prop := (g.ks ≤ k ∧ k ≤ g.ke) ∧ (g.js ≤ j ∧ j ≤ g.je) ∧ (g.is ≤ i ∧ i ≤ g.ie)

/-- The work of gravity on the mass that crosses the faces: integrate_3d_vl.c:1427-1460, 1471-1602. -/
noncomputable def work (c : Coef ℝ) (P : Pot) (F1 F2 F3 : Arr (Cons1 ℝ ns)) (k j i : ℤ) : ℝ :=
  c.dtodx1 * ((F1 k j i).d * (P.c k j i - P.f1 k j i) + (F1 k j (i+1)).d * (P.f1 k j (i+1) - P.c k j i)) +
  c.dtodx2 * ((F2 k j i).d * (P.c k j i - P.f2 k j i) + (F2 k (j+1) i).d * (P.f2 k (j+1) i - P.c k j i)) +
  c.dtodx3 * ((F3 k j i).d * (P.c k j i - P.f3 k j i) + (F3 (k+1) j i).d * (P.f3 (k+1) j i - P.c k j i))

/-- The Grid is what the step makes of the state `S0` with the fluxes and electric fields at hand: every active zone and every face of
one, the energy less the work of gravity. -/
structure Made (c : Coef ℝ) (P : Pot) (g : Rng) (S0 : St ℝ ns) (X : Fx ns) : Prop where
  U : ∀ k j i, InGrid g k j i → X.S.U k j i =
    let u := (update c g S0 X.F1 X.F2 X.F3 X.e1 X.e2 X.e3).U k j i
    { u with E := u.E - work c P X.F1 X.F2 X.F3 k j i }
  B1 : ∀ k j i, g.ks ≤ k → k ≤ g.ke → g.js ≤ j → j ≤ g.je → g.is ≤ i → i ≤ g.ie + 1 →
    X.S.B1i k j i = (update c g S0 X.F1 X.F2 X.F3 X.e1 X.e2 X.e3).B1i k j i
  B2 : ∀ k j i, g.ks ≤ k → k ≤ g.ke → g.js ≤ j → j ≤ g.je + 1 → g.is ≤ i → i ≤ g.ie →
    X.S.B2i k j i = (update c g S0 X.F1 X.F2 X.F3 X.e1 X.e2 X.e3).B2i k j i
  B3 : ∀ k j i, g.ks ≤ k → k ≤ g.ke + 1 → g.js ≤ j → j ≤ g.je → g.is ≤ i → i ≤ g.ie →
    X.S.B3i k j i = (update c g S0 X.F1 X.F2 X.F3 X.e1 X.e2 X.e3).B3i k j i

end Athena.Fofc
