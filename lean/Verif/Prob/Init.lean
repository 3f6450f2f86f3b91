import Verif.Mesh.Pos
import Mathlib.Analysis.SpecialFunctions.Trigonometric.Arctan
import Mathlib.Analysis.SpecialFunctions.Pow.Real

/-!
# src/prob: the initial states of seven test problems with magnetic fields

`field_loop.c`, `linear_wave.c`, `cpaw.c`, `orszag-tang.c`, `rotor.c`, `blast.c`, `current_sheet.c`, compiled
with MHD and an adiabatic equation of state, without passive scalars, on one Grid (one call of `problem`).

Simplifications: exact reals; the members of `ConsS` and the face fields are arrays indexed by integers, zero
where the generator does not write them (`calloc_3d_array`, init_grid.c:170-182); a nest of loops whose bodies
write the entry of their own indices only is the update of a block of the array.  Parameters are given as
numbers; the solution at the final time kept for the computation of errors is not modelled.
-/

namespace Athena.Prob
open Athena.Pos
noncomputable section

/-- The members of `GridS` used: positions and index ranges of the three directions. -/
structure Grd where
  x1 : Axis
  x2 : Axis
  x3 : Axis

/-- `pG->Nx[d]`. -/
def nx (a : Axis) : ℤ := a.e - a.s + 1

/-- `array[k][j][i]`. -/
abbrev Arr := ℤ → ℤ → ℤ → ℝ

/-- `calloc_3d_array`, ath_array.c. -/
def zeros : Arr := fun _ _ _ => 0

/-- Three nested loops `k0 ≤ k ≤ k1`, `j0 ≤ j ≤ j1`, `i0 ≤ i ≤ i1` that assign `f k j i` to the entry. -/
def fill (k0 k1 j0 j1 i0 i1 : ℤ) (f old : Arr) : Arr := fun k j i =>
  if (k0 ≤ k ∧ k ≤ k1) ∧ (j0 ≤ j ∧ j ≤ j1) ∧ (i0 ≤ i ∧ i ≤ i1) then f k j i else old k j i

/-- The members of `ConsS` and the face fields of a Grid. -/
structure St where
  d : Arr
  m1 : Arr
  m2 : Arr
  m3 : Arr
  e : Arr
  b1c : Arr
  b2c : Arr
  b3c : Arr
  b1 : Arr
  b2 : Arr
  b3 : Arr

/-- A block of active zones. -/
def zones (G : Grd) (f : Arr) : Arr :=
  fill G.x3.s G.x3.e G.x2.s G.x2.e G.x1.s G.x1.e f zeros

/-- `if (ke > ks) ku = ke+1 else ku = ke`, field_loop.c:273-277. -/
def up (a : Axis) : ℤ := if a.e > a.s then a.e + 1 else a.e

/-! ## field_loop.c -/

/-- Parameters of `<problem>` and the sizes of the root Domain, field_loop.c:81-85, 100-101, 231-233. -/
structure LoopPar where
  rad : ℝ
  amp : ℝ
  vflow : ℝ
  drat : ℝ
  iprob : ℤ
  size1 : ℝ
  size2 : ℝ
  size3 : ℝ

/-- `ang_2`, `cos_a2`, `sin_a2`, field_loop.c:108-116. -/
def loopCos (p : LoopPar) : ℝ :=
  if p.size1 = p.size3 then Real.sqrt (1/2) else Real.cos (Real.arctan (p.size1 / p.size3))
/-- field_loop.c:108-116. -/
def loopSin (p : LoopPar) : ℝ :=
  if p.size1 = p.size3 then Real.sqrt (1/2) else Real.sin (Real.arctan (p.size1 / p.size3))

/-- `lambda`, field_loop.c:118-122. -/
def loopLambda (p : LoopPar) : ℝ :=
  if loopSin p ≤ loopCos p then p.size1 * loopCos p else p.size3 * loopSin p

/-- `while(x > 0.5*lambda) x -= lambda;`, field_loop.c:187, 200, for positive `lambda`: the number of turns of
the loop is written with the ceiling. -/
def down (l x : ℝ) : ℝ := if x > 1/2 * l then x - ⌈(x - 1/2 * l) / l⌉ * l else x

/-- `while(x < -0.5*lambda) x += lambda;`, field_loop.c:188, 201. -/
def lift (l x : ℝ) : ℝ := if x < -(1/2) * l then x + ⌈(-(1/2) * l - x) / l⌉ * l else x

/-- `if (q < rad*rad) amp*(rad - sqrt(q)) else 0`, field_loop.c:140-144 and at the other places; `q` is the
squared distance. -/
def cone (p : LoopPar) (q : ℝ) : ℝ := if q < p.rad * p.rad then p.amp * (p.rad - Real.sqrt q) else 0

/-- The body of the loop for `ax[k][j][i]`, field_loop.c:137-224; arguments are `x1c, x2c, x3c` and `x1f, x2f, x3f`. -/
def loopAx (p : LoopPar) (c1 _c2 _c3 _f1 f2 f3 : ℝ) : ℝ :=
  if p.iprob = 1 then 0
  else if p.iprob = 2 then cone p (f2 * f2 + f3 * f3)
  else if p.iprob = 3 then 0
  else if p.iprob = 4 then
    let x := lift (loopLambda p) (down (loopLambda p) (c1 * loopCos p + f3 * loopSin p))
    cone p (x * x + f2 * f2) * (-loopSin p)
  else 0

/-- The body of the loop for `ay[k][j][i]`, field_loop.c:137-224. -/
def loopAy (p : LoopPar) (_c1 c2 _c3 f1 _f2 f3 : ℝ) : ℝ :=
  if p.iprob = 1 then 0
  else if p.iprob = 2 then 0
  else if p.iprob = 3 then cone p (f1 * f1 + f3 * f3)
  else if p.iprob = 4 then 0
  else if p.iprob = 5 then cone p (f1 * f1 + c2 * c2 + f3 * f3)
  else 0

/-- The body of the loop for `az[k][j][i]`, field_loop.c:137-224. -/
def loopAz (p : LoopPar) (_c1 _c2 c3 f1 f2 _f3 : ℝ) : ℝ :=
  if p.iprob = 1 then cone p (f1 * f1 + f2 * f2)
  else if p.iprob = 2 then 0
  else if p.iprob = 3 then 0
  else if p.iprob = 4 then
    let x := lift (loopLambda p) (down (loopLambda p) (f1 * loopCos p + c3 * loopSin p))
    cone p (x * x + f2 * f2) * loopCos p
  else if p.iprob = 5 then cone p (f1 * f1 + f2 * f2 + c3 * c3)
  else 0

/-- The position of the lower face of a zone, `x1c - 0.5*pGrid->dx1`, field_loop.c:131-133. -/
def low (a : Axis) (i : ℤ) : ℝ := ccPos a i - 1/2 * a.dx

/-- The loops over `ks..ke+1`, `js..je+1`, `is..ie+1`, field_loop.c:127-129; linear_wave.c:249-251. -/
def edges (G : Grd) (f : Arr) : Arr :=
  fill G.x3.s (G.x3.e + 1) G.x2.s (G.x2.e + 1) G.x1.s (G.x1.e + 1) f zeros

/-- A component of the vector potential of field_loop.c as an array. -/
def loopArr (G : Grd) (A : ℝ → ℝ → ℝ → ℝ → ℝ → ℝ → ℝ) : Arr := edges G fun k j i =>
  A (ccPos G.x1 i) (ccPos G.x2 j) (ccPos G.x3 k) (low G.x1 i) (low G.x2 j) (low G.x3 k)

/-- `B1i`, field_loop.c:261-266. -/
def loopB1 (G : Grd) (p : LoopPar) : Arr :=
  let ay := loopArr G (loopAy p)
  let az := loopArr G (loopAz p)
  fill G.x3.s G.x3.e G.x2.s G.x2.e G.x1.s (G.x1.e + 1)
    (fun k j i => (az k (j+1) i - az k j i) / G.x2.dx - (ay (k+1) j i - ay k j i) / G.x3.dx) zeros

/-- `B2i`, field_loop.c:267-272. -/
def loopB2 (G : Grd) (p : LoopPar) : Arr :=
  let ax := loopArr G (loopAx p)
  let az := loopArr G (loopAz p)
  fill G.x3.s G.x3.e G.x2.s (G.x2.e + 1) G.x1.s G.x1.e
    (fun k j i => (ax (k+1) j i - ax k j i) / G.x3.dx - (az k j (i+1) - az k j i) / G.x1.dx) zeros

/-- `B3i`, field_loop.c:273-284. -/
def loopB3 (G : Grd) (p : LoopPar) : Arr :=
  let ax := loopArr G (loopAx p)
  let ay := loopArr G (loopAy p)
  fill G.x3.s (up G.x3) G.x2.s G.x2.e G.x1.s G.x1.e
    (fun k j i => (ay k j (i+1) - ay k j i) / G.x1.dx - (ax k (j+1) i - ax k j i) / G.x2.dx) zeros

/-- The total energy from a pressure over `Gamma_1`, field_loop.c:305-312; orszag-tang.c:94-98; cpaw.c:341-347. -/
def energy (pg d m1 m2 m3 b1 b2 b3 : ℝ) : ℝ :=
  pg + 1/2 * (b1 ^ 2 + b2 ^ 2 + b3 ^ 2) + 1/2 * (m1 ^ 2 + m2 ^ 2 + m3 ^ 2) / d

/-- `problem`, field_loop.c:42-322. -/
def fieldLoop (G : Grd) (p : LoopPar) (gamma1 : ℝ) : St :=
  let b1 := loopB1 G p
  let b2 := loopB2 G p
  let b3 := loopB3 G p
  let diag := Real.sqrt (p.size1 * p.size1 + p.size2 * p.size2 + p.size3 * p.size3)
  let d := zones G fun k j i =>
    let x1 := ccPos G.x1 i
    let x2 := ccPos G.x2 j
    let x3 := ccPos G.x3 k
    if x1 * x1 + x2 * x2 + x3 * x3 < p.rad * p.rad then p.drat else 1
  let m1 := zones G fun k j i => d k j i * p.vflow * p.size1 / diag
  let m2 := zones G fun k j i => d k j i * p.vflow * p.size2 / diag
  let m3 := zones G fun k j i => d k j i * p.vflow * p.size3 / diag
  let b1c := zones G fun k j i => 1/2 * (b1 k j i + b1 k j (i+1))
  let b2c := zones G fun k j i => 1/2 * (b2 k j i + b2 k (j+1) i)
  let b3c := zones G fun k j i => if G.x3.e > G.x3.s then 1/2 * (b3 k j i + b3 (k+1) j i) else b3 k j i
  { d := d, m1 := m1, m2 := m2, m3 := m3, b1c := b1c, b2c := b2c, b3c := b3c, b1 := b1, b2 := b2, b3 := b3
    e := zones G fun k j i =>
      energy (1 / gamma1) (d k j i) (m1 k j i) (m2 k j i) (m3 k j i) (b1c k j i) (b2c k j i) (b3c k j i) }

/-! ## linear_wave.c and cpaw.c -/

/-- `sin_a2, cos_a2, sin_a3, cos_a3`. -/
structure Ang where
  s2 : ℝ
  c2 : ℝ
  s3 : ℝ
  c3 : ℝ

/-- `ang_3`, linear_wave.c:160; cpaw.c:155: -999.9 stands for an angle that is not given. -/
def ang3 (a l1 l2 : ℝ) : ℝ := if a = -999.9 then Real.arctan (l1 / l2) else a

/-- `ang_2`, linear_wave.c:164; cpaw.c:159. -/
def ang2 (a a3 l1 l2 l3 : ℝ) : ℝ :=
  if a = -999.9 then Real.arctan (1/2 * (l1 * Real.cos a3 + l2 * Real.sin a3) / l3) else a

/-- linear_wave.c:160-166; cpaw.c:155-161: the angles for the entries `a2`, `a3` of `<problem>` and the sizes
of the root Domain. -/
def angles (a2 a3 l1 l2 l3 : ℝ) : Ang where
  s3 := Real.sin (ang3 a3 l1 l2)
  c3 := Real.cos (ang3 a3 l1 l2)
  s2 := Real.sin (ang2 a2 (ang3 a3 l1 l2) l1 l2 l3)
  c2 := Real.cos (ang2 a2 (ang3 a3 l1 l2) l1 l2 l3)

/-- `lambda`, linear_wave.c:168-175; cpaw.c:163-171. -/
def waveLen (G : Grd) (a2 a3 l1 l2 l3 : ℝ) : ℝ :=
  let an := angles a2 a3 l1 l2 l3
  let x1 := l1 * an.c2 * an.c3
  let x2 := l2 * an.c2 * an.s3
  let x3 := l3 * an.s2
  let l := x1
  let l := if nx G.x2 > 1 ∧ ang3 a3 l1 l2 ≠ 0 then min l x2 else l
  if nx G.x3 > 1 ∧ ang2 a2 (ang3 a3 l1 l2) l1 l2 l3 ≠ 0 then min l x3 else l

/-- The parameters of the waves: those shared with the functions `A1`, `A2`, `A3` (linear_wave.c:74-80,
cpaw.c:79-85). -/
structure WavePar where
  an : Ang
  /-- `k_par` -/
  kp : ℝ
  /-- `bx0`; `b_par` in cpaw.c -/
  bx : ℝ
  by' : ℝ
  bz : ℝ
  /-- `dby`; `b_perp` in cpaw.c -/
  dby : ℝ
  dbz : ℝ
  /-- `fac` of cpaw.c -/
  fac : ℝ

/-- `x`, linear_wave.c:841, 860, 879; cpaw.c:695, 714, 733. -/
def along (n : Ang) (x1 x2 x3 : ℝ) : ℝ := x1 * n.c2 * n.c3 + x2 * n.c2 * n.s3 + x3 * n.s2

/-- `y`, linear_wave.c:842, 861, 880; cpaw.c:696, 715, 734. -/
def across (n : Ang) (x1 x2 : ℝ) : ℝ := -x1 * n.s3 + x2 * n.c3

/-- `Ay`, linear_wave.c:844. -/
def linAy (p : WavePar) (x : ℝ) : ℝ := p.bz * x - p.dbz / p.kp * Real.cos (p.kp * (x - 0))

/-- `Az`, linear_wave.c:845. -/
def linAz (p : WavePar) (x y : ℝ) : ℝ :=
  -p.by' * x + p.dby / p.kp * Real.cos (p.kp * (x - 0)) + p.bx * y

/-- `Ay`, cpaw.c:698. -/
def cpAy (p : WavePar) (x : ℝ) : ℝ := p.fac * (p.dby / p.kp) * Real.sin (p.kp * (x - 0))

/-- `Az`, cpaw.c:699. -/
def cpAz (p : WavePar) (x y : ℝ) : ℝ := p.dby / p.kp * Real.cos (p.kp * (x - 0)) + p.bx * y

/-- A vector potential: the functions `Ay` and `Az` of the frame of the wave. -/
structure Pot where
  ay : ℝ → ℝ
  az : ℝ → ℝ → ℝ

/-- `A1`, linear_wave.c:836-848; cpaw.c:690-702. -/
def A1 (n : Ang) (q : Pot) (x1 x2 x3 : ℝ) : ℝ :=
  -q.ay (along n x1 x2 x3) * n.s3 - q.az (along n x1 x2 x3) (across n x1 x2) * n.s2 * n.c3

/-- `A2`, linear_wave.c:855-867; cpaw.c:709-721. -/
def A2 (n : Ang) (q : Pot) (x1 x2 x3 : ℝ) : ℝ :=
  q.ay (along n x1 x2 x3) * n.c3 - q.az (along n x1 x2 x3) (across n x1 x2) * n.s2 * n.s3

/-- `A3`, linear_wave.c:874-885; cpaw.c:728-739. -/
def A3 (n : Ang) (q : Pot) (x1 x2 x3 : ℝ) : ℝ :=
  q.az (along n x1 x2 x3) (across n x1 x2) * n.c2

/-- The vector potential of linear_wave.c. -/
def linPot (p : WavePar) : Pot := ⟨linAy p, linAz p⟩
/-- The vector potential of cpaw.c. -/
def cpPot (p : WavePar) : Pot := ⟨cpAy p, cpAz p⟩

/-- Face fields and their means at the zones. -/
structure Fld where
  b1 : Arr
  b2 : Arr
  b3 : Arr

/-- The face fields of linear_wave.c:248-304. -/
def linFld (G : Grd) (n : Ang) (q : Pot) : Fld :=
  let a1 := edges G fun k j i => A1 n q (ccPos G.x1 i) (low G.x2 j) (low G.x3 k)
  let a2 := edges G fun k j i => A2 n q (low G.x1 i) (ccPos G.x2 j) (low G.x3 k)
  let a3 := edges G fun k j i => A3 n q (low G.x1 i) (low G.x2 j) (ccPos G.x3 k)
  { b1 := fill G.x3.s G.x3.e G.x2.s G.x2.e G.x1.s (G.x1.e + 1)
      (fun k j i => (a3 k (j+1) i - a3 k j i) / G.x2.dx - (a2 (k+1) j i - a2 k j i) / G.x3.dx) zeros
    b2 := if nx G.x2 > 1 then
        fill G.x3.s G.x3.e G.x2.s (G.x2.e + 1) G.x1.s G.x1.e
          (fun k j i => (a1 (k+1) j i - a1 k j i) / G.x3.dx - (a3 k j (i+1) - a3 k j i) / G.x1.dx) zeros
      else
        fill G.x3.s G.x3.s G.x2.s G.x2.s G.x1.s G.x1.e
          (fun _ _ i => -(a3 G.x3.s G.x2.s (i+1) - a3 G.x3.s G.x2.s i) / G.x1.dx) zeros
    b3 := if nx G.x3 > 1 then
        fill G.x3.s (G.x3.e + 1) G.x2.s G.x2.e G.x1.s G.x1.e
          (fun k j i => (a2 k j (i+1) - a2 k j i) / G.x1.dx - (a1 k (j+1) i - a1 k j i) / G.x2.dx) zeros
      else
        fill G.x3.s G.x3.s G.x2.s G.x2.e G.x1.s G.x1.e
          (fun _ j i => (a2 G.x3.s j (i+1) - a2 G.x3.s j i) / G.x1.dx
            - (a1 G.x3.s (j+1) i - a1 G.x3.s j i) / G.x2.dx) zeros }

/-- The face fields of cpaw.c:207-272.  The loops for a direction with one zone leave out the loops over `j`
and `k` but use the variables, which keep the values the loops before them ended with (`je+1`, `ke+1`). -/
def cpFld (G : Grd) (n : Ang) (q : Pot) : Fld :=
  let d1 := G.x1.dx
  let d2 := G.x2.dx
  let d3 := G.x3.dx
  let h1 := 1/2 * d1
  let h2 := 1/2 * d2
  let h3 := 1/2 * d3
  { b1 := fill G.x3.s G.x3.e G.x2.s G.x2.e G.x1.s (G.x1.e + 1) (fun k j i =>
      let x1 := low G.x1 i
      let x2 := low G.x2 j
      let x3 := low G.x3 k
      (A3 n q x1 (x2 + d2) (x3 + h3) - A3 n q x1 x2 (x3 + h3)) / d2
        - (A2 n q x1 (x2 + h2) (x3 + d3) - A2 n q x1 (x2 + h2) x3) / d3) zeros
    b2 := if nx G.x2 > 1 then
        fill G.x3.s G.x3.e G.x2.s (G.x2.e + 1) G.x1.s G.x1.e (fun k j i =>
          let x1 := low G.x1 i
          let x2 := low G.x2 j
          let x3 := low G.x3 k
          (A1 n q (x1 + h1) x2 (x3 + d3) - A1 n q (x1 + h1) x2 x3) / d3
            - (A3 n q (x1 + d1) x2 (x3 + h3) - A3 n q x1 x2 (x3 + h3)) / d1) zeros
      else
        fill G.x3.s G.x3.s G.x2.s G.x2.s G.x1.s G.x1.e (fun _ _ i =>
          let x1 := low G.x1 i
          let x2 := low G.x2 (G.x2.e + 1)
          let x3 := low G.x3 (G.x3.e + 1)
          let v := A3 n q (x1 + d1) x2 (x3 + h3) - A3 n q x1 x2 (x3 + h3);
          -v / d1) zeros
    b3 := if nx G.x3 > 1 then
        fill G.x3.s (G.x3.e + 1) G.x2.s G.x2.e G.x1.s G.x1.e (fun k j i =>
          let x1 := low G.x1 i
          let x2 := low G.x2 j
          let x3 := low G.x3 k
          (A2 n q (x1 + d1) (x2 + h2) x3 - A2 n q x1 (x2 + h2) x3) / d1
            - (A1 n q (x1 + h1) (x2 + d2) x3 - A1 n q (x1 + h1) x2 x3) / d2) zeros
      else
        fill G.x3.s G.x3.s G.x2.s G.x2.e G.x1.s G.x1.e (fun _ j i =>
          let x1 := low G.x1 i
          let x2 := low G.x2 j
          let x3 := low G.x3 (G.x3.e + 1)
          (A2 n q (x1 + d1) (x2 + h2) x3 - A2 n q x1 (x2 + h2) x3) / d1
            - (A1 n q (x1 + h1) (x2 + d2) x3 - A1 n q (x1 + h1) x2 x3) / d2) zeros }

/-- The cell-centred fields, linear_wave.c:306-311; cpaw.c:274-279. -/
def centre1 (G : Grd) (F : Fld) : Arr := zones G fun k j i => 1/2 * (F.b1 k j i + F.b1 k j (i+1))
/-- linear_wave.c:313-323; cpaw.c:281-291. -/
def centre2 (G : Grd) (F : Fld) : Arr :=
  if nx G.x2 > 1 then zones G fun k j i => 1/2 * (F.b2 k j i + F.b2 k (j+1) i)
  else fill G.x3.s G.x3.s G.x2.s G.x2.s G.x1.s G.x1.e (fun _ _ i => F.b2 G.x3.s G.x2.s i) zeros
/-- linear_wave.c:325-336; cpaw.c:293-304. -/
def centre3 (G : Grd) (F : Fld) : Arr :=
  if nx G.x3 > 1 then zones G fun k j i => 1/2 * (F.b3 k j i + F.b3 (k+1) j i)
  else fill G.x3.s G.x3.s G.x2.s G.x2.e G.x1.s G.x1.e (fun _ j i => F.b3 G.x3.s j i) zeros

/-- The momenta of the frame of the wave turned into the frame of the Grid, linear_wave.c:356-358;
cpaw.c:322-324. -/
def turn1 (n : Ang) (mx my mz : ℝ) : ℝ := mx * n.c2 * n.c3 - my * n.s3 - mz * n.s2 * n.c3
/-- linear_wave.c:357. -/
def turn2 (n : Ang) (mx my mz : ℝ) : ℝ := mx * n.c2 * n.s3 + my * n.c3 - mz * n.s2 * n.s3
/-- linear_wave.c:358. -/
def turn3 (n : Ang) (mx mz : ℝ) : ℝ := mx * n.s2 + mz * n.c2

/-- The entries of the column `wave_flag` of the matrix of right eigenvectors and the other numbers of
linear_wave.c:183-246. -/
structure LinPar where
  w : WavePar
  amp : ℝ
  vflow : ℝ
  d0 : ℝ
  p0 : ℝ
  r0 : ℝ
  r1 : ℝ
  r2 : ℝ
  r3 : ℝ
  r4 : ℝ

/-- `problem`, linear_wave.c:99-375. -/
def linearWave (G : Grd) (p : LinPar) (gamma1 : ℝ) : St :=
  let n := p.w.an
  let F := linFld G n (linPot p.w)
  let sn : Arr := fun k j i =>
    Real.sin (p.w.kp * (n.c2 * (ccPos G.x1 i * n.c3 + ccPos G.x2 j * n.s3) + ccPos G.x3 k * n.s2))
  let mx : Arr := fun k j i => p.d0 * p.vflow + p.amp * sn k j i * p.r1
  let my : Arr := fun k j i => p.amp * sn k j i * p.r2
  let mz : Arr := fun k j i => p.amp * sn k j i * p.r3
  { d := zones G fun k j i => p.d0 + p.amp * sn k j i * p.r0
    m1 := zones G fun k j i => turn1 n (mx k j i) (my k j i) (mz k j i)
    m2 := zones G fun k j i => turn2 n (mx k j i) (my k j i) (mz k j i)
    m3 := zones G fun k j i => turn3 n (mx k j i) (mz k j i)
    e := zones G fun k j i => p.p0 / gamma1 + 1/2 * p.d0 * p.vflow * p.vflow
      + 1/2 * (p.w.bx * p.w.bx + p.w.by' * p.w.by' + p.w.bz * p.w.bz) + p.amp * sn k j i * p.r4
    b1c := centre1 G F, b2c := centre2 G F, b3c := centre3 G F, b1 := F.b1, b2 := F.b2, b3 := F.b3 }

/-- The numbers of cpaw.c:134-202 that are not in `WavePar`. -/
structure CpPar where
  w : WavePar
  vpar : ℝ
  vperp : ℝ
  pres : ℝ

/-- `problem`, cpaw.c:101-352; `den` is 1. -/
def cpaw (G : Grd) (p : CpPar) (gamma1 : ℝ) : St :=
  let n := p.w.an
  let F := cpFld G n (cpPot p.w)
  let x : Arr := fun k j i => n.c2 * (ccPos G.x1 i * n.c3 + ccPos G.x2 j * n.s3) + ccPos G.x3 k * n.s2
  let my : Arr := fun k j i => -p.w.fac * p.vperp * Real.sin (p.w.kp * x k j i)
  let mz : Arr := fun k j i => -p.vperp * (p.w.fac * Real.cos (p.w.kp * x k j i))
  let m1 := zones G fun k j i => turn1 n p.vpar (my k j i) (mz k j i)
  let m2 := zones G fun k j i => turn2 n p.vpar (my k j i) (mz k j i)
  let m3 := zones G fun k j i => turn3 n p.vpar (mz k j i)
  { d := zones G fun _ _ _ => 1
    m1 := m1, m2 := m2, m3 := m3
    e := zones G fun k j i => energy (p.pres / gamma1) 1 (m1 k j i) (m2 k j i) (m3 k j i)
      (centre1 G F k j i) (centre2 G F k j i) (centre3 G F k j i)
    b1c := centre1 G F, b2c := centre2 G F, b3c := centre3 G F, b1 := F.b1, b2 := F.b2, b3 := F.b3 }

/-! ## orszag-tang.c -/

/-- `az`, orszag-tang.c:52-59. -/
def otAz (G : Grd) : ℤ → ℤ → ℝ := fun j i =>
  if (G.x2.s ≤ j ∧ j ≤ G.x2.e + 1) ∧ (G.x1.s ≤ i ∧ i ≤ G.x1.e + 1) then
    1 / Real.sqrt (4 * Real.pi) / (4 * Real.pi) * Real.cos (4 * Real.pi * low G.x1 i)
      + 1 / Real.sqrt (4 * Real.pi) / (2 * Real.pi) * Real.cos (2 * Real.pi * low G.x2 j)
  else 0

/-- `problem`, orszag-tang.c:25-104. -/
def orszagTang (G : Grd) (gamma1 : ℝ) : St :=
  let d0 := 25 / (36 * Real.pi)
  let p0 := 5 / (12 * Real.pi)
  let k0 := G.x3.s
  let b1 := fill k0 k0 G.x2.s G.x2.e G.x1.s (G.x1.e + 1)
    (fun _ j i => (otAz G (j+1) i - otAz G j i) / G.x2.dx) zeros
  let b2 := fill k0 k0 G.x2.s (G.x2.e + 1) G.x1.s G.x1.e
    (fun _ j i => -(otAz G j (i+1) - otAz G j i) / G.x1.dx) zeros
  let plane := fun f => fill k0 k0 G.x2.s G.x2.e G.x1.s G.x1.e f zeros
  let d := plane fun _ _ _ => d0
  let m1 := plane fun _ j _ => -d0 * Real.sin (2 * Real.pi * ccPos G.x2 j)
  let m2 := plane fun _ _ i => d0 * Real.sin (2 * Real.pi * ccPos G.x1 i)
  let b1c := plane fun k j i => 1/2 * (b1 k j i + b1 k j (i+1))
  let b2c := plane fun k j i => 1/2 * (b2 k j i + b2 k (j+1) i)
  { d := d, m1 := m1, m2 := m2, m3 := zeros, b1c := b1c, b2c := b2c, b3c := zeros, b1 := b1, b2 := b2, b3 := zeros
    e := plane fun k j i =>
      energy (p0 / gamma1) (d k j i) (m1 k j i) (m2 k j i) 0 (b1c k j i) (b2c k j i) 0 }

/-! ## rotor.c -/

/-- The parameters of rotor.c:41-45. -/
structure RotorPar where
  v0 : ℝ
  p0 : ℝ
  bx0 : ℝ
  r0 : ℝ
  r1 : ℝ

/-- The density, rotor.c:57, 71-85. -/
def rotorD (p : RotorPar) (rad : ℝ) : ℝ :=
  if rad ≤ p.r0 then 10 else if rad ≤ p.r1 then 1 + 9 * ((0.115 - rad) / 0.015) else 1

/-- The factor of the momenta `M1 = -w*x2`, `M2 = w*x1`, rotor.c:58-59, 73-74, 80-83. -/
def rotorW (p : RotorPar) (rad : ℝ) : ℝ :=
  if rad ≤ p.r0 then 100 * p.v0
  else if rad ≤ p.r1 then (0.115 - rad) / 0.015 * 100 * p.v0 else 0

/-- `problem`, rotor.c:33-100. -/
def rotor (G : Grd) (p : RotorPar) (gamma1 : ℝ) : St :=
  let rad : ℤ → ℤ → ℝ := fun j i => Real.sqrt (ccPos G.x1 i * ccPos G.x1 i + ccPos G.x2 j * ccPos G.x2 j)
  let d := zones G fun _ j i => rotorD p (rad j i)
  let m1 := zones G fun _ j i => -(rotorW p (rad j i)) * ccPos G.x2 j
  let m2 := zones G fun _ j i => rotorW p (rad j i) * ccPos G.x1 i
  { d := d, m1 := m1, m2 := m2, m3 := zeros
    b1c := zones G fun _ _ _ => p.bx0, b2c := zeros, b3c := zeros
    b1 := fill G.x3.s G.x3.e G.x2.s G.x2.e (G.x1.e + 1) (G.x1.e + 1) (fun _ _ _ => p.bx0)
      (zones G fun _ _ _ => p.bx0)
    b2 := zeros, b3 := zeros
    e := zones G fun k j i => p.p0 / gamma1 + 1/2 * p.bx0 * p.bx0
      + 1/2 * (m1 k j i ^ 2 + m2 k j i ^ 2) / d k j i }

/-! ## blast.c and current_sheet.c -/

/-- The total energy of `Prim1D_to_Cons1D`, convert_var.c:432-461. -/
def consE (gamma1 d p vx vy vz bx by' bz : ℝ) : ℝ :=
  p / gamma1 + 1/2 * d * (vx * vx + vy * vy + vz * vz) + 1/2 * (bx * bx + by' * by' + bz * bz)

/-- The parameters of blast.c:35-43. -/
structure BlastPar where
  rin : ℝ
  pa : ℝ
  da : ℝ
  drat : ℝ
  prat : ℝ
  b0 : ℝ
  theta : ℝ

/-- `rad`, blast.c:60-61. -/
def radius (G : Grd) (k j i : ℤ) : ℝ :=
  Real.sqrt (ccPos G.x1 i * ccPos G.x1 i + ccPos G.x2 j * ccPos G.x2 j + ccPos G.x3 k * ccPos G.x3 k)

/-- `W.d`, blast.c:66-67. -/
def blastD (G : Grd) (p : BlastPar) : Arr := fun k j i => if radius G k j i < p.rin then p.drat * p.da else p.da

/-- `W.P`, blast.c:63-64. -/
def blastP (G : Grd) (p : BlastPar) : Arr := fun k j i => if radius G k j i < p.rin then p.prat * p.pa else p.pa

/-- `problem`, blast.c:23-98. -/
def blast (G : Grd) (p : BlastPar) (gamma1 : ℝ) : St :=
  let bx := p.b0 * Real.cos p.theta
  let by' := p.b0 * Real.sin p.theta
  let den := blastD G p
  let pr := blastP G p
  { d := zones G den
    m1 := zones G fun k j i => den k j i * 0
    m2 := zones G fun k j i => den k j i * 0
    m3 := zones G fun k j i => den k j i * 0
    e := zones G fun k j i => consE gamma1 (den k j i) (pr k j i) 0 0 0 bx by' 0
    b1c := zones G fun _ _ _ => bx, b2c := zones G fun _ _ _ => by', b3c := zones G fun _ _ _ => 0
    b1 := fill G.x3.s G.x3.e G.x2.s G.x2.e G.x1.s (up G.x1) (fun _ _ _ => bx) zeros
    b2 := fill G.x3.s G.x3.e G.x2.s (up G.x2) G.x1.s G.x1.e (fun _ _ _ => by') zeros
    b3 := fill G.x3.s (up G.x3) G.x2.s G.x2.e G.x1.s G.x1.e (fun _ _ _ => 0) zeros }

/-- The parameters of current_sheet.c:40-41. -/
structure SheetPar where
  uflow : ℝ
  beta : ℝ

/-- The sign of `B2i` and `B2c`, current_sheet.c:71-75. -/
def flip (x : ℝ) : ℝ := if x > 0.5 ∧ x < 1.5 then -1 else 1

/-- `problem`, current_sheet.c:27-79. -/
def currentSheet (G : Grd) (p : SheetPar) (gamma1 : ℝ) : St :=
  let vx : ℤ → ℝ := fun j => p.uflow * Real.cos (Real.pi * ccPos G.x2 j)
  { d := zones G fun _ _ _ => 1
    m1 := zones G fun _ j _ => 1 * vx j
    m2 := zones G fun _ _ _ => 1 * 0
    m3 := zones G fun _ _ _ => 1 * 0
    e := zones G fun _ j _ => consE gamma1 1 p.beta (vx j) 0 0 0 1 0
    b1c := zones G fun _ _ _ => 0
    b2c := zones G fun _ _ i => flip (ccPos G.x1 i)
    b3c := zones G fun _ _ _ => 0
    b1 := fill G.x3.s G.x3.e G.x2.s G.x2.e G.x1.s (G.x1.e + 1) (fun _ _ _ => 0) zeros
    b2 := fill G.x3.s G.x3.e G.x2.s (G.x2.e + 1) G.x1.s G.x1.e (fun _ _ i => flip (ccPos G.x1 i)) zeros
    b3 := fill G.x3.s (up G.x3) G.x2.s G.x2.e G.x1.s G.x1.e (fun _ _ _ => 0) zeros }

/-- The rows `B2i[k][row]` that current_sheet.c:66, 69, 72, 74 writes to. -/
def sheetRows (G : Grd) : ℤ → Prop := fun row => G.x2.s ≤ row ∧ row ≤ G.x2.e + 1

/-- The rows of blast.c:80, 86. -/
def blastRows (G : Grd) : ℤ → Prop := fun row => G.x2.s ≤ row ∧ row ≤ up G.x2

/-- `n2z`, the number of rows of the arrays of a Grid, init_grid.c:158-161, 179. -/
def rows (ng : ℤ) (a : Axis) : ℤ := if nx a > 1 then nx a + 2 * ng else 1

end
end Athena.Prob
