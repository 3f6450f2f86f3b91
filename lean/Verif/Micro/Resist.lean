import Verif.Micro.Visc

/-!
# src/microphysics/resistivity.c, get_eta.c: explicit Ohmic and ambipolar diffusion

Cartesian, without shearing box, adiabatic (with a barotropic equation of state the energy is absent and the rest is the same),
`Q_Hall = 0`: `EField_Hall` and its arrays `emfh`, `Bcor`, `Jcor` are not modelled.  Loops over the zones that are followed by a loop
over the outer faces are written as one loop.
-/

namespace Athena.Micro
open Athena.Bvals hiding Rng
open Athena.Vl3 Athena.Gen

def V3.zero : V3 := ⟨0, 0, 0⟩
noncomputable def V3.add (a b : V3) : V3 := ⟨a.x1 + b.x1, a.x2 + b.x2, a.x3 + b.x3⟩

section Formulas
variable {ns : ℕ} (w : Which) (q : Diff ns) (S : St ℝ ns) (eta : Arr (ℝ × ℝ × ℝ)) (J : Arr V3) (E : Arr V3)

/-- Current density: resistivity.c:154-158 (1D), 172-180 (2D), 205-216 (3D). -/
noncomputable def curl : Arr V3 := fun k j i =>
  match w with
  | .d1 => ⟨0, -((S.U k j i).B3c - (S.U k j (i-1)).B3c) / q.dx1, ((S.U k j i).B2c - (S.U k j (i-1)).B2c) / q.dx1⟩
  | .d2 => ⟨1 / q.dx2 * ((S.U k j i).B3c - (S.U k (j-1) i).B3c), -(1 / q.dx1) * ((S.U k j i).B3c - (S.U k j (i-1)).B3c),
      1 / q.dx1 * (S.B2i k j i - S.B2i k j (i-1)) - 1 / q.dx2 * (S.B1i k j i - S.B1i k (j-1) i)⟩
  | .d3 => ⟨1 / q.dx2 * (S.B3i k j i - S.B3i k (j-1) i) - 1 / q.dx3 * (S.B2i k j i - S.B2i (k-1) j i),
      1 / q.dx3 * (S.B1i k j i - S.B1i (k-1) j i) - 1 / q.dx1 * (S.B3i k j i - S.B3i k j (i-1)),
      1 / q.dx1 * (S.B2i k j i - S.B2i k j (i-1)) - 1 / q.dx2 * (S.B1i k j i - S.B1i k (j-1) i)⟩

/-- What `EField_Ohm` adds to the emf: resistivity.c:598-603 (1D; the x1-component is not touched), 612-627 (2D), 640-657 (3D). -/
noncomputable def ohm : Arr V3 := fun k j i =>
  match w with
  | .d1 => ⟨0, 0.5 * ((eta k j i).1 + (eta k j (i-1)).1) * (J k j i).x2, 0.5 * ((eta k j i).1 + (eta k j (i-1)).1) * (J k j i).x3⟩
  | .d2 => ⟨0.5 * ((eta k j i).1 + (eta k (j-1) i).1) * (J k j i).x1, 0.5 * ((eta k j i).1 + (eta k j (i-1)).1) * (J k j i).x2,
      0.25 * ((eta k j i).1 + (eta k (j-1) i).1 + (eta k j (i-1)).1 + (eta k (j-1) (i-1)).1) * (J k j i).x3⟩
  | .d3 => ⟨0.25 * ((eta k j i).1 + (eta (k-1) j i).1 + (eta k (j-1) i).1 + (eta (k-1) (j-1) i).1) * (J k j i).x1,
      0.25 * ((eta k j i).1 + (eta (k-1) j i).1 + (eta k j (i-1)).1 + (eta (k-1) j (i-1)).1) * (J k j i).x2,
      0.25 * ((eta k j i).1 + (eta k (j-1) i).1 + (eta k j (i-1)).1 + (eta k (j-1) (i-1)).1) * (J k j i).x3⟩

/-- `eta_A*(J - JdotB*B/Bsq)` for one component `Jn`, `Bn`: resistivity.c:1111-1115 and repeatedly below. -/
noncomputable def perp (etaA Jn Bn : ℝ) (J B : V3) : ℝ :=
  etaA * (Jn - (J.x1 * B.x1 + J.x2 * B.x2 + J.x3 * B.x3) * Bn / (B.x1 ^ 2 + B.x2 ^ 2 + B.x3 ^ 2 + q.tiny))

/-- What `EField_AD` adds to the emf in one dimension, resistivity.c:1100-1115.  (`J.x1` is zero there.) -/
noncomputable def ad1 : Arr V3 := fun k j i =>
  let a := 0.5 * ((eta k j i).2.2 + (eta k j (i-1)).2.2)
  let B : V3 := ⟨S.B1i k j i, 0.5 * ((S.U k j i).B2c + (S.U k j (i-1)).B2c), 0.5 * ((S.U k j i).B3c + (S.U k j (i-1)).B3c)⟩
  let I : V3 := ⟨0, (J k j i).x2, (J k j i).x3⟩
  ⟨0, perp q a I.x2 B.x2 I B, perp q a I.x3 B.x3 I B⟩

/-- Two dimensions, resistivity.c:1127-1192. -/
noncomputable def ad2 : Arr V3 := fun k j i =>
  let aX := 0.5 * ((eta k j i).2.2 + (eta k (j-1) i).2.2)
  let JX : V3 := ⟨(J k j i).x1, 0.25 * ((J k j i).x2 + (J k j (i+1)).x2 + (J k (j-1) i).x2 + (J k (j-1) (i+1)).x2),
    0.5 * ((J k j i).x3 + (J k j (i+1)).x3)⟩
  let BX : V3 := ⟨0.5 * ((S.U k j i).B1c + (S.U k (j-1) i).B1c), S.B2i k j i, 0.5 * ((S.U k j i).B3c + (S.U k (j-1) i).B3c)⟩
  let aY := 0.5 * ((eta k j i).2.2 + (eta k j (i-1)).2.2)
  let JY : V3 := ⟨0.25 * ((J k j i).x1 + (J k (j+1) i).x1 + (J k j (i-1)).x1 + (J k (j+1) (i-1)).x1), (J k j i).x2,
    0.5 * ((J k j i).x3 + (J k (j+1) i).x3)⟩
  let BY : V3 := ⟨S.B1i k j i, 0.5 * ((S.U k j i).B2c + (S.U k j (i-1)).B2c), 0.5 * ((S.U k j i).B3c + (S.U k j (i-1)).B3c)⟩
  let aZ := 0.25 * ((eta k j i).2.2 + (eta k j (i-1)).2.2 + (eta k (j-1) i).2.2 + (eta k (j-1) (i-1)).2.2)
  let JZ : V3 := ⟨0.5 * ((J k j i).x1 + (J k j (i-1)).x1), 0.5 * ((J k j i).x2 + (J k (j-1) i).x2), (J k j i).x3⟩
  let BZ : V3 := ⟨0.5 * (S.B1i k j i + S.B1i k (j-1) i), 0.5 * (S.B2i k j i + S.B2i k j (i-1)),
    0.25 * ((S.U k j i).B3c + (S.U k j (i-1)).B3c + (S.U k (j-1) i).B3c + (S.U k (j-1) (i-1)).B3c)⟩
  ⟨perp q aX JX.x1 BX.x1 JX BX, perp q aY JY.x2 BY.x2 JY BY, perp q aZ JZ.x3 BZ.x3 JZ BZ⟩

/-- Three dimensions, resistivity.c:1200-1268. -/
noncomputable def ad3 : Arr V3 := fun k j i =>
  let aX := 0.25 * ((eta k j i).2.2 + (eta (k-1) j i).2.2 + (eta k (j-1) i).2.2 + (eta (k-1) (j-1) i).2.2)
  let JX : V3 := ⟨(J k j i).x1, 0.25 * ((J k j i).x2 + (J k j (i+1)).x2 + (J k (j-1) i).x2 + (J k (j-1) (i+1)).x2),
    0.25 * ((J k j i).x3 + (J k j (i+1)).x3 + (J (k-1) j i).x3 + (J (k-1) j (i+1)).x3)⟩
  let BX : V3 := ⟨0.25 * ((S.U k j i).B1c + (S.U (k-1) j i).B1c + (S.U k (j-1) i).B1c + (S.U (k-1) (j-1) i).B1c),
    0.5 * (S.B2i k j i + S.B2i (k-1) j i), 0.5 * (S.B3i k j i + S.B3i k (j-1) i)⟩
  let aY := 0.25 * ((eta k j i).2.2 + (eta (k-1) j i).2.2 + (eta k j (i-1)).2.2 + (eta (k-1) j (i-1)).2.2)
  let JY : V3 := ⟨0.25 * ((J k j i).x1 + (J k (j+1) i).x1 + (J k j (i-1)).x1 + (J k (j+1) (i-1)).x1), (J k j i).x2,
    0.25 * ((J k j i).x3 + (J k (j+1) i).x3 + (J (k-1) j i).x3 + (J (k-1) (j+1) i).x3)⟩
  let BY : V3 := ⟨0.5 * (S.B1i k j i + S.B1i (k-1) j i),
    0.25 * ((S.U k j i).B2c + (S.U (k-1) j i).B2c + (S.U k j (i-1)).B2c + (S.U (k-1) j (i-1)).B2c), 0.5 * (S.B3i k j i + S.B3i k j (i-1))⟩
  let aZ := 0.25 * ((eta k j i).2.2 + (eta k (j-1) i).2.2 + (eta k j (i-1)).2.2 + (eta k (j-1) (i-1)).2.2)
  let JZ : V3 := ⟨0.25 * ((J k j i).x1 + (J (k+1) j i).x1 + (J k j (i-1)).x1 + (J (k+1) j (i-1)).x1),
    0.25 * ((J k j i).x2 + (J (k+1) j i).x2 + (J k (j-1) i).x2 + (J (k+1) (j-1) i).x2), (J k j i).x3⟩
  let BZ : V3 := ⟨0.5 * (S.B1i k j i + S.B1i k (j-1) i), 0.5 * (S.B2i k j i + S.B2i k j (i-1)),
    0.25 * ((S.U k j i).B3c + (S.U k j (i-1)).B3c + (S.U k (j-1) i).B3c + (S.U k (j-1) (i-1)).B3c)⟩
  ⟨perp q aX JX.x1 BX.x1 JX BX, perp q aY JY.x2 BY.x2 JY BY, perp q aZ JZ.x3 BZ.x3 JZ BZ⟩

/-- What `EField_AD` adds to the emf. -/
noncomputable def ambi : Arr V3 :=
  match w with
  | .d1 => ad1 q S eta J
  | .d2 => ad2 q S eta J
  | .d3 => ad3 q S eta J

/-- Energy flux through the x1-interfaces: resistivity.c:336-338 (1D), 349-351 (2D), 380-383 (3D). -/
noncomputable def ener1 : Arr ℝ := fun k j i =>
  match w with
  | .d1 => 0.5 * ((S.U k j i).B2c + (S.U k j (i-1)).B2c) * (E k j i).x3 - 0.5 * ((S.U k j i).B3c + (S.U k j (i-1)).B3c) * (E k j i).x2
  | .d2 => 0.25 * ((S.U k j i).B2c + (S.U k j (i-1)).B2c) * ((E k j i).x3 + (E k (j+1) i).x3)
      - 0.5 * ((S.U k j i).B3c + (S.U k j (i-1)).B3c) * (E k j i).x2
  | .d3 => 0.25 * ((S.U k j i).B2c + (S.U k j (i-1)).B2c) * ((E k j i).x3 + (E k (j+1) i).x3)
      - 0.25 * ((S.U k j i).B3c + (S.U k j (i-1)).B3c) * ((E k j i).x2 + (E (k+1) j i).x2)

/-- Energy flux through the x2-interfaces: resistivity.c:359-367 (2D), 393-400 (3D). -/
noncomputable def ener2 : Arr ℝ := fun k j i =>
  if dims w 2 then
    0.25 * ((S.U k j i).B3c + (S.U k (j-1) i).B3c) * ((E k j i).x1 + (E (k+1) j i).x1)
      - 0.25 * ((S.U k j i).B1c + (S.U k (j-1) i).B1c) * ((E k j i).x3 + (E k j (i+1)).x3)
  else
    0.5 * ((S.U k j i).B3c + (S.U k (j-1) i).B3c) * (E k j i).x1
      - 0.25 * ((S.U k j i).B1c + (S.U k (j-1) i).B1c) * ((E k j i).x3 + (E k j (i+1)).x3)

/-- Energy flux through the x3-interfaces: resistivity.c:410-413. -/
noncomputable def ener3 : Arr ℝ := fun k j i =>
  0.25 * ((S.U k j i).B1c + (S.U (k-1) j i).B1c) * ((E k j i).x2 + (E k j (i+1)).x2)
    - 0.25 * ((S.U k j i).B2c + (S.U (k-1) j i).B2c) * ((E k j i).x1 + (E k (j+1) i).x1)

/-- Change of the x1-face field: resistivity.c:482, 495 (2D), 526-527, 541-543 (3D). -/
noncomputable def dB1 : Arr ℝ := fun k j i =>
  if dims w 2 then q.dt / q.dx3 * ((E (k+1) j i).x2 - (E k j i).x2) - q.dt / q.dx2 * ((E k (j+1) i).x3 - (E k j i).x3)
  else -(q.dt / q.dx2 * ((E k (j+1) i).x3 - (E k j i).x3))

/-- Change of the x2-face field: resistivity.c:483, 498 (2D), 528-529, 546-548 (3D). -/
noncomputable def dB2 : Arr ℝ := fun k j i =>
  if dims w 2 then q.dt / q.dx1 * ((E k j (i+1)).x3 - (E k j i).x3) - q.dt / q.dx3 * ((E (k+1) j i).x1 - (E k j i).x1)
  else q.dt / q.dx1 * ((E k j (i+1)).x3 - (E k j i).x3)

/-- Change of the x3-face field (3D), resistivity.c:534-535, 557-559, and of `B3c` (2D), 489-490. -/
noncomputable def dB3 : Arr ℝ := fun k j i =>
  q.dt / q.dx2 * ((E k (j+1) i).x1 - (E k j i).x1) - q.dt / q.dx1 * ((E k j (i+1)).x2 - (E k j i).x2)

/-- 1D, resistivity.c:466-467. -/
noncomputable def ct1 (k j i : ℤ) (u : Cons ℝ ns) : Cons ℝ ns :=
  { u with B2c := u.B2c + q.dt / q.dx1 * ((E k j (i+1)).x3 - (E k j i).x3), B3c := u.B3c - q.dt / q.dx1 * ((E k j (i+1)).x2 - (E k j i).x2) }

end Formulas

section Model
variable {ns : ℕ} (w : Which) (q : Diff ns) (g : Rng)

/-- The arrays of resistivity.c:37-41 and `pG->eta_*`. -/
structure WorkR where
  J : Arr V3
  emf : Arr V3
  F1 : Arr ℝ
  F2 : Arr ℝ
  F3 : Arr ℝ
  eta : Arr (ℝ × ℝ × ℝ)

/-- The loop over active and four neighbouring zones, resistivity.c:97-127. -/
def near4 {α : Type} (f old : Arr α) : Arr α :=
  loop3 (g.ks - wid (dims w 2) 4) (g.ke + wid (dims w 2) 4) (g.js - wid (dims w 1) 4) (g.je + wid (dims w 1) 4) (g.is - 4) (g.ie + 4) f old

variable (S : St ℝ ns) (eta : Arr (ℝ × ℝ × ℝ)) (W : WorkR)

/-- `get_eta`, get_eta.c:54-87: the diffusivities of all active and ghost zones. -/
def getEta (old : Arr (ℝ × ℝ × ℝ)) : Arr (ℝ × ℝ × ℝ) :=
  loop3 (g.ks - wid (dims w 2) g.ng) (g.ke + wid (dims w 2) g.ng) (g.js - wid (dims w 1) g.ng) (g.je + wid (dims w 1) g.ng)
    (g.is - g.ng) (g.ie + g.ng) (fun k j i => q.eta (S.U k j i)) old

/-- Currents, resistivity.c:150-238: the main loop, then single components on one more layer. -/
noncomputable def cJ : Arr V3 :=
  match w with
  | .d1 => mod3 g.ks g.ks g.js g.js 0 0 (fun _ _ _ v => { v with x1 := 0 })
      (loop3 g.ks g.ks g.js g.js (g.is-3) (g.ie+4) (curl .d1 q S) W.J)
  | .d2 =>
    let A := loop3 g.ks g.ks (g.js-3) (g.je+4) (g.is-3) (g.ie+4) (curl .d2 q S) W.J
    let A := mod3 g.ks g.ks (g.js-3) (g.je+4) (g.is-4) (g.is-4) (fun k j i v => { v with x1 := (curl .d2 q S k j i).x1 }) A
    mod3 g.ks g.ks (g.js-4) (g.js-4) (g.is-3) (g.ie+4) (fun k j i v => { v with x2 := (curl .d2 q S k j i).x2 }) A
  | .d3 =>
    let A := loop3 (g.ks-3) (g.ke+4) (g.js-3) (g.je+4) (g.is-3) (g.ie+4) (curl .d3 q S) W.J
    let A := mod3 (g.ks-3) (g.ke+4) (g.js-3) (g.je+4) (g.is-4) (g.is-4) (fun k j i v => { v with x1 := (curl .d3 q S k j i).x1 }) A
    let A := mod3 (g.ks-3) (g.ke+4) (g.js-4) (g.js-4) (g.is-3) (g.ie+4) (fun k j i v => { v with x2 := (curl .d3 q S k j i).x2 }) A
    mod3 (g.ks-4) (g.ks-4) (g.js-3) (g.je+4) (g.is-3) (g.ie+4) (fun k j i v => { v with x3 := (curl .d3 q S k j i).x3 }) A

/-- Loop bounds of `EField_AD`: resistivity.c:1099 (1D), 1123-1124 (2D), 1196-1198 (3D). -/
def low (b : Bool) (x : ℤ) : ℤ := if b then x - 1 else x

/-- The emf: zeroed (:116-124), then `EField_Ohm` (:597, 609-610, 634-636) if `eta_Ohm > 0` and `EField_AD` if `Q_AD > 0` (:286-288). -/
noncomputable def cEmf : Arr V3 :=
  let A := near4 w g (fun _ _ _ => V3.zero) W.emf
  let A := if q.etaOhm > 0 then
    mod3 g.ks (g.ke + wid (dims w 2) 1) g.js (g.je + wid (dims w 1) 1) g.is (g.ie + 1)
      (fun k j i v => v.add (ohm w eta (cJ w q g S W) k j i)) A else A
  if q.qAD > 0 then
    mod3 (low (dims w 2) g.ks) (g.ke + wid (dims w 2) 1) (low (dims w 2) g.js) (g.je + wid (dims w 1) 1) (low (dims w 2) g.is) (g.ie + 1)
      (fun k j i v => v.add (ambi w q S eta (cJ w q g S W) k j i)) A else A

/-- Energy fluxes: resistivity.c:331-415. -/
noncomputable def cEn1 : Arr ℝ := loop3 g.ks g.ke g.js g.je g.is (g.ie+1) (ener1 w S (cEmf w q g S eta W)) W.F1
noncomputable def cEn2 : Arr ℝ := if dims w 1 then loop3 g.ks g.ke g.js (g.je+1) g.is g.ie (ener2 w S (cEmf w q g S eta W)) W.F2 else W.F2
noncomputable def cEn3 : Arr ℝ := if dims w 2 then loop3 g.ks (g.ke+1) g.js g.je g.is g.ie (ener3 S (cEmf w q g S eta W)) W.F3 else W.F3

/-- The energy update, resistivity.c:418-453. -/
noncomputable def cEU : Arr (Cons ℝ ns) :=
  let U := addE g (fun k j i => q.dt / q.dx1 * (cEn1 w q g S eta W k j (i+1) - cEn1 w q g S eta W k j i)) S.U
  let U := if dims w 1 then addE g (fun k j i => q.dt / q.dx2 * (cEn2 w q g S eta W k (j+1) i - cEn2 w q g S eta W k j i)) U else U
  if dims w 2 then addE g (fun k j i => q.dt / q.dx3 * (cEn3 w q g S eta W (k+1) j i - cEn3 w q g S eta W k j i)) U else U

/-- A loop over the active zones. -/
def act {α : Type} (f : ℤ → ℤ → ℤ → α → α) (A : Arr α) : Arr α := mod3 g.ks g.ke g.js g.je g.is g.ie f A

/-- `resistivity`, resistivity.c:71-567; the constrained-transport update is :455-564. -/
noncomputable def resist : St ℝ ns :=
  let E := cEmf w q g S eta W
  let U := cEU w q g S eta W
  match w with
  | .d1 =>
    let U := act g (fun k j i u => ct1 q E k j i u) U
    { S with
      U := U
      B2i := act g (fun k j i _ => (U k j i).B2c) S.B2i
      B3i := act g (fun k j i _ => (U k j i).B3c) S.B3i }
  | .d2 =>
    let B1i := mod3 g.ks g.ke g.js g.je g.is (g.ie+1) (fun k j i x => x + dB1 .d2 q E k j i) S.B1i
    let B2i := mod3 g.ks g.ke g.js (g.je+1) g.is g.ie (fun k j i x => x + dB2 .d2 q E k j i) S.B2i
    let U := act g (fun k j i u => { u with B3c := u.B3c + dB3 q E k j i }) U
    let U := act g (fun k j i u => { u with
      B1c := 0.5 * (B1i k j i + B1i k j (i+1))
      B2c := 0.5 * (B2i k j i + B2i k (j+1) i) }) U
    ⟨U, B1i, B2i, act g (fun k j i _ => (U k j i).B3c) S.B3i⟩
  | .d3 =>
    let B1i := mod3 g.ks g.ke g.js g.je g.is (g.ie+1) (fun k j i x => x + dB1 .d3 q E k j i) S.B1i
    let B2i := mod3 g.ks g.ke g.js (g.je+1) g.is g.ie (fun k j i x => x + dB2 .d3 q E k j i) S.B2i
    let B3i := mod3 g.ks (g.ke+1) g.js g.je g.is g.ie (fun k j i x => x + dB3 q E k j i) S.B3i
    let U := act g (fun k j i u => { u with
      B1c := 0.5 * (B1i k j i + B1i k j (i+1))
      B2c := 0.5 * (B2i k j i + B2i k (j+1) i)
      B3c := 0.5 * (B3i k j i + B3i (k+1) j i) }) U
    ⟨U, B1i, B2i, B3i⟩

end Model

/-! ## On the lattice -/

section Ideal
variable {ns : ℕ} (w : Which) (q : Diff ns) (eta : Arr (ℝ × ℝ × ℝ)) (L : St ℝ ns)

def lEta : Arr (ℝ × ℝ × ℝ) := fun k j i => q.eta (L.U k j i)

noncomputable def lEmf : Arr V3 := fun k j i =>
  let v := V3.zero
  let v := if q.etaOhm > 0 then v.add (ohm w eta (curl w q L) k j i) else v
  if q.qAD > 0 then v.add (ambi w q L eta (curl w q L) k j i) else v

noncomputable def lEn1 : Arr ℝ := ener1 w L (lEmf w q eta L)
noncomputable def lEn2 : Arr ℝ := ener2 w L (lEmf w q eta L)
noncomputable def lEn3 : Arr ℝ := ener3 L (lEmf w q eta L)

/-- Change of the energy of a zone. -/
noncomputable def lRE : Arr ℝ := fun k j i =>
  q.dt / q.dx1 * (lEn1 w q eta L k j (i+1) - lEn1 w q eta L k j i)
    + (if dims w 1 then q.dt / q.dx2 * (lEn2 w q eta L k (j+1) i - lEn2 w q eta L k j i) else 0)
    + if dims w 2 then q.dt / q.dx3 * (lEn3 w q eta L (k+1) j i - lEn3 w q eta L k j i) else 0

noncomputable def lB1 : Arr ℝ := fun k j i => if dims w 1 then L.B1i k j i + dB1 w q (lEmf w q eta L) k j i else L.B1i k j i
noncomputable def lB2 : Arr ℝ := fun k j i => L.B2i k j i + dB2 w q (lEmf w q eta L) k j i
noncomputable def lB3 : Arr ℝ := fun k j i => L.B3i k j i + dB3 q (lEmf w q eta L) k j i

noncomputable def lRU : Arr (Cons ℝ ns) := fun k j i =>
  let u := { L.U k j i with E := (L.U k j i).E + lRE w q eta L k j i }
  match w with
  | .d1 => ct1 q (lEmf .d1 q eta L) k j i u
  | .d2 => { u with
      B1c := 0.5 * (lB1 .d2 q eta L k j i + lB1 .d2 q eta L k j (i+1))
      B2c := 0.5 * (lB2 .d2 q eta L k j i + lB2 .d2 q eta L k (j+1) i)
      B3c := u.B3c + dB3 q (lEmf .d2 q eta L) k j i }
  | .d3 => { u with
      B1c := 0.5 * (lB1 .d3 q eta L k j i + lB1 .d3 q eta L k j (i+1))
      B2c := 0.5 * (lB2 .d3 q eta L k j i + lB2 .d3 q eta L k (j+1) i)
      B3c := 0.5 * (lB3 .d3 q eta L k j i + lB3 .d3 q eta L (k+1) j i) }

/-- `resistivity` on a lattice. -/
noncomputable def latRes : St ℝ ns :=
  ⟨lRU w q eta L, lB1 w q eta L, if dims w 1 then lB2 w q eta L else fun k j i => (lRU w q eta L k j i).B2c,
    if dims w 2 then lB3 w q eta L else fun k j i => (lRU w q eta L k j i).B3c⟩

def shiftA {α : Type} (A : Arr α) (a b d : ℤ) : Arr α := fun k j i => A (k+a) (j+b) (i+d)

variable (a b d k j i : ℤ)
theorem sCurl : curl w q (L.shift a b d) k j i = curl w q L (k+a) (j+b) (i+d) := by
  cases w <;> simp only [curl, St.shift, pm]
theorem sEmf : lEmf w q (shiftA eta a b d) (L.shift a b d) k j i = lEmf w q eta L (k+a) (j+b) (i+d) := by
  have c := fun k j i => sCurl w q L a b d k j i
  cases w
  · simp only [lEmf, ohm, ambi, ad1, c, shiftA, pm]; simp only [St.shift, pm]
  · simp only [lEmf, ohm, ambi, ad2, c, shiftA, pm, pp]; simp only [St.shift, pm]
  · simp only [lEmf, ohm, ambi, ad3, c, shiftA, pm, pp]; simp only [St.shift, pm]
theorem sEn1 : lEn1 w q (shiftA eta a b d) (L.shift a b d) k j i = lEn1 w q eta L (k+a) (j+b) (i+d) := by
  cases w <;> simp only [lEn1, ener1, sEmf, pm, pp] <;> simp only [St.shift, pm]
theorem sEn2 : lEn2 w q (shiftA eta a b d) (L.shift a b d) k j i = lEn2 w q eta L (k+a) (j+b) (i+d) := by
  simp only [lEn2, ener2, sEmf, pm, pp]; simp only [St.shift, pm]
theorem sEn3 : lEn3 w q (shiftA eta a b d) (L.shift a b d) k j i = lEn3 w q eta L (k+a) (j+b) (i+d) := by
  simp only [lEn3, ener3, sEmf, pm, pp]; simp only [St.shift, pm]
theorem sRE : lRE w q (shiftA eta a b d) (L.shift a b d) k j i = lRE w q eta L (k+a) (j+b) (i+d) := by
  simp only [lRE, sEn1, sEn2, sEn3, pp]
theorem sB1 : lB1 w q (shiftA eta a b d) (L.shift a b d) k j i = lB1 w q eta L (k+a) (j+b) (i+d) := by
  simp only [lB1, dB1, sEmf, pp]; rfl
theorem sB2 : lB2 w q (shiftA eta a b d) (L.shift a b d) k j i = lB2 w q eta L (k+a) (j+b) (i+d) := by
  simp only [lB2, dB2, sEmf, pp]; rfl
theorem sB3 : lB3 w q (shiftA eta a b d) (L.shift a b d) k j i = lB3 w q eta L (k+a) (j+b) (i+d) := by
  simp only [lB3, dB3, sEmf, pp]; rfl
theorem sRU : lRU w q (shiftA eta a b d) (L.shift a b d) k j i = lRU w q eta L (k+a) (j+b) (i+d) := by
  cases w
  · simp only [lRU, ct1, sRE, sEmf, pp]; rfl
  · simp only [lRU, dB3, sRE, sB1, sB2, sEmf, pp]; rfl
  · simp only [lRU, sRE, sB1, sB2, sB3, pp]; rfl

theorem latRes_shift : (latRes w q eta L).shift a b d = latRes w q (shiftA eta a b d) (L.shift a b d) := by
  have u : (fun k j i => lRU w q eta L (k+a) (j+b) (i+d)) = lRU w q (shiftA eta a b d) (L.shift a b d) := by
    funext k j i; rw [sRU]
  have b1 : (fun k j i => lB1 w q eta L (k+a) (j+b) (i+d)) = lB1 w q (shiftA eta a b d) (L.shift a b d) := by
    funext k j i; rw [sB1]
  have b2 : (fun k j i => lB2 w q eta L (k+a) (j+b) (i+d)) = lB2 w q (shiftA eta a b d) (L.shift a b d) := by
    funext k j i; rw [sB2]
  have b3 : (fun k j i => lB3 w q eta L (k+a) (j+b) (i+d)) = lB3 w q (shiftA eta a b d) (L.shift a b d) := by
    funext k j i; rw [sB3]
  unfold latRes
  rw [← u, ← b1, ← b2, ← b3]
  cases w <;> rfl

end Ideal

/-! ## Agreement -/

section Agreement
variable {ns : ℕ} {w : Which} {q : Diff ns} {g : Rng} {S L : St ℝ ns} {eta eta' : Arr (ℝ × ℝ × ℝ)} {W : WorkR}

/-- What the resistive update reads: the field and the diffusivities over active and ghost zones. -/
structure AgM (w : Which) (g : Rng) (eta eta' : Arr (ℝ × ℝ × ℝ)) (S L : St ℝ ns) : Prop where
  c : ∀ {k j i : ℤ}, g.ks - 4 * wid (dims w 2) 1 ≤ k → k ≤ g.ke + 4 * wid (dims w 2) 1 → g.js - 4 * wid (dims w 1) 1 ≤ j →
    j ≤ g.je + 4 * wid (dims w 1) 1 → g.is - 4 ≤ i → i ≤ g.ie + 4 →
    (S.U k j i).B1c = (L.U k j i).B1c ∧ (S.U k j i).B2c = (L.U k j i).B2c ∧ (S.U k j i).B3c = (L.U k j i).B3c ∧ eta k j i = eta' k j i
  b1 : ∀ {k j i : ℤ}, g.ks - 4 * wid (dims w 2) 1 ≤ k → k ≤ g.ke + 4 * wid (dims w 2) 1 → g.js - 4 * wid (dims w 1) 1 ≤ j →
    j ≤ g.je + 4 * wid (dims w 1) 1 → g.is - 3 ≤ i → i ≤ g.ie + 4 → S.B1i k j i = L.B1i k j i
  b2 : ∀ {k j i : ℤ}, g.ks - 4 * wid (dims w 2) 1 ≤ k → k ≤ g.ke + 4 * wid (dims w 2) 1 → g.js - 3 * wid (dims w 1) 1 ≤ j →
    j ≤ g.je + 4 * wid (dims w 1) 1 → g.is - 4 ≤ i → i ≤ g.ie + 4 → S.B2i k j i = L.B2i k j i
  b3 : ∀ {k j i : ℤ}, g.ks - 3 * wid (dims w 2) 1 ≤ k → k ≤ g.ke + 4 * wid (dims w 2) 1 → g.js - 4 * wid (dims w 1) 1 ≤ j →
    j ≤ g.je + 4 * wid (dims w 1) 1 → g.is - 4 ≤ i → i ≤ g.ie + 4 → S.B3i k j i = L.B3i k j i

theorem agEta (hg : RngOk (dims w) g) (ha : AgreeA (dims w) g S L) (old : Arr (ℝ × ℝ × ℝ)) {k j i : ℤ} (h1 : g.ks - 4 * wid (dims w 2) 1 ≤ k)
    (h2 : k ≤ g.ke + 4 * wid (dims w 2) 1) (h3 : g.js - 4 * wid (dims w 1) 1 ≤ j) (h4 : j ≤ g.je + 4 * wid (dims w 1) 1)
    (h5 : g.is - 4 ≤ i) (h6 : i ≤ g.ie + 4) : getEta w q g S old k j i = lEta q L k j i := by
  have hn := hg.hng
  have m : ∀ t, 4 * wid (dims w t) 1 ≤ wid (dims w t) g.ng := fun t => by
    rcases wid_one (dims w t) with ⟨e, e'⟩ | ⟨e, e'⟩ <;> rw [e, e'] <;> simp [wid]; exact hn
  have m1 := m 1; have m2 := m 2
  rw [getEta, loop3_in _ _ (by omega) (by omega) (by omega) (by omega) (by omega) (by omega), agU hg ha h1 h2 h3 h4 h5 h6]
  rfl

theorem agM_of (hg : RngOk (dims w) g) (ha : AgreeA (dims w) g S L) (old : Arr (ℝ × ℝ × ℝ)) : AgM w g (getEta w q g S old) (lEta q L) S L :=
  ⟨fun h1 h2 h3 h4 h5 h6 => by rw [agU hg ha h1 h2 h3 h4 h5 h6]; exact ⟨rfl, rfl, rfl, agEta hg ha old h1 h2 h3 h4 h5 h6⟩,
    agB1 hg ha, agB2 hg ha, agB3 hg ha⟩

theorem mod3_out {α : Type} {kl ku jl ju il iu : ℤ} (f : ℤ → ℤ → ℤ → α → α) (old : Arr α) {k j i : ℤ}
    (h : ¬ ((kl ≤ k ∧ k ≤ ku) ∧ (jl ≤ j ∧ j ≤ ju) ∧ (il ≤ i ∧ i ≤ iu))) : mod3 kl ku jl ju il iu f old k j i = old k j i :=
  if_neg h

variable (hg : RngOk (dims w) g) (ha : AgM w g eta eta' S L)
include ha

theorem AgM.c1 {k j i : ℤ} (h1 : g.ks - 4 * wid (dims w 2) 1 ≤ k) (h2 : k ≤ g.ke + 4 * wid (dims w 2) 1) (h3 : g.js - 4 * wid (dims w 1) 1 ≤ j)
    (h4 : j ≤ g.je + 4 * wid (dims w 1) 1) (h5 : g.is - 4 ≤ i) (h6 : i ≤ g.ie + 4) : (S.U k j i).B1c = (L.U k j i).B1c := (ha.c h1 h2 h3 h4 h5 h6).1
theorem AgM.c2 {k j i : ℤ} (h1 : g.ks - 4 * wid (dims w 2) 1 ≤ k) (h2 : k ≤ g.ke + 4 * wid (dims w 2) 1) (h3 : g.js - 4 * wid (dims w 1) 1 ≤ j)
    (h4 : j ≤ g.je + 4 * wid (dims w 1) 1) (h5 : g.is - 4 ≤ i) (h6 : i ≤ g.ie + 4) : (S.U k j i).B2c = (L.U k j i).B2c := (ha.c h1 h2 h3 h4 h5 h6).2.1
theorem AgM.c3 {k j i : ℤ} (h1 : g.ks - 4 * wid (dims w 2) 1 ≤ k) (h2 : k ≤ g.ke + 4 * wid (dims w 2) 1) (h3 : g.js - 4 * wid (dims w 1) 1 ≤ j)
    (h4 : j ≤ g.je + 4 * wid (dims w 1) 1) (h5 : g.is - 4 ≤ i) (h6 : i ≤ g.ie + 4) : (S.U k j i).B3c = (L.U k j i).B3c := (ha.c h1 h2 h3 h4 h5 h6).2.2.1
theorem AgM.e {k j i : ℤ} (h1 : g.ks - 4 * wid (dims w 2) 1 ≤ k) (h2 : k ≤ g.ke + 4 * wid (dims w 2) 1) (h3 : g.js - 4 * wid (dims w 1) 1 ≤ j)
    (h4 : j ≤ g.je + 4 * wid (dims w 1) 1) (h5 : g.is - 4 ≤ i) (h6 : i ≤ g.ie + 4) : eta k j i = eta' k j i := (ha.c h1 h2 h3 h4 h5 h6).2.2.2

include hg

theorem aJ {k j i : ℤ} (h1 : g.ks - 3 * wid (dims w 2) 1 ≤ k) (h2 : k ≤ g.ke + 4 * wid (dims w 2) 1) (h3 : g.js - 3 * wid (dims w 1) 1 ≤ j)
    (h4 : j ≤ g.je + 4 * wid (dims w 1) 1) (h5 : g.is - 3 ≤ i) (h6 : i ≤ g.ie + 4) : cJ w q g S W k j i = curl w q L k j i := by
  cases w
  · have e1 : wid (dims .d1 1) 1 = 0 := rfl
    have e2 : wid (dims .d1 2) 1 = 0 := rfl
    have c1 := hg.cj rfl; have c2 := hg.ck rfl
    have : loop3 g.ks g.ks g.js g.js (g.is-3) (g.ie+4) (curl .d1 q S) W.J k j i = curl .d1 q L k j i := by
      rw [loop3_in _ _ (by omega) (by omega) (by omega) (by omega) (by omega) (by omega)]
      simp (disch := omega) only [curl, ha.c2, ha.c3]
    unfold cJ
    dsimp only
    rw [mod3, loop3]
    split_ifs
    · rw [this]; rfl
    · exact this
  · have e1 : wid (dims .d2 1) 1 = 1 := rfl
    have e2 : wid (dims .d2 2) 1 = 0 := rfl
    have c2 := hg.ck rfl
    unfold cJ
    dsimp only
    rw [mod3_out _ _ (by omega), mod3_out _ _ (by omega), loop3_in _ _ (by omega) (by omega) (by omega) (by omega) (by omega) (by omega)]
    simp (disch := omega) only [curl, ha.c3, ha.b1, ha.b2]
  · have e1 : wid (dims .d3 1) 1 = 1 := rfl
    have e2 : wid (dims .d3 2) 1 = 1 := rfl
    unfold cJ
    dsimp only
    rw [mod3_out _ _ (by omega), mod3_out _ _ (by omega), mod3_out _ _ (by omega),
      loop3_in _ _ (by omega) (by omega) (by omega) (by omega) (by omega) (by omega)]
    simp (disch := omega) only [curl, ha.b1, ha.b2, ha.b3]

theorem aEmf {k j i : ℤ} (h1 : g.ks ≤ k) (h2 : k ≤ g.ke + wid (dims w 2) 1) (h3 : g.js ≤ j)
    (h4 : j ≤ g.je + wid (dims w 1) 1) (h5 : g.is ≤ i) (h6 : i ≤ g.ie + 1) : cEmf w q g S eta W k j i = lEmf w q eta' L k j i := by
  have e1 := wid_one (dims w 1); have e2 := wid_one (dims w 2)
  have m1 := wid_mul (dims w 1) 4; have m2 := wid_mul (dims w 2) 4
  have z : near4 w g (fun _ _ _ => V3.zero) W.emf k j i = V3.zero :=
    loop3_in _ _ (by omega) (by omega) (by omega) (by omega) (by omega) (by omega)
  have i1 : ohm w eta (cJ w q g S W) k j i = ohm w eta' (curl w q L) k j i := by
    cases w
    · have e1 : wid (dims .d1 1) 1 = 0 := rfl
      have e2 : wid (dims .d1 2) 1 = 0 := rfl
      simp (disch := omega) only [ohm, aJ hg ha, ha.e]
    · have e1 : wid (dims .d2 1) 1 = 1 := rfl
      have e2 : wid (dims .d2 2) 1 = 0 := rfl
      simp (disch := omega) only [ohm, aJ hg ha, ha.e]
    · have e1 : wid (dims .d3 1) 1 = 1 := rfl
      have e2 : wid (dims .d3 2) 1 = 1 := rfl
      simp (disch := omega) only [ohm, aJ hg ha, ha.e]
  have i2 : ambi w q S eta (cJ w q g S W) k j i = ambi w q L eta' (curl w q L) k j i := by
    cases w
    · have e1 : wid (dims .d1 1) 1 = 0 := rfl
      have e2 : wid (dims .d1 2) 1 = 0 := rfl
      simp (disch := omega) only [ambi, ad1, aJ hg ha, ha.e, ha.b1, ha.c1, ha.c2, ha.c3]
    · have e1 : wid (dims .d2 1) 1 = 1 := rfl
      have e2 : wid (dims .d2 2) 1 = 0 := rfl
      simp (disch := omega) only [ambi, ad2, aJ hg ha, ha.e, ha.b1, ha.b2, ha.c1, ha.c2, ha.c3]
    · have e1 : wid (dims .d3 1) 1 = 1 := rfl
      have e2 : wid (dims .d3 2) 1 = 1 := rfl
      simp (disch := omega) only [ambi, ad3, aJ hg ha, ha.e, ha.b1, ha.b2, ha.b3, ha.c1, ha.c2, ha.c3]
  have l : ∀ b x, low b x ≤ x := fun b x => by unfold low; split_ifs <;> omega
  have l1 := l (dims w 2) g.ks; have l2 := l (dims w 2) g.js; have l3 := l (dims w 2) g.is
  unfold cEmf lEmf
  by_cases ho : q.etaOhm > 0 <;> by_cases hq : q.qAD > 0 <;>
    simp (disch := omega) only [ho, hq, if_true, if_false, mod3_in, i1, i2, z]

theorem aEn1 {k j i : ℤ} (h1 : g.ks ≤ k) (h2 : k ≤ g.ke) (h3 : g.js ≤ j) (h4 : j ≤ g.je) (h5 : g.is ≤ i) (h6 : i ≤ g.ie + 1) :
    cEn1 w q g S eta W k j i = lEn1 w q eta' L k j i := by
  rw [cEn1, loop3_in _ _ h1 h2 h3 h4 h5 h6, lEn1]
  cases w
  · have e1 : wid (dims .d1 1) 1 = 0 := rfl
    have e2 : wid (dims .d1 2) 1 = 0 := rfl
    simp (disch := omega) only [ener1, aEmf hg ha, ha.c2, ha.c3]
  · have e1 : wid (dims .d2 1) 1 = 1 := rfl
    have e2 : wid (dims .d2 2) 1 = 0 := rfl
    simp (disch := omega) only [ener1, aEmf hg ha, ha.c2, ha.c3]
  · have e1 : wid (dims .d3 1) 1 = 1 := rfl
    have e2 : wid (dims .d3 2) 1 = 1 := rfl
    simp (disch := omega) only [ener1, aEmf hg ha, ha.c2, ha.c3]

theorem aEn2 (hw : dims w 1 = true) {k j i : ℤ} (h1 : g.ks ≤ k) (h2 : k ≤ g.ke) (h3 : g.js ≤ j) (h4 : j ≤ g.je + 1) (h5 : g.is ≤ i) (h6 : i ≤ g.ie) :
    cEn2 w q g S eta W k j i = lEn2 w q eta' L k j i := by
  have e1 := wid_on hw; have e2 := wid_one (dims w 2)
  rw [cEn2, if_pos hw, loop3_in _ _ h1 h2 h3 h4 h5 h6, lEn2]
  unfold ener2
  by_cases hz : dims w 2 = true
  · have e2 := wid_on hz
    simp only [if_pos hz]
    simp (disch := omega) only [aEmf hg ha, ha.c1, ha.c3]
  · simp only [if_neg hz]
    simp (disch := omega) only [aEmf hg ha, ha.c1, ha.c3]

theorem aEn3 (hw : dims w 2 = true) {k j i : ℤ} (h1 : g.ks ≤ k) (h2 : k ≤ g.ke + 1) (h3 : g.js ≤ j) (h4 : j ≤ g.je) (h5 : g.is ≤ i) (h6 : i ≤ g.ie) :
    cEn3 w q g S eta W k j i = lEn3 w q eta' L k j i := by
  have hw1 : dims w 1 = true := by cases w <;> simp at hw ⊢
  have e1 := wid_on hw1; have e2 := wid_on hw
  rw [cEn3, if_pos hw, loop3_in _ _ h1 h2 h3 h4 h5 h6, lEn3]
  simp (disch := omega) only [ener3, aEmf hg ha, ha.c1, ha.c2]

theorem aEU {k j i : ℤ} (hU : S.U k j i = L.U k j i)
    (h1 : g.ks ≤ k) (h2 : k ≤ g.ke) (h3 : g.js ≤ j) (h4 : j ≤ g.je) (h5 : g.is ≤ i) (h6 : i ≤ g.ie) :
    cEU w q g S eta W k j i = { L.U k j i with E := (L.U k j i).E + lRE w q eta' L k j i } := by
  unfold cEU lRE
  dsimp only
  have a1 : cEn1 w q g S eta W k j (i+1) = lEn1 w q eta' L k j (i+1) := aEn1 hg ha h1 h2 h3 h4 (by omega) (by omega)
  have a2 : cEn1 w q g S eta W k j i = lEn1 w q eta' L k j i := aEn1 hg ha h1 h2 h3 h4 h5 (by omega)
  by_cases hw : dims w 1 = true
  · have b1 : cEn2 w q g S eta W k (j+1) i = lEn2 w q eta' L k (j+1) i := aEn2 hg ha hw h1 h2 (by omega) (by omega) h5 h6
    have b2 : cEn2 w q g S eta W k j i = lEn2 w q eta' L k j i := aEn2 hg ha hw h1 h2 h3 (by omega) h5 h6
    by_cases hz : dims w 2 = true
    · have c1 : cEn3 w q g S eta W (k+1) j i = lEn3 w q eta' L (k+1) j i := aEn3 hg ha hz (by omega) (by omega) h3 h4 h5 h6
      have c2 : cEn3 w q g S eta W k j i = lEn3 w q eta' L k j i := aEn3 hg ha hz h1 (by omega) h3 h4 h5 h6
      simp only [hw, hz, if_true, addE]
      rw [mod3_in _ _ h1 h2 h3 h4 h5 h6, mod3_in _ _ h1 h2 h3 h4 h5 h6, mod3_in _ _ h1 h2 h3 h4 h5 h6, hU, a1, a2, b1, b2, c1, c2]
      ext <;> simp <;> ring
    · simp only [hw, hz, if_true, if_false, addE, Bool.false_eq_true]
      rw [mod3_in _ _ h1 h2 h3 h4 h5 h6, mod3_in _ _ h1 h2 h3 h4 h5 h6, hU, a1, a2, b1, b2]
      ext <;> simp <;> ring
  · have hz : ¬ dims w 2 = true := by cases w <;> simp at hw ⊢
    simp only [hw, hz, if_false, addE, Bool.false_eq_true]
    rw [mod3_in _ _ h1 h2 h3 h4 h5 h6, hU, a1, a2]
    ext <;> simp

theorem resist_act (h : ActEq (dims w) g S L) : ActEq (dims w) g (resist w q g S eta W) (latRes w q eta' L) := by
  have e0 := wid_on (dims0 w)
  cases w
  · have e1 : wid (dims .d1 1) 1 = 0 := rfl
    have e2 : wid (dims .d1 2) 1 = 0 := rfl
    have u : ∀ k j i : ℤ, g.ks ≤ k → k ≤ g.ke → g.js ≤ j → j ≤ g.je → g.is ≤ i → i ≤ g.ie →
        (resist .d1 q g S eta W).U k j i = lRU .d1 q eta' L k j i := by
      intro k j i h1 h2 h3 h4 h5 h6
      simp (disch := omega) only [resist, lRU, act, mod3_in, ct1, aEmf hg ha, aEU hg ha (h.U k j i h1 h2 h3 h4 h5 h6)]
    constructor
    · exact u
    · exact h.B1
    · intro k j i h1 h2 h3 h4 h5 h6
      simp only [latRes, dim11, Bool.false_eq_true, if_false]
      have h4' : j ≤ g.je := by omega
      rw [← u k j i h1 h2 h3 h4' h5 h6]
      simp (disch := omega) only [resist, act, mod3_in]
    · intro k j i h1 h2 h3 h4 h5 h6
      simp only [latRes, dim12, Bool.false_eq_true, if_false]
      have h2' : k ≤ g.ke := by omega
      rw [← u k j i h1 h2' h3 h4 h5 h6]
      simp (disch := omega) only [resist, act, mod3_in]
  · have e1 : wid (dims .d2 1) 1 = 1 := rfl
    have e2 : wid (dims .d2 2) 1 = 0 := rfl
    have u : ∀ k j i : ℤ, g.ks ≤ k → k ≤ g.ke → g.js ≤ j → j ≤ g.je → g.is ≤ i → i ≤ g.ie →
        (resist .d2 q g S eta W).U k j i = lRU .d2 q eta' L k j i := by
      intro k j i h1 h2 h3 h4 h5 h6
      simp (disch := omega) only [resist, lRU, act, mod3_in, aEmf hg ha, aEU hg ha (h.U k j i h1 h2 h3 h4 h5 h6), lB1, lB2, dB1, dB2, dB3,
        dim21, dim22, if_true, ha.b1, ha.b2, Bool.false_eq_true, if_false]
    constructor
    · exact u
    · intro k j i h1 h2 h3 h4 h5 h6
      simp (disch := omega) only [resist, latRes, mod3_in, lB1, dB1, aEmf hg ha, ha.b1, dim21, dim22, if_true, Bool.false_eq_true, if_false]
    · intro k j i h1 h2 h3 h4 h5 h6
      simp (disch := omega) only [resist, latRes, mod3_in, lB2, dB2, aEmf hg ha, ha.b2, dim21, dim22, if_true, Bool.false_eq_true, if_false]
    · intro k j i h1 h2 h3 h4 h5 h6
      simp only [latRes, dim22, Bool.false_eq_true, if_false]
      have h2' : k ≤ g.ke := by omega
      rw [← u k j i h1 h2' h3 h4 h5 h6]
      simp (disch := omega) only [resist, act, mod3_in]
  · have e1 : wid (dims .d3 1) 1 = 1 := rfl
    have e2 : wid (dims .d3 2) 1 = 1 := rfl
    constructor
    · intro k j i h1 h2 h3 h4 h5 h6
      simp (disch := omega) only [resist, latRes, lRU, act, mod3_in, aEmf hg ha, aEU hg ha (h.U k j i h1 h2 h3 h4 h5 h6), lB1, lB2, lB3, dB1, dB2, dB3,
        dim31, dim32, if_true, ha.b1, ha.b2, ha.b3]
    · intro k j i h1 h2 h3 h4 h5 h6
      simp (disch := omega) only [resist, latRes, mod3_in, lB1, dB1, aEmf hg ha, ha.b1, dim31, dim32, if_true]
    · intro k j i h1 h2 h3 h4 h5 h6
      simp (disch := omega) only [resist, latRes, mod3_in, lB2, dB2, aEmf hg ha, ha.b2, dim31, dim32, if_true]
    · intro k j i h1 h2 h3 h4 h5 h6
      simp (disch := omega) only [resist, latRes, mod3_in, lB3, dB3, aEmf hg ha, ha.b3, dim31, dim32, if_true]

end Agreement

section Results
variable {ns : ℕ}

/-- `get_eta` (called from `new_dt_diff` at the end of the previous cycle, when the Grid holds the same data) and `resistivity`. -/
noncomputable def resistE (w : Which) (q : Diff ns) (g : Rng) (S : St ℝ ns) (W : WorkR) : St ℝ ns := resist w q g S (getEta w q g S W.eta) W

noncomputable def latResE (w : Which) (q : Diff ns) (L : St ℝ ns) : St ℝ ns := latRes w q (lEta q L) L

theorem resist_lattice (w : Which) : Lattice (dims w) (resistE (ns := ns) w) (latResE w) :=
  lattice_of (fun q L a b d => latRes_shift w q (lEta q L) L a b d)
    fun _ _ _ _ _ hg ha => resist_act hg (agM_of hg ha _) (act_of hg ha)

/-- An array with the periods `N`. -/
def PerA {α : Type} (N : Fin 3 → ℕ) (A : Arr α) : Prop :=
  (∀ k j i, A k j (i + N 0) = A k j i) ∧ (∀ k j i, A k (j + N 1) i = A k j i) ∧ ∀ k j i, A (k + N 2) j i = A k j i

/-- An array computed from the diffusivities and the lattice in a way that commutes with translations is periodic. -/
theorem perE {α : Type} {N : Fin 3 → ℕ} {L : St ℝ ns} {eta : Arr (ℝ × ℝ × ℝ)} (h : Periodic N L) (he : PerA N eta)
    (F : Arr (ℝ × ℝ × ℝ) → St ℝ ns → Arr α)
    (hF : ∀ eta L a b d k j i, F (shiftA eta a b d) (L.shift a b d) k j i = F eta L (k+a) (j+b) (i+d)) : PerA N (F eta L) := by
  have p := fun n => h (fun t => if t = n then 1 else 0)
  refine ⟨fun k j i => ?_, fun k j i => ?_, fun k j i => ?_⟩
  · have hp := p 0
    simp only [Fin.isValue, Fin.reduceEq, if_true, if_false, zero_mul, one_mul] at hp
    have := hF eta L 0 0 (N 0) k j i
    rw [hp] at this
    have e : shiftA eta 0 0 (N 0) = eta := by funext k j i; simp only [shiftA, add_zero]; exact he.1 k j i
    rw [e] at this
    rw [this, add_zero, add_zero]
  · have hp := p 1
    simp only [Fin.isValue, Fin.reduceEq, if_true, if_false, zero_mul, one_mul] at hp
    have := hF eta L 0 (N 1) 0 k j i
    rw [hp] at this
    have e : shiftA eta 0 (N 1) 0 = eta := by funext k j i; simp only [shiftA, add_zero]; exact he.2.1 k j i
    rw [e] at this
    rw [this, add_zero, add_zero]
  · have hp := p 2
    simp only [Fin.isValue, Fin.reduceEq, if_true, if_false, zero_mul, one_mul] at hp
    have := hF eta L (N 2) 0 0 k j i
    rw [hp] at this
    have e : shiftA eta (N 2) 0 0 = eta := by funext k j i; simp only [shiftA, add_zero]; exact he.2.2 k j i
    rw [e] at this
    rw [this, add_zero, add_zero]

/-- Every total is kept, for any periodic diffusivities. -/
theorem latRes_sums (w : Which) (q : Diff ns) (eta : Arr (ℝ × ℝ × ℝ)) (N : Fin 3 → ℕ) (L : St ℝ ns) (hL : Periodic N L) (he : PerA N eta)
    (f : Fld) (hf : Kept (dims w) ns f) (is js ks : ℤ) :
    zsum (N 0) (N 1) (N 2) is js ks (lval f (latRes w q eta L)) = zsum (N 0) (N 1) (N 2) is js ks (lval f L) := by
  have p1 := (perE hL he (lEn1 w q) (fun eta L a b d k j i => sEn1 w q eta L a b d k j i)).1
  have p2 := (perE hL he (lEn2 w q) (fun eta L a b d k j i => sEn2 w q eta L a b d k j i)).2.1
  have p3 := (perE hL he (lEn3 w q) (fun eta L a b d k j i => sEn3 w q eta L a b d k j i)).2.2
  obtain ⟨m1, m2, m3⟩ := perE hL he (lEmf w q) (fun eta L a b d k j i => sEmf w q eta L a b d k j i)
  have same : ∀ f : Fld, lval f (latRes w q eta L) = lval f L → zsum (N 0) (N 1) (N 2) is js ks (lval f (latRes w q eta L)) =
      zsum (N 0) (N 1) (N 2) is js ks (lval f L) := fun f h => by rw [h]
  cases f with
  | cell v =>
    cases v with
    | d => apply same; funext k j i; cases w <;> rfl
    | M t => apply same; funext k j i; cases w <;> rfl
    | s n => apply same; funext k j i; cases w <;> rfl
    | E =>
      refine zsum_step (lEn1 w q eta L) (fun k j i => if dims w 1 then lEn2 w q eta L k j i else 0)
        (fun k j i => if dims w 2 then lEn3 w q eta L k j i else 0)
        (-(q.dt / q.dx1)) (-(q.dt / q.dx2)) (-(q.dt / q.dx3)) ?_ p1 ?_ ?_
      · intro k j i
        have : lval (.cell .E) (latRes w q eta L) k j i = (L.U k j i).E + lRE w q eta L k j i := by cases w <;> rfl
        rw [this]
        simp only [lval, Cons.get, lRE]
        split_ifs <;> ring
      · intro k j i; rw [p2]
      · intro k j i; rw [p3]
    | Bc t =>
      cases w
      · rcases three t with rfl | rfl | rfl
        · exact absurd hf (by simp [Kept, dims, A1])
        · refine zsum_step (fun k j i => (lEmf .d1 q eta L k j i).x3) (fun _ _ _ => 0) (fun _ _ _ => 0) (-(q.dt / q.dx1)) 0 0 ?_ ?_
            (fun _ _ _ => rfl) (fun _ _ _ => rfl)
          · intro k j i; simp [lval, latRes, lRU, ct1, Cons.get]
          · intro k j i; rw [m1]
        · refine zsum_step (fun k j i => (lEmf .d1 q eta L k j i).x2) (fun _ _ _ => 0) (fun _ _ _ => 0) (q.dt / q.dx1) 0 0 ?_ ?_
            (fun _ _ _ => rfl) (fun _ _ _ => rfl)
          · intro k j i; simp [lval, latRes, lRU, ct1, Cons.get]
          · intro k j i; rw [m1]
      · rcases three t with rfl | rfl | rfl
        · exact absurd hf (by simp [Kept, dims, A2])
        · exact absurd hf (by simp [Kept, dims, A2])
        · refine zsum_step (fun k j i => (lEmf .d2 q eta L k j i).x2) (fun k j i => (lEmf .d2 q eta L k j i).x1) (fun _ _ _ => 0)
            (q.dt / q.dx1) (-(q.dt / q.dx2)) 0 ?_ ?_ ?_ (fun _ _ _ => rfl)
          · intro k j i; simp [lval, latRes, lRU, dB3, Cons.get]; ring
          · intro k j i; rw [m1]
          · intro k j i; rw [m2]
      · rcases three t with rfl | rfl | rfl <;> exact absurd hf (by simp [Kept, dims, A3])
  | face t =>
    cases w
    · rcases three t with rfl | rfl | rfl
      · apply same; rfl
      · exact absurd hf (by simp [Kept, dims, A1])
      · exact absurd hf (by simp [Kept, dims, A1])
    · rcases three t with rfl | rfl | rfl
      · refine zsum_step (fun _ _ _ => 0) (fun k j i => (lEmf .d2 q eta L k j i).x3) (fun _ _ _ => 0) 0 (q.dt / q.dx2) 0 ?_
          (fun _ _ _ => rfl) ?_ (fun _ _ _ => rfl)
        · intro k j i; simp [lval, latRes, lB1, dB1]; ring
        · intro k j i; rw [m2]
      · refine zsum_step (fun k j i => (lEmf .d2 q eta L k j i).x3) (fun _ _ _ => 0) (fun _ _ _ => 0) (-(q.dt / q.dx1)) 0 0 ?_
          ?_ (fun _ _ _ => rfl) (fun _ _ _ => rfl)
        · intro k j i; simp [lval, latRes, lB2, dB2]
        · intro k j i; rw [m1]
      · exact absurd hf (by simp [Kept, dims, A2])
    · rcases three t with rfl | rfl | rfl
      · refine zsum_step (fun _ _ _ => 0) (fun k j i => (lEmf .d3 q eta L k j i).x3) (fun k j i => (lEmf .d3 q eta L k j i).x2)
          0 (q.dt / q.dx2) (-(q.dt / q.dx3)) ?_ (fun _ _ _ => rfl) ?_ ?_
        · intro k j i; simp [lval, latRes, lB1, dB1]; ring
        · intro k j i; rw [m2]
        · intro k j i; rw [m3]
      · refine zsum_step (fun k j i => (lEmf .d3 q eta L k j i).x3) (fun _ _ _ => 0) (fun k j i => (lEmf .d3 q eta L k j i).x1)
          (-(q.dt / q.dx1)) 0 (q.dt / q.dx3) ?_ ?_ (fun _ _ _ => rfl) ?_
        · intro k j i; simp [lval, latRes, lB2, dB2]; ring
        · intro k j i; rw [m1]
        · intro k j i; rw [m3]
      · refine zsum_step (fun k j i => (lEmf .d3 q eta L k j i).x2) (fun k j i => (lEmf .d3 q eta L k j i).x1) (fun _ _ _ => 0)
          (q.dt / q.dx1) (-(q.dt / q.dx2)) 0 ?_ ?_ ?_ (fun _ _ _ => rfl)
        · intro k j i; simp [lval, latRes, lB3, dB3]; ring
        · intro k j i; rw [m1]
        · intro k j i; rw [m2]

theorem lEta_per {N : Fin 3 → ℕ} {L : St ℝ ns} (h : Periodic N L) (q : Diff ns) : PerA N (lEta q L) :=
  ⟨fun k j i => per1 h (lEta q) (fun _ _ _ _ _ _ _ => rfl) k j i, fun k j i => per2 h (lEta q) (fun _ _ _ _ _ _ _ => rfl) k j i,
    fun k j i => per3 h (lEta q) (fun _ _ _ _ _ _ _ => rfl) k j i⟩

theorem latRes_conserves (w : Which) (q : Diff ns) : Conserves (dims w) (latResE w q) :=
  fun N L hL _ f hf is js ks => latRes_sums w q (lEta q L) N L hL (lEta_per hL q) f hf is js ks

/-- The divergence of every active zone is kept, whatever the diffusivities and the work arrays. -/
theorem resist_div (w : Which) (q : Diff ns) (eta : Arr (ℝ × ℝ × ℝ)) (W : WorkR) {dx : Fin 3 → ℝ} (hd : q.dx1 = dx 0 ∧ q.dx2 = dx 1 ∧ q.dx3 = dx 2)
    (g : Rng) (S : St ℝ ns) (k j i : ℤ) (h1 : g.ks ≤ k) (h2 : k ≤ g.ke) (h3 : g.js ≤ j) (h4 : j ≤ g.je) (h5 : g.is ≤ i) (h6 : i ≤ g.ie) :
    divA (dims w) dx (resist w q g S eta W) k j i = divA (dims w) dx S k j i := by
  obtain ⟨a, b, c⟩ := hd
  cases w
  · simp [divA, resist, dims, A1]
  · simp (disch := omega) only [divA, resist, mod3_in, dB1, dB2, dim22, Bool.false_eq_true, if_false, a, b]
    simp [dims, A2]
    ring
  · simp (disch := omega) only [divA, resist, mod3_in, dB1, dB2, dB3, dim32, if_true, a, b, c]
    simp [dims, A3]
    ring

theorem resist_divB (w : Which) (q : Diff ns) {dx : Fin 3 → ℝ} (hd : q.dx1 = dx 0 ∧ q.dx2 = dx 1 ∧ q.dx3 = dx 2) :
    KeepsDivB (dims w) dx (resistE w q) := fun g S W k j i _ h1 h2 h3 h4 h5 h6 => resist_div w q _ W hd g S k j i h1 h2 h3 h4 h5 h6

end Results
end Athena.Micro
