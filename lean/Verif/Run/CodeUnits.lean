import Mathlib.Data.Real.Basic
import Mathlib.Algebra.BigOperators.Group.List.Basic
import Mathlib.Algebra.GroupWithZero.Basic
import Mathlib.Tactic.FieldSimp
import Mathlib.Tactic.Linarith
import Mathlib.Tactic.NormNum
import Mathlib.Tactic.Ring
import Mathlib.Tactic.Positivity

/-!
# src/units.c: physical constants in the units of the program

Numbers are exact.
-/

namespace Athena.CodeUnits

/-- `ConstS`, src/athena.h; the same fields in `UnitS`. -/
structure Consts where
  G : ℝ
  Msun : ℝ
  Lsun : ℝ
  Myr : ℝ
  pc : ℝ
  kpc : ℝ
  kms : ℝ
  mH : ℝ
  aR : ℝ
  kB : ℝ
  c : ℝ

/-- `UnitS`, src/athena.h: the base units given by the user, and what `init_units` computes. -/
structure Unit where
  Lcode : ℝ
  Mcode : ℝ
  Tcode : ℝ
  Vcode : ℝ
  Dcode : ℝ
  cm : ℝ
  g : ℝ
  s : ℝ
  dyne : ℝ
  erg : ℝ
  K : ℝ
  k : Consts

/-- `init_consts`, units.c:67-81. -/
noncomputable def initConsts : Consts :=
  { G := 6.67259e-8, Msun := 1.9891e+33, Lsun := 3.8268e+33, Myr := 3.155815e+13, pc := 3.085678e+18, kpc := 3.085678e+21, kms := 1.0e+5,
    mH := 1.6733e-24, aR := 7.5646e-15, kB := 1.380658e-16, c := 2.99792458e+10 }

/-- `init_units`, units.c:29-65. -/
noncomputable def initUnits (Lcode Mcode Tcode : ℝ) : Unit :=
  let cm := 1 / Lcode
  let g := 1 / Mcode
  let s := 1 / Tcode
  let dyne := g * cm / (s * s)
  let erg := g * cm * cm / (s * s)
  let K := 1
  let c := initConsts
  { Lcode := Lcode, Mcode := Mcode, Tcode := Tcode, Vcode := Lcode / Tcode, Dcode := Mcode / Lcode ^ 3
    cm := cm, g := g, s := s, dyne := dyne, erg := erg, K := K
    k :=
      { G := c.G * cm * cm * cm / (g * s * s)
        Msun := c.Msun * g
        Lsun := c.Lsun * erg / s
        Myr := c.Myr * s
        pc := c.pc * cm
        kpc := c.kpc * cm
        kms := c.kms * cm / s
        mH := c.mH * g
        aR := c.aR * erg / (cm * cm * cm * K * K * K * K)
        kB := c.kB * erg / K
        c := c.c * cm / s } }

/-! ## Specification -/

/-- The dimension of a quantity: the powers of length, mass and time.  (Temperatures are in Kelvin in all units.) -/
structure Dim where
  l : ℤ
  m : ℤ
  t : ℤ

/-- A quantity given in cgs units, or one of the constants. -/
inductive Qty
  | given (cgs : ℝ) (d : Dim)
  | G | Msun | Lsun | Myr | pc | kpc | kms | mH | aR | kB | c

/-- The dimensions that the constants have in physics: gravity L³/(M T²), luminosity M L²/T³, radiation M/(L T²), Boltzmann M L²/T². -/
def Qty.dim : Qty → Dim
  | given _ d => d
  | G => ⟨3, -1, -2⟩ | Msun => ⟨0, 1, 0⟩ | Lsun => ⟨2, 1, -3⟩ | Myr => ⟨0, 0, 1⟩ | pc => ⟨1, 0, 0⟩ | kpc => ⟨1, 0, 0⟩ | kms => ⟨1, 0, -1⟩
  | mH => ⟨0, 1, 0⟩ | aR => ⟨-1, 1, -2⟩ | kB => ⟨2, 1, -2⟩ | c => ⟨1, 0, -1⟩

/-- The value in a set of constants, with given quantities in units of `u`. -/
noncomputable def Qty.val (u : Unit) : Qty → ℝ
  | given x d => x / (u.Lcode ^ d.l * u.Mcode ^ d.m * u.Tcode ^ d.t)
  | G => u.k.G | Msun => u.k.Msun | Lsun => u.k.Lsun | Myr => u.k.Myr | pc => u.k.pc | kpc => u.k.kpc | kms => u.k.kms
  | mH => u.k.mH | aR => u.k.aR | kB => u.k.kB | c => u.k.c

/-- The value in cgs units. -/
noncomputable def Qty.cgs : Qty → ℝ
  | given x _ => x
  | G => initConsts.G | Msun => initConsts.Msun | Lsun => initConsts.Lsun | Myr => initConsts.Myr | pc => initConsts.pc | kpc => initConsts.kpc
  | kms => initConsts.kms | mH => initConsts.mH | aR => initConsts.aR | kB => initConsts.kB | c => initConsts.c

/-- A product of powers. -/
noncomputable def monomial (v : Qty → ℝ) (l : List (Qty × ℤ)) : ℝ := (l.map fun p => v p.1 ^ p.2).prod

/-! ## What the program computes -/

variable {L M T : ℝ}

/-- **C134.** Every constant is its value in cgs units divided by the code's unit of its dimension. -/
theorem unit_value (hL : 0 < L) (hM : 0 < M) (hT : 0 < T) (q : Qty) :
    q.val (initUnits L M T) = q.cgs / (L ^ q.dim.l * M ^ q.dim.m * T ^ q.dim.t) := by
  have e3 : L ^ (3 : ℤ) = L ^ 3 := by norm_cast
  have e2 : L ^ (2 : ℤ) = L ^ 2 := by norm_cast
  have t2 : T ^ (-2 : ℤ) = 1 / T ^ 2 := by rw [zpow_neg, one_div]; norm_cast
  have t3 : T ^ (-3 : ℤ) = 1 / T ^ 3 := by rw [zpow_neg, one_div]; norm_cast
  have t1 : T ^ (-1 : ℤ) = 1 / T := by rw [zpow_neg_one, one_div]
  have m1 : M ^ (-1 : ℤ) = 1 / M := by rw [zpow_neg_one, one_div]
  have l1 : L ^ (-1 : ℤ) = 1 / L := by rw [zpow_neg_one, one_div]
  cases q with
  | given x d => rfl
  | _ =>
    simp only [Qty.val, Qty.cgs, Qty.dim, initUnits, e3, e2, t2, t3, t1, m1, l1, zpow_zero, zpow_one]
    field_simp

theorem mono_split (u : Qty → ℝ) (v : Qty → ℝ) (hL : 0 < L) (hM : 0 < M) (hT : 0 < T) (h : ∀ q, u q = v q / (L ^ q.dim.l * M ^ q.dim.m * T ^ q.dim.t))
    (l : List (Qty × ℤ)) :
    monomial u l = monomial v l / (L ^ (l.map fun p => p.2 * p.1.dim.l).sum * M ^ (l.map fun p => p.2 * p.1.dim.m).sum * T ^ (l.map fun p => p.2 * p.1.dim.t).sum) := by
  induction l with
  | nil => simp [monomial]
  | cons p l ih =>
    unfold monomial at ih ⊢
    simp only [List.map_cons, List.prod_cons, List.sum_cons]
    rw [ih, h, div_zpow, mul_zpow, mul_zpow, ← zpow_mul, ← zpow_mul, ← zpow_mul, zpow_add₀ hL.ne', zpow_add₀ hM.ne', zpow_add₀ hT.ne',
      mul_comm p.1.dim.l, mul_comm p.1.dim.m, mul_comm p.1.dim.t, div_mul_div_comm]
    congr 1
    ring

/-- **C134.** Every product of powers of constants and of quantities given in code units that has no dimension has the same value in all units. -/
theorem unit_free (hL : 0 < L) (hM : 0 < M) (hT : 0 < T) {l : List (Qty × ℤ)} (h1 : (l.map fun p => p.2 * p.1.dim.l).sum = 0)
    (h2 : (l.map fun p => p.2 * p.1.dim.m).sum = 0) (h3 : (l.map fun p => p.2 * p.1.dim.t).sum = 0) :
    monomial (Qty.val (initUnits L M T)) l = monomial Qty.cgs l := by
  rw [mono_split _ Qty.cgs hL hM hT (unit_value hL hM hT), h1, h2, h3]
  simp

/-- The square of the free-fall time over the square of a time, `G rho t²`, of a gas of 100 hydrogen atoms per cm³ after 10⁶ years. -/
example : monomial (Qty.val (initUnits 3.0e18 2.0e33 1.0e13)) [(.G, 1), (.mH, 1), (.given 100 ⟨-3, 0, 0⟩, 1), (.Myr, 2)] =
    monomial Qty.cgs [(.G, 1), (.mH, 1), (.given 100 ⟨-3, 0, 0⟩, 1), (.Myr, 2)] :=
  unit_free (by norm_num) (by norm_num) (by norm_num) (by simp [Qty.dim]) (by simp [Qty.dim]) (by simp [Qty.dim])

/-- **C134.** The units of velocity and density, force and energy are those of the base units. -/
theorem unit_derived (hL : 0 < L) (hM : 0 < M) (hT : 0 < T) :
    let u := initUnits L M T
    u.cm * u.Lcode = 1 ∧ u.g * u.Mcode = 1 ∧ u.s * u.Tcode = 1 ∧ u.Vcode * (u.cm / u.s) = 1 ∧ u.Dcode * (u.g / u.cm ^ 3) = 1 ∧
      u.dyne = u.g * u.cm / u.s ^ 2 ∧ u.erg = u.dyne * u.cm ∧ u.k.kpc = 1000 * u.k.pc ∧ u.k.kms = 100000 * (u.cm / u.s) := by
  refine ⟨?_, ?_, ?_, ?_, ?_, ?_, ?_, ?_, ?_⟩ <;> simp only [initUnits, initConsts] <;> field_simp <;> norm_num

example : (initUnits 2 3 5).k.kpc = 1000 * (initUnits 2 3 5).k.pc := (unit_derived (by norm_num) (by norm_num) (by norm_num)).2.2.2.2.2.2.2.1

end Athena.CodeUnits
