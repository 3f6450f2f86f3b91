import Verif.Integr.Mirror2
import Verif.Hydro.Units

/-!
# C130, C131: the integrators in other units

Densities are multiplied by `a²`, speeds by `v`, fields by `a v`, lengths by `x`, times by `x / v`.  A step of an integrator on the data
in other units gives the result of the step in other units.  `a` may be negative: the field is then reversed.
-/

namespace Athena.Gen
open Athena.Bvals hiding Rng
open Athena.Vl3
open Num

variable {ns : ℕ}

/-! ## Values in other units -/

/-- Conserved variables. -/
def _root_.Athena.Vl3.Cons1.un (a v : ℝ) (u : Cons1 ℝ ns) : Cons1 ℝ ns :=
  ⟨a * a * u.d, a * a * v * u.Mx, a * a * v * u.My, a * a * v * u.Mz, a * a * (v * v) * u.E, a * v * u.By, a * v * u.Bz, fun n => a * a * u.s n⟩
/-- Fluxes. -/
def _root_.Athena.Vl3.Cons1.fl (a v : ℝ) (u : Cons1 ℝ ns) : Cons1 ℝ ns :=
  ⟨a * a * v * u.d, a * a * (v * v) * u.Mx, a * a * (v * v) * u.My, a * a * (v * v) * u.Mz, a * a * (v * v * v) * u.E, a * (v * v) * u.By,
    a * (v * v) * u.Bz, fun n => a * a * v * u.s n⟩
/-- Primitive variables. -/
def Prim1.un (a v : ℝ) (w : Prim1 ℝ ns) : Prim1 ℝ ns :=
  ⟨a * a * w.d, v * w.Vx, v * w.Vy, v * w.Vz, a * a * (v * v) * w.P, a * v * w.By, a * v * w.Bz, w.r⟩
/-- A zone. -/
def _root_.Athena.Vl3.Cons.un (a v : ℝ) (u : Cons ℝ ns) : Cons ℝ ns :=
  ⟨a * a * u.d, a * a * v * u.M1, a * a * v * u.M2, a * a * v * u.M3, a * a * (v * v) * u.E, a * v * u.B1c, a * v * u.B2c, a * v * u.B3c,
    fun n => a * a * u.s n⟩
/-- Velocity and field. -/
def _root_.Athena.Vl3.Prim.un (a v : ℝ) (w : Prim ℝ) : Prim ℝ := ⟨v * w.V1, v * w.V2, v * w.V3, a * v * w.B1c, a * v * w.B2c, a * v * w.B3c⟩
/-- A lattice. -/
def _root_.Athena.Vl3.St.un (a v : ℝ) (L : St ℝ ns) : St ℝ ns :=
  ⟨fun k j i => (L.U k j i).un a v, fun k j i => a * v * L.B1i k j i, fun k j i => a * v * L.B2i k j i, fun k j i => a * v * L.B3i k j i⟩
/-- The time step and the sizes of the zones. -/
noncomputable def Step.un (v x : ℝ) (q : Step ℝ) : Step ℝ := ⟨x / v * q.dt, x * q.dx1, x * q.dx2, x * q.dx3⟩

/-- The functions `F'` do in other units what the functions `F` do. -/
structure Funs.Scale (F F' : Funs ℝ ns) (a v x : ℝ) : Prop where
  to1 : ∀ u b, F'.c2p1 (u.un a v) (a * v * b) = (F.c2p1 u b).un a v
  of1 : ∀ w b, F'.p2c1 (w.un a v) (a * v * b) = (F.p2c1 w b).un a v
  to3 : ∀ u, F'.c2p (u.un a v) = (F.c2p u).un a v
  flux : ∀ ul ur wl wr b, F'.flux (ul.un a v) (ur.un a v) (wl.un a v) (wr.un a v) (a * v * b) = (F.flux ul ur wl wr b).fl a v
  lr : ∀ dt dx t w b, F'.lr (x / v * dt) (x * dx) t (fun m => (w m).un a v) (fun m => a * v * b m) =
    ((F.lr dt dx t w b).1.un a v, (F.lr dt dx t w b).2.un a v)
  dMin : F'.dMin = a * a * F.dMin

/-! ## Auxiliary -/

section Aux
variable {a v x : ℝ}

theorem load1_un (u : Cons ℝ ns) : load1 (u.un a v) = (load1 u).un a v := rfl
theorem load2_un (u : Cons ℝ ns) : load2 (u.un a v) = (load2 u).un a v := rfl
theorem load3_un (u : Cons ℝ ns) : load3 (u.un a v) = (load3 u).un a v := rfl

theorem mul_neg_sc {K m : ℝ} (hK : 0 < K) : K * m < 0 ↔ m < 0 := by
  constructor <;> intro h <;> nlinarith
theorem up_sc {K e m a b c a' b' c' : ℝ} (hK : 0 < K) (ha : a' = e * a) (hb : b' = e * b) (hc : c' = e * c) :
    upwind (K * m) a' b' c' = e * upwind m a b c := by
  subst ha hb hc
  simp only [upwind, Num.gt0, Num.lt0, decide_eq_true_eq, mul_pos_iff_of_pos_left hK, mul_neg_sc hK]
  split_ifs <;> rfl
theorem sum8_sc {s q a b c d e f g h a' b' c' d' e' f' g' h' : ℝ} (h1 : a' = s * a) (h2 : b' = s * b) (h3 : c' = s * c) (h4 : d' = s * d)
    (h5 : e' = s * e) (h6 : f' = s * f) (h7 : g' = s * g) (h8 : h' = s * h) :
    q * (a' + b' - c' - d' + e' + f' + g' + h') = s * (q * (a + b - c - d + e + f + g + h)) := by
  subst h1 h2 h3 h4 h5 h6 h7 h8; ring
theorem sum4_sc {s q e f g h e' f' g' h' : ℝ} (h5 : e' = s * e) (h6 : f' = s * f) (h7 : g' = s * g) (h8 : h' = s * h) :
    q * (e' + f' + g' + h') = s * (q * (e + f + g + h)) := by subst h5 h6 h7 h8; ring

theorem lim_flip (p o : ℝ) : lim (-p) (-o) = -lim p o := by
  simp only [lim, NumC.ge0, NumC.lt, NumC.zero, Num.gt0, Num.lt0, decide_eq_true_eq]
  split_ifs <;> linarith
theorem lim_pos {s : ℝ} (hs : 0 < s) (p o : ℝ) : lim (s * p) (s * o) = s * lim p o := by
  simp only [lim, NumC.ge0, NumC.lt, NumC.zero, Num.gt0, Num.lt0, decide_eq_true_eq, ge_iff_le, ← mul_neg, mul_lt_mul_iff_right₀ hs,
    mul_nonneg_iff_of_pos_left hs]
  split_ifs <;> simp_all [mul_pos_iff_of_pos_left, mul_neg_sc] <;> (exfalso; linarith)
theorem lim_sc {s : ℝ} (hs : s ≠ 0) (p o : ℝ) : lim (s * p) (s * o) = s * lim p o := by
  rcases lt_or_gt_of_ne hs with h | h
  · have := lim_pos (neg_pos.2 h) (-p) (-o)
    rw [lim_flip] at this
    rw [show s * p = -s * -p by ring, show s * o = -s * -o by ring, this]; ring
  · exact lim_pos h p o
theorem mdb_flip (p o : ℝ) : mdb (-p) (-o) = -mdb p o := by
  simp only [mdb, NumC.lt, NumC.zero, Num.gt0, Num.lt0, decide_eq_true_eq, Bool.and_eq_true, Left.neg_pos_iff, Left.neg_neg_iff]
  split_ifs <;> linarith
theorem mdb_pos {s : ℝ} (hs : 0 < s) (p o : ℝ) : mdb (s * p) (s * o) = s * mdb p o := by
  simp only [mdb, NumC.lt, NumC.zero, Num.gt0, Num.lt0, decide_eq_true_eq, Bool.and_eq_true, ← mul_neg, mul_lt_mul_iff_right₀ hs,
    mul_pos_iff_of_pos_left hs, mul_neg_sc hs]
  split_ifs <;> simp
theorem mdb_sc {s : ℝ} (hs : s ≠ 0) (p o : ℝ) : mdb (s * p) (s * o) = s * mdb p o := by
  rcases lt_or_gt_of_ne hs with h | h
  · have := mdb_pos (neg_pos.2 h) (-p) (-o)
    rw [mdb_flip] at this
    rw [show s * p = -s * -p by ring, show s * o = -s * -o by ring, this]; ring
  · exact mdb_pos h p o

variable {c c' : ℝ}

theorem upd1_un (hc : c' * v = c) (r l : Cons1 ℝ ns) (u : Cons ℝ ns) : upd1 c' (r.fl a v) (l.fl a v) (u.un a v) = (upd1 c r l u).un a v := by
  subst hc
  simp only [upd1, Cons.un, Cons1.fl, Cons.mk.injEq]
  refine ⟨?_, ?_, ?_, ?_, ?_, ?_, ?_, ?_, ?_⟩ <;> first | trivial | ring1 | (funext n; ring1)

theorem upd2_un (hc : c' * v = c) (r l : Cons1 ℝ ns) (u : Cons ℝ ns) : upd2 c' (r.fl a v) (l.fl a v) (u.un a v) = (upd2 c r l u).un a v := by
  subst hc
  simp only [upd2, Cons.un, Cons1.fl, Cons.mk.injEq]
  refine ⟨?_, ?_, ?_, ?_, ?_, ?_, ?_, ?_, ?_⟩ <;> first | trivial | ring1 | (funext n; ring1)

theorem upd3_un (hc : c' * v = c) (r l : Cons1 ℝ ns) (u : Cons ℝ ns) : upd3 c' (r.fl a v) (l.fl a v) (u.un a v) = (upd3 c r l u).un a v := by
  subst hc
  simp only [upd3, Cons.un, Cons1.fl, Cons.mk.injEq]
  refine ⟨?_, ?_, ?_, ?_, ?_, ?_, ?_, ?_, ?_⟩ <;> first | trivial | ring1 | (funext n; ring1)

theorem updA1_un (hc : c' * v = c) (r l : Cons1 ℝ ns) (u : Cons ℝ ns) : updA1 c' (r.fl a v) (l.fl a v) (u.un a v) = (updA1 c r l u).un a v := by
  subst hc
  simp only [updA1, upd1, Cons.un, Cons1.fl, Cons.mk.injEq]
  refine ⟨?_, ?_, ?_, ?_, ?_, ?_, ?_, ?_, ?_⟩ <;> first | trivial | ring1 | (funext n; ring1)

theorem updB1_un (hc : c' * v = c) (r l : Cons1 ℝ ns) (u : Cons ℝ ns) : updB1 c' (r.fl a v) (l.fl a v) (u.un a v) = (updB1 c r l u).un a v := by
  subst hc
  simp only [updB1, upd1, Cons.un, Cons1.fl, Cons.mk.injEq]
  refine ⟨?_, ?_, ?_, ?_, ?_, ?_, ?_, ?_, ?_⟩ <;> first | trivial | ring1 | (funext n; ring1)

theorem updB2_un (hc : c' * v = c) (r l : Cons1 ℝ ns) (u : Cons ℝ ns) : updB2 c' (r.fl a v) (l.fl a v) (u.un a v) = (updB2 c r l u).un a v := by
  subst hc
  simp only [updB2, upd2, Cons.un, Cons1.fl, Cons.mk.injEq]
  refine ⟨?_, ?_, ?_, ?_, ?_, ?_, ?_, ?_, ?_⟩ <;> first | trivial | ring1 | (funext n; ring1)

theorem avgB_un {B1 B2 B3 B1' B2' B3' : Arr ℝ} (h1 : ∀ k j i, B1' k j i = a * v * B1 k j i) (h2 : ∀ k j i, B2' k j i = a * v * B2 k j i)
    (h3 : ∀ k j i, B3' k j i = a * v * B3 k j i) (k j i : ℤ) (u : Cons ℝ ns) : avgB B1' B2' B3' k j i (u.un a v) = (avgB B1 B2 B3 k j i u).un a v := by
  simp only [avgB, h1, h2, h3, Cons.un, Cons.mk.injEq]
  refine ⟨?_, ?_, ?_, ?_, ?_, ?_, ?_, ?_, ?_⟩ <;> first | trivial | ring1
theorem avg2_un {B1 B2 B1' B2' : Pla ℝ} (h1 : ∀ j i, B1' j i = a * v * B1 j i) (h2 : ∀ j i, B2' j i = a * v * B2 j i)
    (j i : ℤ) (u : Cons ℝ ns) : avg2 B1' B2' j i (u.un a v) = (avg2 B1 B2 j i u).un a v := by
  simp only [avg2, h1, h2, Cons.un, Cons.mk.injEq]
  refine ⟨?_, ?_, ?_, ?_, ?_, ?_, ?_, ?_, ?_⟩ <;> first | trivial | ring1

theorem ct1_un {d d' : ℝ} (hc : c' * v = c) (hd : d' * v = d) {e f e' f' : Arr ℝ} (h1 : ∀ k j i, e' k j i = a * (v * v) * e k j i)
    (h2 : ∀ k j i, f' k j i = a * (v * v) * f k j i) (k j i : ℤ) : ct1 c' d' e' f' k j i = a * v * ct1 c d e f k j i := by
  subst hc hd; simp only [ct1, h1, h2]; ring

theorem ct2_un {d d' : ℝ} (hc : c' * v = c) (hd : d' * v = d) {e f e' f' : Arr ℝ} (h1 : ∀ k j i, e' k j i = a * (v * v) * e k j i)
    (h2 : ∀ k j i, f' k j i = a * (v * v) * f k j i) (k j i : ℤ) : ct2 c' d' e' f' k j i = a * v * ct2 c d e f k j i := by
  subst hc hd; simp only [ct2, h1, h2]; ring

theorem ct3_un {d d' : ℝ} (hc : c' * v = c) (hd : d' * v = d) {e f e' f' : Arr ℝ} (h1 : ∀ k j i, e' k j i = a * (v * v) * e k j i)
    (h2 : ∀ k j i, f' k j i = a * (v * v) * f k j i) (k j i : ℤ) : ct3 c' d' e' f' k j i = a * v * ct3 c d e f k j i := by
  subst hc hd; simp only [ct3, h1, h2]; ring

theorem cB1_un (hc : c' * v = c) {e e' : Pla ℝ} (h : ∀ j i, e' j i = a * (v * v) * e j i) (j i : ℤ) (b : ℝ) :
    cB1 c' e' j i (a * v * b) = a * v * cB1 c e j i b := by subst hc; simp only [cB1, h]; ring
theorem cB2_un (hc : c' * v = c) {e e' : Pla ℝ} (h : ∀ j i, e' j i = a * (v * v) * e j i) (j i : ℤ) (b : ℝ) :
    cB2 c' e' j i (a * v * b) = a * v * cB2 c e j i b := by subst hc; simp only [cB2, h]; ring
theorem ecc_un (w : Prim ℝ) : ecc1 (w.un a v) = a * (v * v) * ecc1 w ∧ ecc2 (w.un a v) = a * (v * v) * ecc2 w ∧ ecc3 (w.un a v) = a * (v * v) * ecc3 w := by
  simp only [ecc1, ecc2, ecc3, Prim.un]; refine ⟨by ring, by ring, by ring⟩
theorem quot_un (ha : a ≠ 0) (m d s : ℝ) : a * a * s * m / (a * a * d) = s * (m / d) := by
  rw [mul_assoc, mul_div_mul_left _ _ (mul_ne_zero ha ha), mul_div_assoc]
theorem ecQ (ha : a ≠ 0) (p q r s d : ℝ) : (a * v * p * (a * a * v * q) - a * v * r * (a * a * v * s)) / (a * a * d) = a * (v * v) * ((p * q - r * s) / d) := by
  rw [show a * v * p * (a * a * v * q) - a * v * r * (a * a * v * s) = a * a * (a * (v * v)) * (p * q - r * s) by ring, quot_un ha]
theorem ecU_un (ha : a ≠ 0) (u : Cons ℝ ns) : ecU1 (u.un a v) = a * (v * v) * ecU1 u ∧ ecU2 (u.un a v) = a * (v * v) * ecU2 u ∧
    ecU3 (u.un a v) = a * (v * v) * ecU3 u := ⟨ecQ ha .., ecQ ha .., ecQ ha ..⟩
theorem eccC_un (ha : a ≠ 0) (u : Cons ℝ ns) : eccC (u.un a v) = a * (v * v) * eccC u := ecQ ha ..

variable {hv : 0 < v} {hx : 0 < x}
theorem dq (hv : 0 < v) (hx : 0 < x) (dt dx : ℝ) : x / v * dt / (x * dx) * v = dt / dx := by
  rw [show x / v * dt / (x * dx) * v = x * (dt * (v / v)) / (x * dx) by ring, div_self hv.ne', mul_one, mul_div_mul_left _ _ hx.ne']
theorem dqh (hv : 0 < v) (hx : 0 < x) (dt dx : ℝ) : half * (x / v * dt / (x * dx)) * v = half * (dt / dx) := by
  rw [mul_assoc, dq hv hx]
theorem dqi (hv : 0 < v) (hx : 0 < x) (dt dx : ℝ) : half * (x / v * dt) / (x * dx) * v = half * dt / dx := by
  rw [mul_div_assoc half, mul_div_assoc half]; exact dqh hv hx dt dx

theorem sq1 (hv : 0 < v) (hx : 0 < x) (q : Step ℝ) : (q.un v x).dt / (q.un v x).dx1 * v = q.dt / q.dx1 := dq hv hx _ _
theorem sq2 (hv : 0 < v) (hx : 0 < x) (q : Step ℝ) : (q.un v x).dt / (q.un v x).dx2 * v = q.dt / q.dx2 := dq hv hx _ _
theorem sq3 (hv : 0 < v) (hx : 0 < x) (q : Step ℝ) : (q.un v x).dt / (q.un v x).dx3 * v = q.dt / q.dx3 := dq hv hx _ _
theorem sc1 (hv : 0 < v) (hx : 0 < x) (q : Step ℝ) : (coef (q.un v x)).dtodx1 * v = (coef q).dtodx1 := dq hv hx _ _
theorem sc2 (hv : 0 < v) (hx : 0 < x) (q : Step ℝ) : (coef (q.un v x)).dtodx2 * v = (coef q).dtodx2 := dq hv hx _ _
theorem sc3 (hv : 0 < v) (hx : 0 < x) (q : Step ℝ) : (coef (q.un v x)).dtodx3 * v = (coef q).dtodx3 := dq hv hx _ _
theorem sh1 (hv : 0 < v) (hx : 0 < x) (q : Step ℝ) : half * ((q.un v x).dt / (q.un v x).dx1) * v = half * (q.dt / q.dx1) := dqh hv hx _ _
theorem sh2 (hv : 0 < v) (hx : 0 < x) (q : Step ℝ) : half * ((q.un v x).dt / (q.un v x).dx2) * v = half * (q.dt / q.dx2) := dqh hv hx _ _

theorem floorW_un {F F' : Funs ℝ ns} (ha : a ≠ 0) (h : F'.dMin = a * a * F.dMin) (w : Prim1 ℝ ns) : floorW F' (w.un a v) = (floorW F w).un a v := by
  have hk : 0 < a * a := mul_self_pos.mpr ha
  simp only [floorW, h, NumC.lt, Prim1.un, mul_lt_mul_iff_right₀ hk]
  split_ifs <;> rfl
theorem floorD_un {F F' : Funs ℝ ns} (ha : a ≠ 0) (h : F'.dMin = a * a * F.dMin) (y : ℝ) : floorD F' (a * a * y) = a * a * floorD F y := by
  have hk : 0 < a * a := mul_self_pos.mpr ha
  simp only [floorD, h, NumC.lt, NumC.nan, mul_lt_mul_iff_right₀ hk, ne_eq, not_true_eq_false, decide_false, Bool.or_false]
  split_ifs <;> rfl
theorem floorU_un {F F' : Funs ℝ ns} (ha : a ≠ 0) (h : F'.dMin = a * a * F.dMin) (u : Cons1 ℝ ns) : floorU F' (u.un a v) = (floorU F u).un a v := by
  simp only [floorU, Cons1.un, floorD_un ha h]
theorem pick_un (l : Bool) (p : Prim1 ℝ ns × Prim1 ℝ ns) : pick l (p.1.un a v, p.2.un a v) = (pick l p).un a v := by cases l <;> rfl

theorem trans1_un (hc : c' * v = c) (r l u : Cons1 ℝ ns) : trans1 c' (r.fl a v) (l.fl a v) (u.un a v) = (trans1 c r l u).un a v := by
  subst hc
  simp only [trans1, Cons1.un, Cons1.fl, Cons1.mk.injEq]
  refine ⟨?_, ?_, ?_, ?_, ?_, ?_, ?_, ?_⟩ <;> first | trivial | ring1 | (funext n; ring1)

theorem trans2_un (hc : c' * v = c) (r l u : Cons1 ℝ ns) : trans2 c' (r.fl a v) (l.fl a v) (u.un a v) = (trans2 c r l u).un a v := by
  subst hc
  simp only [trans2, Cons1.un, Cons1.fl, Cons1.mk.injEq]
  refine ⟨?_, ?_, ?_, ?_, ?_, ?_, ?_, ?_⟩ <;> first | trivial | ring1 | (funext n; ring1)

theorem mhd1_un (ha : a ≠ 0) (hc : c' * v = c) (z : Cons ℝ ns) (db : ℝ) (u : Cons1 ℝ ns) :
    mhd1 c' (z.un a v) (a * v * db) (u.un a v) = (mhd1 c z db u).un a v := by
  subst hc
  simp only [mhd1, Cons.un, Cons1.un, quot_un ha, Cons1.mk.injEq]
  refine ⟨?_, ?_, ?_, ?_, ?_, ?_, ?_, ?_⟩ <;> first | trivial | ring1

theorem mhd2_un (ha : a ≠ 0) (hc : c' * v = c) (z : Cons ℝ ns) (db : ℝ) (u : Cons1 ℝ ns) :
    mhd2 c' (z.un a v) (a * v * db) (u.un a v) = (mhd2 c z db u).un a v := by
  subst hc
  simp only [mhd2, Cons.un, Cons1.un, quot_un ha, Cons1.mk.injEq]
  refine ⟨?_, ?_, ?_, ?_, ?_, ?_, ?_, ?_⟩ <;> first | trivial | ring1

theorem rotA_un (hc : c' * v = c) {e e' : ℝ} (he : e' = a * (v * v) * e) (r l u : Cons1 ℝ ns) :
    rotA c' (r.fl a v) (l.fl a v) e' (u.un a v) = (rotA c r l e u).un a v := by
  subst hc he
  simp only [rotA, Cons1.un, Cons1.fl, Cons1.mk.injEq]
  refine ⟨?_, ?_, ?_, ?_, ?_, ?_, ?_, ?_⟩ <;> first | trivial | ring1 | (funext n; ring1)

theorem rotB_un (hc : c' * v = c) {e e' : ℝ} (he : e' = a * (v * v) * e) (r l u : Cons1 ℝ ns) :
    rotB c' (r.fl a v) (l.fl a v) e' (u.un a v) = (rotB c r l e u).un a v := by
  subst hc he
  simp only [rotB, Cons1.un, Cons1.fl, Cons1.mk.injEq]
  refine ⟨?_, ?_, ?_, ?_, ?_, ?_, ?_, ?_⟩ <;> first | trivial | ring1 | (funext n; ring1)

theorem srcW1_un (ha : a ≠ 0) (hv : 0 < v) (hx : 0 < x) (dt dx : ℝ) (u : Cons ℝ ns) (bl br : ℝ) (w : Prim1 ℝ ns) :
    srcW1 (half * (x / v * dt)) (NumC.one / (x * dx)) (u.un a v) (a * v * bl) (a * v * br) (w.un a v) =
      (srcW1 (half * dt) (NumC.one / dx) u bl br w).un a v := by
  have e : x / v * v * (1 / (x * dx)) = 1 / dx := by
    rw [div_mul_cancel₀ _ hv.ne', one_div, mul_inv, ← mul_assoc, mul_inv_cancel₀ hx.ne', one_mul, one_div]
  simp only [srcW1, Cons.un, Prim1.un, quot_un ha, NumC.one, Prim1.mk.injEq, true_and, and_true]
  rw [← e]; ring

theorem srcW2_un (ha : a ≠ 0) (hv : 0 < v) (hx : 0 < x) (dt dx : ℝ) (u : Cons ℝ ns) (bl br : ℝ) (w : Prim1 ℝ ns) :
    srcW2 (half * (x / v * dt)) (NumC.one / (x * dx)) (u.un a v) (a * v * bl) (a * v * br) (w.un a v) =
      (srcW2 (half * dt) (NumC.one / dx) u bl br w).un a v := by
  have e : x / v * v * (1 / (x * dx)) = 1 / dx := by
    rw [div_mul_cancel₀ _ hv.ne', one_div, mul_inv, ← mul_assoc, mul_inv_cancel₀ hx.ne', one_mul, one_div]
  simp only [srcW2, Cons.un, Prim1.un, quot_un ha, NumC.one, Prim1.mk.injEq, true_and, and_true]
  rw [← e]; ring

theorem eccH_un {F F' : Funs ℝ ns} (ha : a ≠ 0) (h : F'.dMin = a * a * F.dMin) {d d' : ℝ} (hc : c' * v = c) (hd : d' * v = d) (u : Cons ℝ ns)
    (r1 l1 r2 l2 : Cons1 ℝ ns) (p q r s : ℝ) :
    eccH F' c' d' (u.un a v) (r1.fl a v) (l1.fl a v) (r2.fl a v) (l2.fl a v) (a * v * p) (a * v * q) (a * v * r) (a * v * s) =
      a * (v * v) * eccH F c d u r1 l1 r2 l2 p q r s := by
  subst hc hd
  simp only [eccH, Cons.un, Cons1.fl]
  rw [show a * a * u.d - c' * (a * a * v * r1.d - a * a * v * l1.d) - d' * (a * a * v * r2.d - a * a * v * l2.d) =
    a * a * (u.d - c' * v * (r1.d - l1.d) - d' * v * (r2.d - l2.d)) by ring, floorD_un ha h, ← ecQ ha]
  congr 1; ring
theorem halfU_un {F F' : Funs ℝ ns} (ha : a ≠ 0) (h : F'.dMin = a * a * F.dMin) {d d' e e' : ℝ} (hc : c' * v = c) (hd : d' * v = d) (he : e' * v = e)
    (u : Cons ℝ ns) (r1 l1 r2 l2 r3 l3 : Cons1 ℝ ns) (p q r s y z : ℝ) :
    halfU F' c' d' e' (u.un a v) (r1.fl a v) (l1.fl a v) (r2.fl a v) (l2.fl a v) (r3.fl a v) (l3.fl a v)
      (a * v * p) (a * v * q) (a * v * r) (a * v * s) (a * v * y) (a * v * z) = (halfU F c d e u r1 l1 r2 l2 r3 l3 p q r s y z).un a v := by
  subst hc hd he
  simp only [halfU, Cons.un, Cons1.fl, Cons.mk.injEq]
  refine ⟨?_, by ring, by ring, by ring, trivial, by ring, by ring, by ring, trivial⟩
  rw [← floorD_un ha h]; congr 1; ring
end Aux

section Steps
variable {a v x : ℝ} (ha : a ≠ 0) (hv : 0 < v) (hx : 0 < x) {F F' : Funs ℝ ns} (h : F.Scale F' a v x) (q : Step ℝ)

theorem fluxA_un (h : F.Scale F' a v x) (l r : Cons1 ℝ ns) (bl br bi : ℝ) :
    fluxA F' (l.un a v) (r.un a v) (a * v * bl) (a * v * br) (a * v * bi) = (fluxA F l r bl br bi).fl a v := by
  simp only [fluxA, h.to1, h.of1, h.flux]
theorem fluxC_un (h : F.Scale F' a v x) (l r : Cons1 ℝ ns) (bi : ℝ) : fluxC F' (l.un a v) (r.un a v) (a * v * bi) = (fluxC F l r bi).fl a v := by
  simp only [fluxC, h.to1, h.flux]
theorem side_un (h : F.Scale F' a v x) (p : Prim1 ℝ ns × Prim1 ℝ ns) (b : ℝ) :
    side F' (p.1.un a v, p.2.un a v) (a * v * b) = (side F p b).fl a v := by
  simp only [side, h.of1, h.flux]

theorem lr1_un (h : F.Scale F' a v x) (U : ℤ → Cons ℝ ns) (t : Fin 3) (dt dx : ℝ) :
    F'.lr (x / v * dt) (x * dx) t (fun m => F'.c2p1 ((load1 (U m)).un a v) ((U m).un a v).B1c) (fun m => ((U m).un a v).B1c) =
      ((F.lr dt dx t (fun m => F.c2p1 (load1 (U m)) (U m).B1c) (fun m => (U m).B1c)).1.un a v,
       (F.lr dt dx t (fun m => F.c2p1 (load1 (U m)) (U m).B1c) (fun m => (U m).B1c)).2.un a v) := by
  rw [← h.lr]
  simp only [← h.to1]; rfl

theorem lr2_un (h : F.Scale F' a v x) (U : ℤ → Cons ℝ ns) (t : Fin 3) (dt dx : ℝ) :
    F'.lr (x / v * dt) (x * dx) t (fun m => F'.c2p1 ((load2 (U m)).un a v) ((U m).un a v).B2c) (fun m => ((U m).un a v).B2c) =
      ((F.lr dt dx t (fun m => F.c2p1 (load2 (U m)) (U m).B2c) (fun m => (U m).B2c)).1.un a v,
       (F.lr dt dx t (fun m => F.c2p1 (load2 (U m)) (U m).B2c) (fun m => (U m).B2c)).2.un a v) := by
  rw [← h.lr]
  simp only [← h.to1]; rfl

theorem lr3_un (h : F.Scale F' a v x) (U : ℤ → Cons ℝ ns) (t : Fin 3) (dt dx : ℝ) :
    F'.lr (x / v * dt) (x * dx) t (fun m => F'.c2p1 ((load3 (U m)).un a v) ((U m).un a v).B3c) (fun m => ((U m).un a v).B3c) =
      ((F.lr dt dx t (fun m => F.c2p1 (load3 (U m)) (U m).B3c) (fun m => (U m).B3c)).1.un a v,
       (F.lr dt dx t (fun m => F.c2p1 (load3 (U m)) (U m).B3c) (fun m => (U m).B3c)).2.un a v) := by
  rw [← h.lr]
  simp only [← h.to1]; rfl

/-! ## One dimension -/

section D1
variable (L : St ℝ ns)
include h in
theorem un1W (k j i : ℤ) : lW F' (L.un a v) k j i = (lW F L k j i).un a v := h.to1 (load1 (L.U k j i)) _
include h in
theorem un1Flux (k j i : ℤ) : lvFlux F' (L.un a v) k j i = (lvFlux F L k j i).fl a v := by
  simp only [lvFlux, un1W h]; exact h.flux (load1 (L.U k j (i-1))) (load1 (L.U k j i)) _ _ _
include hv hx h in
theorem un1Uhalf (k j i : ℤ) : lvUhalf F' (q.un v x) (L.un a v) k j i = (lvUhalf F q L k j i).un a v := by
  simp only [lvUhalf, un1Flux h]; exact updA1_un (dqi hv hx _ _) _ _ _
include hv hx in
theorem un1lat {G G' : Arr (Cons1 ℝ ns)} (hG : ∀ k j i, G' k j i = (G k j i).fl a v) : lat1 (q.un v x) (L.un a v) G' = (lat1 q L G).un a v := by
  have e : ∀ k j i, updA1 ((q.un v x).dt / (q.un v x).dx1) (G' k j (i+1)) (G' k j i) ((L.U k j i).un a v) =
      (updA1 (q.dt / q.dx1) (G k j (i+1)) (G k j i) (L.U k j i)).un a v := by
    intro k j i; rw [hG, hG]; exact updA1_un (dq hv hx _ _) _ _ _
  simp only [lat1, St.un, St.mk.injEq, e]
  exact ⟨trivial, trivial, rfl, rfl⟩
include ha hv hx h in
theorem latt1_un (K : Kind) : latt F' K .d1 (q.un v x) (L.un a v) = (latt F K .d1 q L).un a v := by
  cases K
  · refine un1lat hv hx q L fun k j i => ?_
    have e : lvLR F' (q.un v x) (L.un a v) k j i = ((lvLR F q L k j i).1.un a v, (lvLR F q L k j i).2.un a v) := by
      simp only [lvLR, un1Uhalf hv hx h, load1_un]; exact lr1_un h _ _ _ _
    simp only [lvFlux', e]; exact side_un h _ _
  · refine un1lat hv hx q L fun k j i => ?_
    have e := lr1_un h (fun m => L.U k j (i+m)) 0 q.dt q.dx1
    have e' : lcLR F' (q.un v x) (L.un a v) k j i = ((lcLR F q L k j i).1.un a v, (lcLR F q L k j i).2.un a v) := by
      refine Eq.trans ?_ (Eq.trans (congrArg (fun p => (floorW F' p.1, floorW F' p.2)) e) ?_)
      · rfl
      · simp only [floorW_un ha h.dMin]; rfl
    simp only [lcFlux, e']; exact side_un h _ _
end D1

/-! ## Two dimensions -/

/-- A plane. -/
def Pl.un (a v : ℝ) (P : Pl ℝ ns) : Pl ℝ ns := ⟨fun j i => (P.U j i).un a v, fun j i => a * v * P.B1i j i, fun j i => a * v * P.B2i j i⟩

section D2
variable (P : Pl ℝ ns)
include ha hv in
theorem corner2d_un {F1 F2 F1' F2' : Pla (Cons1 ℝ ns)} {c c' : Pla ℝ} (h1 : ∀ j i, F1' j i = (F1 j i).fl a v) (h2 : ∀ j i, F2' j i = (F2 j i).fl a v)
    (h3 : ∀ j i, c' j i = a * (v * v) * c j i) (j i : ℤ) : corner2d F1' F2' c' j i = a * (v * v) * corner2d F1 F2 c j i := by
  have hK : 0 < a * a * v := mul_pos (mul_self_pos.mpr ha) hv
  simp only [corner2d, h1, h2, h3]
  simp only [Cons1.fl]
  refine sum4_sc ?_ ?_ ?_ ?_ <;> exact up_sc hK (by ring) (by ring) (by ring)
include hv hx in
theorem un2lat (L : St ℝ ns) {F1 F2 F1' F2' : Arr (Cons1 ℝ ns)} {e e' : Arr ℝ} (h1 : ∀ k j i, F1' k j i = (F1 k j i).fl a v)
    (h2 : ∀ k j i, F2' k j i = (F2 k j i).fl a v) (h3 : ∀ k j i, e' k j i = a * (v * v) * e k j i) :
    lat2 (q.un v x) (L.un a v) F1' F2' e' = (lat2 q L F1 F2 e).un a v := by
  have b1 : ∀ k j i, cB1 ((q.un v x).dt / (q.un v x).dx2) (e' k) j i (a * v * L.B1i k j i) = a * v * cB1 (q.dt / q.dx2) (e k) j i (L.B1i k j i) :=
    fun k j i => cB1_un (dq hv hx _ _) (h3 k) j i _
  have b2 : ∀ k j i, cB2 ((q.un v x).dt / (q.un v x).dx1) (e' k) j i (a * v * L.B2i k j i) = a * v * cB2 (q.dt / q.dx1) (e k) j i (L.B2i k j i) :=
    fun k j i => cB2_un (dq hv hx _ _) (h3 k) j i _
  have u : ∀ k j i, updB2 ((q.un v x).dt / (q.un v x).dx2) (F2' k (j+1) i) (F2' k j i)
      (updB1 ((q.un v x).dt / (q.un v x).dx1) (F1' k j (i+1)) (F1' k j i) (avg2 (fun j i => cB1 ((q.un v x).dt / (q.un v x).dx2) (e' k) j i (a * v * L.B1i k j i))
        (fun j i => cB2 ((q.un v x).dt / (q.un v x).dx1) (e' k) j i (a * v * L.B2i k j i)) j i ((L.U k j i).un a v))) =
      (updB2 (q.dt / q.dx2) (F2 k (j+1) i) (F2 k j i) (updB1 (q.dt / q.dx1) (F1 k j (i+1)) (F1 k j i)
        (avg2 (fun j i => cB1 (q.dt / q.dx2) (e k) j i (L.B1i k j i)) (fun j i => cB2 (q.dt / q.dx1) (e k) j i (L.B2i k j i)) j i (L.U k j i)))).un a v := by
    intro k j i
    rw [h1, h1, h2, h2, avg2_un (b1 k) (b2 k), updB1_un (sq1 hv hx q), updB2_un (sq2 hv hx q)]
  simp only [lat2, St.un, St.mk.injEq]
  refine ⟨?_, ?_, ?_, ?_⟩
  · funext k j i; exact u k j i
  · funext k j i; exact b1 k j i
  · funext k j i; exact b2 k j i
  · funext k j i; exact congrArg Cons.B3c (u k j i)
include h in
theorem un2F1 (j i : ℤ) : o2F1 F' (P.un a v) j i = (o2F1 F P j i).fl a v := fluxA_un h (load1 (P.U j (i-1))) (load1 (P.U j i)) _ _ _
include h in
theorem un2F2 (j i : ℤ) : o2F2 F' (P.un a v) j i = (o2F2 F P j i).fl a v := fluxA_un h (load2 (P.U (j-1) i)) (load2 (P.U j i)) _ _ _
include ha hv h in
theorem un2Emf (j i : ℤ) : o2Emf F' (P.un a v) j i = a * (v * v) * o2Emf F P j i :=
  corner2d_un ha hv (un2F1 h P) (un2F2 h P) (fun j i => by simp only [o2Ecc, Pl.un, h.to3, (ecc_un _).2.2]) j i
include ha hv hx h
theorem un2B1F (j i : ℤ) : o2B1F F' (q.un v x) (P.un a v) j i = a * v * o2B1F F q P j i := cB1_un (dqh hv hx _ _) (un2Emf ha hv h P) j i _
theorem un2B2F (j i : ℤ) : o2B2F F' (q.un v x) (P.un a v) j i = a * v * o2B2F F q P j i := cB2_un (dqh hv hx _ _) (un2Emf ha hv h P) j i _
theorem un2Uh (j i : ℤ) : o2Uh F' (q.un v x) (P.un a v) j i = (o2Uh F q P j i).un a v := by
  simp only [o2Uh, un2F1 h, un2F2 h]
  have e := avg2_un (un2B1F ha hv hx h q P) (un2B2F ha hv hx h q P) j i (P.U j i)
  refine Eq.trans ?_ (updB2_un (dqh hv hx _ _) _ _ _)
  congr 1
  refine Eq.trans ?_ (updB1_un (dqh hv hx _ _) _ _ _)
  congr 1
theorem un2LR1 (j i : ℤ) : o2LR1 F' (q.un v x) (P.un a v) j i = ((o2LR1 F q P j i).1.un a v, (o2LR1 F q P j i).2.un a v) := by
  simp only [o2LR1, un2Uh ha hv hx h, load1_un]; exact lr1_un h _ _ _ _
theorem un2LR2 (j i : ℤ) : o2LR2 F' (q.un v x) (P.un a v) j i = ((o2LR2 F q P j i).1.un a v, (o2LR2 F q P j i).2.un a v) := by
  simp only [o2LR2, un2Uh ha hv hx h, load2_un]; exact lr2_un h _ _ _ _
theorem un2G1 (j i : ℤ) : o2G1 F' (q.un v x) (P.un a v) j i = (o2G1 F q P j i).fl a v := by
  simp only [o2G1, un2LR1 ha hv hx h, un2B1F ha hv hx h]; exact side_un h _ _
theorem un2G2 (j i : ℤ) : o2G2 F' (q.un v x) (P.un a v) j i = (o2G2 F q P j i).fl a v := by
  simp only [o2G2, un2LR2 ha hv hx h, un2B2F ha hv hx h]; exact side_un h _ _
theorem un2Emf' (j i : ℤ) : o2Emf' F' (q.un v x) (P.un a v) j i = a * (v * v) * o2Emf' F q P j i :=
  corner2d_un ha hv (un2G1 ha hv hx h q P) (un2G2 ha hv hx h q P) (fun j i => by simp only [o2Ecc', un2Uh ha hv hx h, h.to3, (ecc_un _).2.2]) j i
theorem un2W1 (l : Bool) (j i : ℤ) : d2W1 F' (q.un v x) (P.un a v) l j i = (d2W1 F q P l j i).un a v := by
  have e := lr1_un h (fun m => P.U j (i+m)) 0 q.dt q.dx1
  refine Eq.trans (congrArg (fun p => srcW1 (half * (x / v * q.dt)) (NumC.one / (x * q.dx1)) ((P.U j (i - off l)).un a v) (a * v * P.B1i j (i - off l))
    (a * v * P.B1i j (i - off l + 1)) (floorW F' (pick l p))) e) ?_
  rw [pick_un, floorW_un ha h.dMin, srcW1_un ha hv hx]; rfl
theorem un2W2 (l : Bool) (j i : ℤ) : d2W2 F' (q.un v x) (P.un a v) l j i = (d2W2 F q P l j i).un a v := by
  have e := lr2_un h (fun m => P.U (j+m) i) 1 q.dt q.dx2
  refine Eq.trans (congrArg (fun p => srcW2 (half * (x / v * q.dt)) (NumC.one / (x * q.dx2)) ((P.U (j - off l) i).un a v) (a * v * P.B2i (j - off l) i)
    (a * v * P.B2i (j - off l + 1) i) (floorW F' (pick l p))) e) ?_
  rw [pick_un, floorW_un ha h.dMin, srcW2_un ha hv hx]; rfl
theorem un2U1 (l : Bool) (j i : ℤ) : d2U1 F' (q.un v x) (P.un a v) l j i = (d2U1 F q P l j i).un a v := by
  simp only [d2U1, un2W1 ha hv hx h]; exact h.of1 _ _
theorem un2U2 (l : Bool) (j i : ℤ) : d2U2 F' (q.un v x) (P.un a v) l j i = (d2U2 F q P l j i).un a v := by
  simp only [d2U2, un2W2 ha hv hx h]; exact h.of1 _ _
theorem un2D1 (j i : ℤ) : d2F1 F' (q.un v x) (P.un a v) j i = (d2F1 F q P j i).fl a v := by
  simp only [d2F1, un2U1 ha hv hx h, un2W1 ha hv hx h]; exact h.flux _ _ _ _ _
theorem un2D2 (j i : ℤ) : d2F2 F' (q.un v x) (P.un a v) j i = (d2F2 F q P j i).fl a v := by
  simp only [d2F2, un2U2 ha hv hx h, un2W2 ha hv hx h]; exact h.flux _ _ _ _ _
theorem un2dEmf (j i : ℤ) : d2Emf F' (q.un v x) (P.un a v) j i = a * (v * v) * d2Emf F q P j i :=
  corner2d_un ha hv (c := fun j i => eccC (P.U j i)) (un2D1 ha hv hx h q P) (un2D2 ha hv hx h q P) (fun _ _ => eccC_un ha _) j i
theorem un2B1h (j i : ℤ) : d2B1h F' (q.un v x) (P.un a v) j i = a * v * d2B1h F q P j i := cB1_un (dqh hv hx _ _) (un2dEmf ha hv hx h q P) j i _
theorem un2B2h (j i : ℤ) : d2B2h F' (q.un v x) (P.un a v) j i = a * v * d2B2h F q P j i := cB2_un (dqh hv hx _ _) (un2dEmf ha hv hx h q P) j i _
theorem un2U1' (l : Bool) (j i : ℤ) : d2U1' F' (q.un v x) (P.un a v) l j i = (d2U1' F q P l j i).un a v := by
  simp only [d2U1', un2D2 ha hv hx h, un2U1 ha hv hx h]
  rw [trans1_un (sh2 hv hx q)]
  refine Eq.trans ?_ (floorU_un ha h.dMin _)
  congr 1
  refine Eq.trans ?_ (mhd1_un ha (dqh hv hx _ _) _ _ _)
  simp only [Pl.un, mul_sub]; rfl
theorem un2U2' (l : Bool) (j i : ℤ) : d2U2' F' (q.un v x) (P.un a v) l j i = (d2U2' F q P l j i).un a v := by
  simp only [d2U2', un2D1 ha hv hx h, un2U2 ha hv hx h]
  rw [trans2_un (sh1 hv hx q)]
  refine Eq.trans ?_ (floorU_un ha h.dMin _)
  congr 1
  refine Eq.trans ?_ (mhd2_un ha (dqh hv hx _ _) _ _ _)
  simp only [Pl.un, mul_sub]; rfl
theorem un2Ech (j i : ℤ) : d2Ecc' F' (q.un v x) (P.un a v) j i = a * (v * v) * d2Ecc' F q P j i := by
  simp only [d2Ecc', un2D1 ha hv hx h, un2D2 ha hv hx h, un2B1h ha hv hx h, un2B2h ha hv hx h]
  exact eccH_un ha h.dMin (dqh hv hx _ _) (dqh hv hx _ _) _ _ _ _ _ _ _ _ _
theorem un2H1 (j i : ℤ) : d2G1 F' (q.un v x) (P.un a v) j i = (d2G1 F q P j i).fl a v := by
  simp only [d2G1, un2U1' ha hv hx h, un2B1h ha hv hx h]; exact fluxC_un h _ _ _
theorem un2H2 (j i : ℤ) : d2G2 F' (q.un v x) (P.un a v) j i = (d2G2 F q P j i).fl a v := by
  simp only [d2G2, un2U2' ha hv hx h, un2B2h ha hv hx h]; exact fluxC_un h _ _ _
theorem un2dEmf' (j i : ℤ) : d2Emf' F' (q.un v x) (P.un a v) j i = a * (v * v) * d2Emf' F q P j i :=
  corner2d_un ha hv (un2H1 ha hv hx h q P) (un2H2 ha hv hx h q P) (un2Ech ha hv hx h q P) j i

omit P in
theorem latt2_un (K : Kind) (L : St ℝ ns) : latt F' K .d2 (q.un v x) (L.un a v) = (latt F K .d2 q L).un a v := by
  cases K
  · exact un2lat hv hx q L (fun k => un2G1 ha hv hx h q (plane L k)) (fun k => un2G2 ha hv hx h q (plane L k)) (fun k => un2Emf' ha hv hx h q (plane L k))
  · exact un2lat hv hx q L (fun k => un2H1 ha hv hx h q (plane L k)) (fun k => un2H2 ha hv hx h q (plane L k)) (fun k => un2dEmf' ha hv hx h q (plane L k))
end D2

/-! ## Three dimensions -/

section D3
variable (L : St ℝ ns)

include ha hv in
theorem corner1_un {F1 F2 F1' F2' : Arr (Cons1 ℝ ns)} {c c' : Arr ℝ} (h1 : ∀ k j i, F1' k j i = (F1 k j i).fl a v)
    (h2 : ∀ k j i, F2' k j i = (F2 k j i).fl a v) (h3 : ∀ k j i, c' k j i = a * (v * v) * c k j i) (k j i : ℤ) :
    corner1 F1' F2' c' k j i = a * (v * v) * corner1 F1 F2 c k j i := by
  have hK : 0 < a * a * v := mul_pos (mul_self_pos.mpr ha) hv
  simp only [corner1, h1, h2, h3]
  simp only [Cons1.fl]
  refine sum8_sc rfl rfl rfl rfl ?_ ?_ ?_ ?_ <;> exact up_sc hK (by ring) (by ring) (by ring)

include ha hv in
theorem corner2_un {F1 F2 F1' F2' : Arr (Cons1 ℝ ns)} {c c' : Arr ℝ} (h1 : ∀ k j i, F1' k j i = (F1 k j i).fl a v)
    (h2 : ∀ k j i, F2' k j i = (F2 k j i).fl a v) (h3 : ∀ k j i, c' k j i = a * (v * v) * c k j i) (k j i : ℤ) :
    corner2 F1' F2' c' k j i = a * (v * v) * corner2 F1 F2 c k j i := by
  have hK : 0 < a * a * v := mul_pos (mul_self_pos.mpr ha) hv
  simp only [corner2, h1, h2, h3]
  simp only [Cons1.fl]
  refine sum8_sc rfl rfl rfl rfl ?_ ?_ ?_ ?_ <;> exact up_sc hK (by ring) (by ring) (by ring)

include ha hv in
theorem corner3_un {F1 F2 F1' F2' : Arr (Cons1 ℝ ns)} {c c' : Arr ℝ} (h1 : ∀ k j i, F1' k j i = (F1 k j i).fl a v)
    (h2 : ∀ k j i, F2' k j i = (F2 k j i).fl a v) (h3 : ∀ k j i, c' k j i = a * (v * v) * c k j i) (k j i : ℤ) :
    corner3 F1' F2' c' k j i = a * (v * v) * corner3 F1 F2 c k j i := by
  have hK : 0 < a * a * v := mul_pos (mul_self_pos.mpr ha) hv
  simp only [corner3, h1, h2, h3]
  simp only [Cons1.fl]
  refine sum8_sc rfl rfl rfl rfl ?_ ?_ ?_ ?_ <;> exact up_sc hK (by ring) (by ring) (by ring)

include hv hx in
theorem un3lat {F1 F2 F3 F1' F2' F3' : Arr (Cons1 ℝ ns)} {e1 e2 e3 e1' e2' e3' : Arr ℝ} (h1 : ∀ k j i, F1' k j i = (F1 k j i).fl a v)
    (h2 : ∀ k j i, F2' k j i = (F2 k j i).fl a v) (h3 : ∀ k j i, F3' k j i = (F3 k j i).fl a v) (g1 : ∀ k j i, e1' k j i = a * (v * v) * e1 k j i)
    (g2 : ∀ k j i, e2' k j i = a * (v * v) * e2 k j i) (g3 : ∀ k j i, e3' k j i = a * (v * v) * e3 k j i) :
    lat3 (q.un v x) (L.un a v) F1' F2' F3' e1' e2' e3' = (lat3 q L F1 F2 F3 e1 e2 e3).un a v := by
  have b1 : ∀ k j i, a * v * L.B1i k j i + ct1 (coef (q.un v x)).dtodx2 (coef (q.un v x)).dtodx3 e2' e3' k j i =
      a * v * (L.B1i k j i + ct1 (coef q).dtodx2 (coef q).dtodx3 e2 e3 k j i) := by
    intro k j i; rw [ct1_un (sc2 hv hx q) (sc3 hv hx q) g2 g3, mul_add]
  have b2 : ∀ k j i, a * v * L.B2i k j i + ct2 (coef (q.un v x)).dtodx1 (coef (q.un v x)).dtodx3 e1' e3' k j i =
      a * v * (L.B2i k j i + ct2 (coef q).dtodx1 (coef q).dtodx3 e1 e3 k j i) := by
    intro k j i; rw [ct2_un (sc1 hv hx q) (sc3 hv hx q) g1 g3, mul_add]
  have b3 : ∀ k j i, a * v * L.B3i k j i + ct3 (coef (q.un v x)).dtodx1 (coef (q.un v x)).dtodx2 e1' e2' k j i =
      a * v * (L.B3i k j i + ct3 (coef q).dtodx1 (coef q).dtodx2 e1 e2 k j i) := by
    intro k j i; rw [ct3_un (sc1 hv hx q) (sc2 hv hx q) g1 g2, mul_add]
  simp only [lat3, St.un, St.mk.injEq]
  refine ⟨?_, ?_, ?_, ?_⟩
  · funext k j i
    rw [h1, h1, h2, h2, h3, h3, avgB_un b1 b2 b3, upd1_un (sc1 hv hx q), upd2_un (sc2 hv hx q),
      upd3_un (sc3 hv hx q)]
  · funext k j i; exact b1 k j i
  · funext k j i; exact b2 k j i
  · funext k j i; exact b3 k j i

include h in
theorem flux1st_un (l r : Cons1 ℝ ns) (bl br bi : ℝ) :
    flux1st (F'.vl (q.un v x)) (l.un a v) (r.un a v) (a * v * bl) (a * v * br) (a * v * bi) = (flux1st (F.vl q) l r bl br bi).fl a v := by
  simp only [flux1st, Funs.vl, h.to1, h.of1, h.flux]
include h in
theorem flux2nd_un (l r : Prim1 ℝ ns) (bi : ℝ) :
    flux2nd (F'.vl (q.un v x)) (l.un a v) (r.un a v) (a * v * bi) = (flux2nd (F.vl q) l r bi).fl a v := by
  simp only [flux2nd, Funs.vl, h.of1, h.flux]
include h in
theorem un3iF1 (k j i : ℤ) : iFlux1 (F'.vl (q.un v x)) (L.un a v) k j i = (iFlux1 (F.vl q) L k j i).fl a v :=
  flux1st_un h q (load1 (L.U k j (i-1))) (load1 (L.U k j i)) _ _ _
include h in
theorem un3iF2 (k j i : ℤ) : iFlux2 (F'.vl (q.un v x)) (L.un a v) k j i = (iFlux2 (F.vl q) L k j i).fl a v :=
  flux1st_un h q (load2 (L.U k (j-1) i)) (load2 (L.U k j i)) _ _ _
include h in
theorem un3iF3 (k j i : ℤ) : iFlux3 (F'.vl (q.un v x)) (L.un a v) k j i = (iFlux3 (F.vl q) L k j i).fl a v :=
  flux1st_un h q (load3 (L.U (k-1) j i)) (load3 (L.U k j i)) _ _ _
include ha hv h in
theorem un3iE1 (k j i : ℤ) : iEmf1 (F'.vl (q.un v x)) (L.un a v) k j i = a * (v * v) * iEmf1 (F.vl q) L k j i :=
  corner1_un ha hv (un3iF2 h q L) (un3iF3 h q L) (fun k j i => by simp only [iEcc1, St.un, Funs.vl, h.to3, (ecc_un _).1]) k j i
include ha hv h in
theorem un3iE2 (k j i : ℤ) : iEmf2 (F'.vl (q.un v x)) (L.un a v) k j i = a * (v * v) * iEmf2 (F.vl q) L k j i :=
  corner2_un ha hv (un3iF1 h q L) (un3iF3 h q L) (fun k j i => by simp only [iEcc2, St.un, Funs.vl, h.to3, (ecc_un _).2.1]) k j i
include ha hv h in
theorem un3iE3 (k j i : ℤ) : iEmf3 (F'.vl (q.un v x)) (L.un a v) k j i = a * (v * v) * iEmf3 (F.vl q) L k j i :=
  corner3_un ha hv (un3iF1 h q L) (un3iF2 h q L) (fun k j i => by simp only [iEcc3, St.un, Funs.vl, h.to3, (ecc_un _).2.2]) k j i
include ha hv hx h

theorem un3iB1 (k j i : ℤ) : iB1F (F'.vl (q.un v x)) (coef (q.un v x)) (L.un a v) k j i = a * v * iB1F (F.vl q) (coef q) L k j i := by
  refine Eq.trans (congrArg (a * v * L.B1i k j i + ·) (ct1_un (dqh hv hx _ _) (dqh hv hx _ _) (un3iE2 ha hv h q L) (un3iE3 ha hv h q L) k j i)) ?_
  rw [← mul_add]; rfl

theorem un3iB2 (k j i : ℤ) : iB2F (F'.vl (q.un v x)) (coef (q.un v x)) (L.un a v) k j i = a * v * iB2F (F.vl q) (coef q) L k j i := by
  refine Eq.trans (congrArg (a * v * L.B2i k j i + ·) (ct2_un (dqh hv hx _ _) (dqh hv hx _ _) (un3iE1 ha hv h q L) (un3iE3 ha hv h q L) k j i)) ?_
  rw [← mul_add]; rfl

theorem un3iB3 (k j i : ℤ) : iB3F (F'.vl (q.un v x)) (coef (q.un v x)) (L.un a v) k j i = a * v * iB3F (F.vl q) (coef q) L k j i := by
  refine Eq.trans (congrArg (a * v * L.B3i k j i + ·) (ct3_un (dqh hv hx _ _) (dqh hv hx _ _) (un3iE1 ha hv h q L) (un3iE2 ha hv h q L) k j i)) ?_
  rw [← mul_add]; rfl

theorem un3iU (k j i : ℤ) : iUhalf (F'.vl (q.un v x)) (coef (q.un v x)) (L.un a v) k j i = (iUhalf (F.vl q) (coef q) L k j i).un a v := by
  have e := avgB_un (un3iB1 ha hv hx h q L) (un3iB2 ha hv hx h q L) (un3iB3 ha hv hx h q L) k j i (L.U k j i)
  simp only [iUhalf, un3iF1 h, un3iF2 h, un3iF3 h]
  refine Eq.trans ?_ (upd3_un (dqh hv hx _ _) _ _ _)
  congr 1
  refine Eq.trans ?_ (upd2_un (dqh hv hx _ _) _ _ _)
  congr 1
  refine Eq.trans ?_ (upd1_un (dqh hv hx _ _) _ _ _)
  congr 1

theorem un3LR1 (k j i : ℤ) : iLR1 (F'.vl (q.un v x)) (coef (q.un v x)) (L.un a v) k j i =
    ((iLR1 (F.vl q) (coef q) L k j i).1.un a v, (iLR1 (F.vl q) (coef q) L k j i).2.un a v) := by
  simp only [iLR1, un3iU ha hv hx h, load1_un]; exact lr1_un h _ _ _ _
theorem un3jF1 (k j i : ℤ) : jFlux1 (F'.vl (q.un v x)) (coef (q.un v x)) (L.un a v) k j i = (jFlux1 (F.vl q) (coef q) L k j i).fl a v := by
  simp only [jFlux1, un3LR1 ha hv hx h, un3iB1 ha hv hx h, flux2nd_un h]

theorem un3LR2 (k j i : ℤ) : iLR2 (F'.vl (q.un v x)) (coef (q.un v x)) (L.un a v) k j i =
    ((iLR2 (F.vl q) (coef q) L k j i).1.un a v, (iLR2 (F.vl q) (coef q) L k j i).2.un a v) := by
  simp only [iLR2, un3iU ha hv hx h, load2_un]; exact lr2_un h _ _ _ _
theorem un3jF2 (k j i : ℤ) : jFlux2 (F'.vl (q.un v x)) (coef (q.un v x)) (L.un a v) k j i = (jFlux2 (F.vl q) (coef q) L k j i).fl a v := by
  simp only [jFlux2, un3LR2 ha hv hx h, un3iB2 ha hv hx h, flux2nd_un h]

theorem un3LR3 (k j i : ℤ) : iLR3 (F'.vl (q.un v x)) (coef (q.un v x)) (L.un a v) k j i =
    ((iLR3 (F.vl q) (coef q) L k j i).1.un a v, (iLR3 (F.vl q) (coef q) L k j i).2.un a v) := by
  simp only [iLR3, un3iU ha hv hx h, load3_un]; exact lr3_un h _ _ _ _
theorem un3jF3 (k j i : ℤ) : jFlux3 (F'.vl (q.un v x)) (coef (q.un v x)) (L.un a v) k j i = (jFlux3 (F.vl q) (coef q) L k j i).fl a v := by
  simp only [jFlux3, un3LR3 ha hv hx h, un3iB3 ha hv hx h, flux2nd_un h]

theorem un3jE1 (k j i : ℤ) : jEmf1 (F'.vl (q.un v x)) (coef (q.un v x)) (L.un a v) k j i = a * (v * v) * jEmf1 (F.vl q) (coef q) L k j i :=
  corner1_un ha hv (un3jF2 ha hv hx h q L) (un3jF3 ha hv hx h q L) (fun k j i => by
    simp only [jEcc1, un3iU ha hv hx h]; simp only [Funs.vl, h.to3, (ecc_un _).1]) k j i

theorem un3jE2 (k j i : ℤ) : jEmf2 (F'.vl (q.un v x)) (coef (q.un v x)) (L.un a v) k j i = a * (v * v) * jEmf2 (F.vl q) (coef q) L k j i :=
  corner2_un ha hv (un3jF1 ha hv hx h q L) (un3jF3 ha hv hx h q L) (fun k j i => by
    simp only [jEcc2, un3iU ha hv hx h]; simp only [Funs.vl, h.to3, (ecc_un _).2.1]) k j i

theorem un3jE3 (k j i : ℤ) : jEmf3 (F'.vl (q.un v x)) (coef (q.un v x)) (L.un a v) k j i = a * (v * v) * jEmf3 (F.vl q) (coef q) L k j i :=
  corner3_un ha hv (un3jF1 ha hv hx h q L) (un3jF2 ha hv hx h q L) (fun k j i => by
    simp only [jEcc3, un3iU ha hv hx h]; simp only [Funs.vl, h.to3, (ecc_un _).2.2]) k j i

theorem latV3_un : latV3 F' (q.un v x) (L.un a v) = (latV3 F q L).un a v :=
  un3lat hv hx q L (un3jF1 ha hv hx h q L) (un3jF2 ha hv hx h q L) (un3jF3 ha hv hx h q L) (un3jE1 ha hv hx h q L) (un3jE2 ha hv hx h q L)
    (un3jE3 ha hv hx h q L)


omit ha hv hx h in
theorem db1_un (k j i : ℤ) : db1 (q.un v x) (L.un a v) k j i = a * v / x * db1 q L k j i := by
  simp only [db1, Step.un, St.un, NumC.one]
  rw [one_div, one_div, mul_inv]; ring

omit ha hv hx h in
theorem db2_un (k j i : ℤ) : db2 (q.un v x) (L.un a v) k j i = a * v / x * db2 q L k j i := by
  simp only [db2, Step.un, St.un, NumC.one]
  rw [one_div, one_div, mul_inv]; ring

omit ha hv hx h in
theorem db3_un (k j i : ℤ) : db3 (q.un v x) (L.un a v) k j i = a * v / x * db3 q L k j i := by
  simp only [db3, Step.un, St.un, NumC.one]
  rw [one_div, one_div, mul_inv]; ring

omit h in
theorem src1_un (k j i : ℤ) (w : Prim1 ℝ ns) : src1 (q.un v x) (L.un a v) k j i (w.un a v) = (src1 q L k j i w).un a v := by
  have hs : a * v / x ≠ 0 := div_ne_zero (mul_ne_zero ha hv.ne') hx.ne'
  simp only [src1, db1_un, db2_un, db3_un, lim_sc hs]
  simp only [St.un, Step.un, Cons.un, Prim1.un, quot_un ha, Prim1.mk.injEq, true_and, and_true]
  constructor <;> field_simp
omit h in
theorem mhdX1_un (k j i : ℤ) (u : Cons1 ℝ ns) : mhdX1 (q.un v x) (L.un a v) k j i (u.un a v) = (mhdX1 q L k j i u).un a v := by
  have hs : a * v / x ≠ 0 := div_ne_zero (mul_ne_zero ha hv.ne') hx.ne'
  simp only [mhdX1, db1_un, db2_un, db3_un, mdb_sc hs]
  simp only [St.un, Step.un, Cons.un, Cons1.un, quot_un ha, Cons1.mk.injEq, true_and, and_true]
  refine ⟨?_, ?_, ?_, ?_, ?_, ?_⟩ <;> field_simp

omit h in
theorem src2_un (k j i : ℤ) (w : Prim1 ℝ ns) : src2 (q.un v x) (L.un a v) k j i (w.un a v) = (src2 q L k j i w).un a v := by
  have hs : a * v / x ≠ 0 := div_ne_zero (mul_ne_zero ha hv.ne') hx.ne'
  simp only [src2, db1_un, db2_un, db3_un, lim_sc hs]
  simp only [St.un, Step.un, Cons.un, Prim1.un, quot_un ha, Prim1.mk.injEq, true_and, and_true]
  constructor <;> field_simp
omit h in
theorem mhdX2_un (k j i : ℤ) (u : Cons1 ℝ ns) : mhdX2 (q.un v x) (L.un a v) k j i (u.un a v) = (mhdX2 q L k j i u).un a v := by
  have hs : a * v / x ≠ 0 := div_ne_zero (mul_ne_zero ha hv.ne') hx.ne'
  simp only [mhdX2, db1_un, db2_un, db3_un, mdb_sc hs]
  simp only [St.un, Step.un, Cons.un, Cons1.un, quot_un ha, Cons1.mk.injEq, true_and, and_true]
  refine ⟨?_, ?_, ?_, ?_, ?_, ?_⟩ <;> field_simp

omit h in
theorem src3_un (k j i : ℤ) (w : Prim1 ℝ ns) : src3 (q.un v x) (L.un a v) k j i (w.un a v) = (src3 q L k j i w).un a v := by
  have hs : a * v / x ≠ 0 := div_ne_zero (mul_ne_zero ha hv.ne') hx.ne'
  simp only [src3, db1_un, db2_un, db3_un, lim_sc hs]
  simp only [St.un, Step.un, Cons.un, Prim1.un, quot_un ha, Prim1.mk.injEq, true_and, and_true]
  constructor <;> field_simp
omit h in
theorem mhdX3_un (k j i : ℤ) (u : Cons1 ℝ ns) : mhdX3 (q.un v x) (L.un a v) k j i (u.un a v) = (mhdX3 q L k j i u).un a v := by
  have hs : a * v / x ≠ 0 := div_ne_zero (mul_ne_zero ha hv.ne') hx.ne'
  simp only [mhdX3, db1_un, db2_un, db3_un, mdb_sc hs]
  simp only [St.un, Step.un, Cons.un, Cons1.un, quot_un ha, Cons1.mk.injEq, true_and, and_true]
  refine ⟨?_, ?_, ?_, ?_, ?_, ?_⟩ <;> field_simp

theorem un3W1 (l : Bool) (k j i : ℤ) : d3W1 F' (q.un v x) (L.un a v) l k j i = (d3W1 F q L l k j i).un a v := by
  have e := lr1_un h (fun m => L.U k j (i+m)) 0 q.dt q.dx1
  refine Eq.trans (congrArg (fun p => src1 (q.un v x) (L.un a v) k j (i - off l) (floorW F' (pick l p))) e) ?_
  rw [pick_un, floorW_un ha h.dMin, src1_un ha hv hx]; rfl
theorem un3U1 (l : Bool) (k j i : ℤ) : d3U1 F' (q.un v x) (L.un a v) l k j i = (d3U1 F q L l k j i).un a v := by
  simp only [d3U1, un3W1 ha hv hx h]; exact h.of1 _ _
theorem un3F1 (k j i : ℤ) : d3F1 F' (q.un v x) (L.un a v) k j i = (d3F1 F q L k j i).fl a v := by
  simp only [d3F1, un3U1 ha hv hx h, un3W1 ha hv hx h]; exact h.flux _ _ _ _ _

theorem un3W2 (l : Bool) (k j i : ℤ) : d3W2 F' (q.un v x) (L.un a v) l k j i = (d3W2 F q L l k j i).un a v := by
  have e := lr2_un h (fun m => L.U k (j+m) i) 1 q.dt q.dx2
  refine Eq.trans (congrArg (fun p => src2 (q.un v x) (L.un a v) k (j - off l) i (floorW F' (pick l p))) e) ?_
  rw [pick_un, floorW_un ha h.dMin, src2_un ha hv hx]; rfl
theorem un3U2 (l : Bool) (k j i : ℤ) : d3U2 F' (q.un v x) (L.un a v) l k j i = (d3U2 F q L l k j i).un a v := by
  simp only [d3U2, un3W2 ha hv hx h]; exact h.of1 _ _
theorem un3F2 (k j i : ℤ) : d3F2 F' (q.un v x) (L.un a v) k j i = (d3F2 F q L k j i).fl a v := by
  simp only [d3F2, un3U2 ha hv hx h, un3W2 ha hv hx h]; exact h.flux _ _ _ _ _

theorem un3W3 (l : Bool) (k j i : ℤ) : d3W3 F' (q.un v x) (L.un a v) l k j i = (d3W3 F q L l k j i).un a v := by
  have e := lr3_un h (fun m => L.U (k+m) j i) 2 q.dt q.dx3
  refine Eq.trans (congrArg (fun p => src3 (q.un v x) (L.un a v) (k - off l) j i (floorW F' (pick l p))) e) ?_
  rw [pick_un, floorW_un ha h.dMin, src3_un ha hv hx]; rfl
theorem un3U3 (l : Bool) (k j i : ℤ) : d3U3 F' (q.un v x) (L.un a v) l k j i = (d3U3 F q L l k j i).un a v := by
  simp only [d3U3, un3W3 ha hv hx h]; exact h.of1 _ _
theorem un3F3 (k j i : ℤ) : d3F3 F' (q.un v x) (L.un a v) k j i = (d3F3 F q L k j i).fl a v := by
  simp only [d3F3, un3U3 ha hv hx h, un3W3 ha hv hx h]; exact h.flux _ _ _ _ _

theorem un3dE1 (k j i : ℤ) : d3Emf1 F' (q.un v x) (L.un a v) k j i = a * (v * v) * d3Emf1 F q L k j i :=
  corner1_un ha hv (c := fun k j i => ecU1 (L.U k j i)) (un3F2 ha hv hx h q L) (un3F3 ha hv hx h q L) (fun _ _ _ => (ecU_un ha _).1) k j i

theorem un3dE2 (k j i : ℤ) : d3Emf2 F' (q.un v x) (L.un a v) k j i = a * (v * v) * d3Emf2 F q L k j i :=
  corner2_un ha hv (c := fun k j i => ecU2 (L.U k j i)) (un3F1 ha hv hx h q L) (un3F3 ha hv hx h q L) (fun _ _ _ => (ecU_un ha _).2.1) k j i

theorem un3dE3 (k j i : ℤ) : d3Emf3 F' (q.un v x) (L.un a v) k j i = a * (v * v) * d3Emf3 F q L k j i :=
  corner3_un ha hv (c := fun k j i => ecU3 (L.U k j i)) (un3F1 ha hv hx h q L) (un3F2 ha hv hx h q L) (fun _ _ _ => (ecU_un ha _).2.2) k j i

omit ha h in
theorem qh_un (t : Fin 3) : qh (q.un v x) t * v = qh q t := by
  rcases three t with rfl | rfl | rfl <;> exact dqh hv hx _ _

theorem un3B1h (k j i : ℤ) : d3B1h F' (q.un v x) (L.un a v) k j i = a * v * d3B1h F q L k j i := by
  refine Eq.trans (congrArg (a * v * L.B1i k j i + ·) (ct1_un (qh_un hv hx q 1) (qh_un hv hx q 2) (un3dE2 ha hv hx h q L) (un3dE3 ha hv hx h q L) k j i)) ?_
  rw [← mul_add]; rfl

theorem un3B2h (k j i : ℤ) : d3B2h F' (q.un v x) (L.un a v) k j i = a * v * d3B2h F q L k j i := by
  refine Eq.trans (congrArg (a * v * L.B2i k j i + ·) (ct2_un (qh_un hv hx q 0) (qh_un hv hx q 2) (un3dE1 ha hv hx h q L) (un3dE3 ha hv hx h q L) k j i)) ?_
  rw [← mul_add]; rfl

theorem un3B3h (k j i : ℤ) : d3B3h F' (q.un v x) (L.un a v) k j i = a * v * d3B3h F q L k j i := by
  refine Eq.trans (congrArg (a * v * L.B3i k j i + ·) (ct3_un (qh_un hv hx q 0) (qh_un hv hx q 1) (un3dE1 ha hv hx h q L) (un3dE2 ha hv hx h q L) k j i)) ?_
  rw [← mul_add]; rfl

theorem un3U1' (l : Bool) (k j i : ℤ) : d3U1' F' (q.un v x) (L.un a v) l k j i = (d3U1' F q L l k j i).un a v := by
  simp only [d3U1', un3F2 ha hv hx h, un3F3 ha hv hx h, un3U1 ha hv hx h, un3dE1 ha hv hx h]
  rw [rotA_un (qh_un hv hx q 1) (by rw [← mul_sub, ← mul_sub, ← mul_add]), rotB_un (qh_un hv hx q 2) (by rw [← mul_sub, ← mul_sub, ← mul_add]),
    mhdX1_un ha hv hx, floorU_un ha h.dMin]
theorem un3G1 (k j i : ℤ) : d3G1 F' (q.un v x) (L.un a v) k j i = (d3G1 F q L k j i).fl a v := by
  simp only [d3G1, un3U1' ha hv hx h, un3B1h ha hv hx h]; exact fluxC_un h _ _ _

theorem un3U2' (l : Bool) (k j i : ℤ) : d3U2' F' (q.un v x) (L.un a v) l k j i = (d3U2' F q L l k j i).un a v := by
  simp only [d3U2', un3F1 ha hv hx h, un3F3 ha hv hx h, un3U2 ha hv hx h, un3dE2 ha hv hx h]
  rw [rotB_un (qh_un hv hx q 0) (by rw [← mul_sub, ← mul_sub, ← mul_add]), rotA_un (qh_un hv hx q 2) (by rw [← mul_sub, ← mul_sub, ← mul_add]),
    mhdX2_un ha hv hx, floorU_un ha h.dMin]
theorem un3G2 (k j i : ℤ) : d3G2 F' (q.un v x) (L.un a v) k j i = (d3G2 F q L k j i).fl a v := by
  simp only [d3G2, un3U2' ha hv hx h, un3B2h ha hv hx h]; exact fluxC_un h _ _ _

theorem un3U3' (l : Bool) (k j i : ℤ) : d3U3' F' (q.un v x) (L.un a v) l k j i = (d3U3' F q L l k j i).un a v := by
  simp only [d3U3', un3F1 ha hv hx h, un3F2 ha hv hx h, un3U3 ha hv hx h, un3dE3 ha hv hx h]
  rw [rotA_un (qh_un hv hx q 0) (by rw [← mul_sub, ← mul_sub, ← mul_add]), rotB_un (qh_un hv hx q 1) (by rw [← mul_sub, ← mul_sub, ← mul_add]),
    mhdX3_un ha hv hx, floorU_un ha h.dMin]
theorem un3G3 (k j i : ℤ) : d3G3 F' (q.un v x) (L.un a v) k j i = (d3G3 F q L k j i).fl a v := by
  simp only [d3G3, un3U3' ha hv hx h, un3B3h ha hv hx h]; exact fluxC_un h _ _ _

theorem un3H (k j i : ℤ) : d3H F' (q.un v x) (L.un a v) k j i = (d3H F q L k j i).un a v := by
  simp only [d3H, un3F1 ha hv hx h, un3F2 ha hv hx h, un3F3 ha hv hx h, un3B1h ha hv hx h, un3B2h ha hv hx h, un3B3h ha hv hx h]
  exact halfU_un ha h.dMin (qh_un hv hx q 0) (qh_un hv hx q 1) (qh_un hv hx q 2) _ _ _ _ _ _ _ _ _ _ _ _ _

theorem un3dE1' (k j i : ℤ) : d3Emf1' F' (q.un v x) (L.un a v) k j i = a * (v * v) * d3Emf1' F q L k j i :=
  corner1_un ha hv (un3G2 ha hv hx h q L) (un3G3 ha hv hx h q L) (fun k j i => by rw [un3H ha hv hx h]; exact (ecU_un ha _).1) k j i

theorem un3dE2' (k j i : ℤ) : d3Emf2' F' (q.un v x) (L.un a v) k j i = a * (v * v) * d3Emf2' F q L k j i :=
  corner2_un ha hv (un3G1 ha hv hx h q L) (un3G3 ha hv hx h q L) (fun k j i => by rw [un3H ha hv hx h]; exact (ecU_un ha _).2.1) k j i

theorem un3dE3' (k j i : ℤ) : d3Emf3' F' (q.un v x) (L.un a v) k j i = a * (v * v) * d3Emf3' F q L k j i :=
  corner3_un ha hv (un3G1 ha hv hx h q L) (un3G2 ha hv hx h q L) (fun k j i => by rw [un3H ha hv hx h]; exact (ecU_un ha _).2.2) k j i

theorem latC3_un : latC3 F' (q.un v x) (L.un a v) = (latC3 F q L).un a v :=
  un3lat hv hx q L (un3G1 ha hv hx h q L) (un3G2 ha hv hx h q L) (un3G3 ha hv hx h q L) (un3dE1' ha hv hx h q L) (un3dE2' ha hv hx h q L)
    (un3dE3' ha hv hx h q L)
end D3
end Steps

/-- One step, whichever the integrator. -/
theorem latt_un {a v x : ℝ} (ha : a ≠ 0) (hv : 0 < v) (hx : 0 < x) {F F' : Funs ℝ ns} (h : F.Scale F' a v x) (q : Step ℝ) (K : Kind) (w : Which)
    (L : St ℝ ns) : latt F' K w (q.un v x) (L.un a v) = (latt F K w q L).un a v := by
  cases w
  · exact latt1_un ha hv hx h q L K
  · exact latt2_un ha hv hx h q K L
  · cases K
    · exact latV3_un ha hv hx h q L
    · exact latC3_un ha hv hx h q L

end Athena.Gen
