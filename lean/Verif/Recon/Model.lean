import Mathlib.Data.Real.Basic
import Mathlib.Algebra.BigOperators.Group.Finset.Basic
import Mathlib.Data.Fintype.BigOperators
import Verif.Hydro.State

/-!
# src/reconstruction: spatial reconstruction `lr_states`

`lr_states_dc.c` (first order), `lr_states_prim2.c` (second order, primitive), `lr_states_plm.c` (second order,
characteristic), `lr_states_prim3.c` (third order, primitive), `lr_states_ppm.c` (third order, characteristic) and
`lr_states_p3c.c` (third order compact), each with the van Leer integrator and, where the code supports it, with the CTU integrator (the
characteristic tracing steps).  Cartesian coordinates.

Numbers are exact reals.  Every division below has a divisor that the code has made sure is not zero.  Sums over waves are unordered.
The eigensystem `esys_prim_*` is a parameter in the loops; the hydrodynamic ones are modelled at the end.
A slice of `Prim1DS` is a function from the zone index; the members, accessed by the code through a pointer to `Real`, are indexed by a
wave `Sum.inl n` (`n < NWAVE`, number 1 being `Vx`) or a scalar `Sum.inr n`.
-/

namespace Athena.Recon
noncomputable section
open Athena.Hydro

/-- The members of `Prim1DS`, src/athena.h:160-175: `NWAVE = k + 4` variables and `ns` scalars. -/
abbrev Vec (k ns : ℕ) := Fin (k + 4) ⊕ Fin ns → ℝ

/-- `W.Vx`. -/
def vx {k ns : ℕ} (W : Vec k ns) : ℝ := W (Sum.inl 1)

/-- `#define SIGN(a)`, src/defs.h.in:148. -/
def sgn (x : ℝ) : ℝ := if x < 0 then -1 else 1

/-- Eigenvalues and right and left eigenmatrices, `ev[NWAVE]`, `rem[NWAVE][NWAVE]`, `lem[NWAVE][NWAVE]`. -/
structure Eig (k : ℕ) where
  ev : Fin (k + 4) → ℝ
  rem : Fin (k + 4) → Fin (k + 4) → ℝ
  lem : Fin (k + 4) → Fin (k + 4) → ℝ

/-- `ev[0]`. -/
def Eig.lo {k : ℕ} (E : Eig k) : ℝ := E.ev 0
/-- `ev[NWAVE-1]`. -/
def Eig.hi {k : ℕ} (E : Eig k) : ℝ := E.ev (Fin.last (k + 3))

/-- `for (i=lo; i<=hi; i++) body` -/
def forLoop {σ : Type} (lo hi : ℤ) (body : ℤ → σ → σ) (s : σ) : σ :=
  (List.range (hi + 1 - lo).toNat).foldl (fun s (m : ℕ) => body (lo + m) s) s

/-- Assignment `a[i] = v`. -/
def upd {α : Type} (a : ℤ → α) (i : ℤ) (v : α) : ℤ → α := fun j => if j = i then v else a j

/-- Output arrays `Wl`, `Wr`. -/
@[ext] structure Out (k ns : ℕ) where
  Wl : ℤ → Vec k ns
  Wr : ℤ → Vec k ns

variable {k ns : ℕ}

/-- The statements `pWl = &Wl[i+1]; pWr = &Wr[i]; pWl[n] = …; pWr[n] = …` (e.g. lr_states_prim2.c:152-158). -/
def Out.put (o : Out k ns) (i : ℤ) (v : Vec k ns × Vec k ns) : Out k ns := ⟨upd o.Wl (i + 1) v.1, upd o.Wr i v.2⟩

/-! ## First order -/

/-- lr_states_dc.c:43-58. -/
def lrDc (W : ℤ → Vec k ns) (il iu : ℤ) (o : Out k ns) : Out k ns :=
  forLoop il (iu + 1) (fun i o => ⟨upd o.Wl i (W (i - 1)), upd o.Wr i (W i)⟩) o

/-! ## Limiters -/

/-- `dWg`, lr_states_prim2.c:116-120, lr_states_plm.c:148-152, lr_states_ppm.c:150-154, 329-333 -/
def vanLeer (l r : ℝ) : ℝ := if l * r > 0 then 2 * l * r / (l + r) else 0

/-- `dWm` or `da`, lr_states_prim2.c:126-131, lr_states_plm.c:186-193, lr_states_ppm.c:188-195, 367-374. -/
def limit (c l r g : ℝ) : ℝ :=
  if l * r > 0 then sgn c * fmin (2 * fmin |l| |r|) (fmin (1/2 * |c|) |g|) else 0

/-- The two statements `x = MAX(MIN(a,b),x); x = MIN(MAX(a,b),x);`, lr_states_prim2.c:143-146. -/
def clip (a b x : ℝ) : ℝ := fmin (fmax a b) (fmax (fmin a b) x)

/-- Compile-time choices: `CTU_INTEGRATOR`; `HLLE_FLUX`, `HLLC_FLUX`, `HLLD_FLUX` or `FORCE_FLUX`. -/
structure Cfg where
  ctu : Bool
  hll : Bool

/-- `Σ_n` over the waves selected by the sign of `ev[n]` of `qa*rem[m][n]` with `qa = Σ_m lem[n][m]*x[n][m]`. -/
def waves (E : Eig k) (sel : ℝ → Prop) [DecidablePred sel] (x : Fin (k + 4) → Fin (k + 4) → ℝ) (m : Fin (k + 4)) : ℝ :=
  ∑ n, if sel (E.ev n) then (∑ m', E.lem n m' * x n m') * E.rem m n else 0

/-! ## Second order, primitive variables -/

/-- Steps 1-3, lr_states_prim2.c:112-147, for one variable: `Wlv`, `Wrv` from the values in the zones `i-1`, `i`, `i+1`. -/
def prim2Zone (a b c : ℝ) : ℝ × ℝ :=
  let dWm := limit (c - a) (b - a) (c - b) (vanLeer (b - a) (c - b))
  (clip b a (b - 1/2 * dWm), clip b c (b + 1/2 * dWm))

/-- Steps 6-7, lr_states_prim2.c:240-310: `pWl`, `pWr`.  `q` is `dtodx`. -/
def prim2Trace (hll : Bool) (q : ℝ) (E : Eig k) (vx : ℝ) (Wlv Wrv : Vec k ns) : Vec k ns × Vec k ns :=
  let dW : Vec k ns := fun n => Wrv n - Wlv n
  let pWl : Vec k ns := fun n => Wrv n - 1/2 * fmax E.hi 0 * q * dW n
  let pWr : Vec k ns := fun n => Wlv n + -(1/2) * fmin E.lo 0 * q * dW n
  let x (s : ℝ) : Fin (k + 4) → Fin (k + 4) → ℝ := fun n m => 1/2 * q * (s - E.ev n) * dW (Sum.inl m)
  (fun n => match n with
    | Sum.inl m => pWl (Sum.inl m) + waves E (· > 0) (x E.hi) m + if hll then waves E (· < 0) (x E.hi) m else 0
    | Sum.inr s => if vx > 0 then pWl (Sum.inr s) + 1/2 * q * (E.hi - vx) * dW (Sum.inr s) else pWl (Sum.inr s),
   fun n => match n with
    | Sum.inl m => pWr (Sum.inl m) + waves E (· < 0) (x E.lo) m + if hll then waves E (· > 0) (x E.lo) m else 0
    | Sum.inr s => if vx > 0 then pWr (Sum.inr s) else
        if vx < 0 then pWr (Sum.inr s) + 1/2 * q * (E.lo - vx) * dW (Sum.inr s) else pWr (Sum.inr s))

/-- lr_states_prim2.c:65-317 without `SPECIAL_RELATIVITY`. -/
def lrPrim2 (cf : Cfg) (es : Vec k ns → ℝ → Eig k) (q : ℝ) (W : ℤ → Vec k ns) (Bxc : ℤ → ℝ) (il iu : ℤ) (o : Out k ns) : Out k ns :=
  forLoop (il - 1) (iu + 1) (fun i o =>
    let Wlv : Vec k ns := fun n => (prim2Zone (W (i - 1) n) (W i n) (W (i + 1) n)).1
    let Wrv : Vec k ns := fun n => (prim2Zone (W (i - 1) n) (W i n) (W (i + 1) n)).2
    o.put i (if cf.ctu then prim2Trace cf.hll q (es (W i) (Bxc i)) (vx (W i)) Wlv Wrv else (Wrv, Wlv))) o

/-- `for (n=n0; n==3; n++) body(n)`, lr_states_prim2.c:165, 178, 190, 195, 205: the body is executed for `n = 3` only, and only if the loop
starts there. -/
def forEq3 {σ : Type} (n0 : ℕ) (body : ℕ → σ → σ) (s : σ) : σ := if n0 = 3 then body 3 s else s

/-- Lorentz factor and four-velocity `vel[i]`, lr_states_prim2.c:88-94. -/
def fourVel (W : Vec k ns) (n : ℕ) : ℝ :=
  let g := 1 / Real.sqrt (1 - (W (Sum.inl 1) * W (Sum.inl 1) + W (Sum.inl 2) * W (Sum.inl 2) + W (Sum.inl 3) * W (Sum.inl 3)))
  if n = 1 then g * W (Sum.inl 1) else if n = 2 then g * W (Sum.inl 2) else if n = 3 then g * W (Sum.inl 3) else g

/-- The block `SPECIAL_RELATIVITY` of lr_states_prim2.c:160-210 on `Wlv`, `Wrv` and then on `pWl`, `pWr` (numbered 0 … 3): the reconstruction
of the four-velocity. -/
def srZone (a b c : Vec k ns) (W Wlv Wrv : ℕ → ℝ) : (ℕ → ℝ) × (ℕ → ℝ) :=
  let dWm : ℕ → ℝ := fun n =>
    limit (fourVel c n - fourVel a n) (fourVel b n - fourVel a n) (fourVel c n - fourVel b n)
      (vanLeer (fourVel b n - fourVel a n) (fourVel c n - fourVel b n))
  let set (v : (ℕ → ℝ)) (n : ℕ) (x : ℝ) : ℕ → ℝ := fun m => if m = n then x else v m
  let v := forEq3 0 (fun n v => (set v.1 n (W n - 1/2 * dWm n), set v.2 n (W n + 1/2 * dWm n))) (Wlv, Wrv)
  let v := forEq3 0 (fun n v => (set v.1 n (clip (fourVel b n) (fourVel a n) (v.1 n)), set v.2 n (clip (fourVel b n) (fourVel c n) (v.2 n)))) v
  forEq3 1 (fun n p => (set p.1 n (v.2 n / v.2 0), set p.2 n (v.1 n / v.1 0))) (Wrv, Wlv)

/-- lr_states_prim2.c:65-317 with `SPECIAL_RELATIVITY` and the van Leer integrator. -/
def lrPrim2Sr (W : ℤ → Vec k ns) (il iu : ℤ) (o : Out k ns) : Out k ns :=
  forLoop (il - 1) (iu + 1) (fun i o =>
    let Wlv : Vec k ns := fun n => (prim2Zone (W (i - 1) n) (W i n) (W (i + 1) n)).1
    let Wrv : Vec k ns := fun n => (prim2Zone (W (i - 1) n) (W i n) (W (i + 1) n)).2
    let num (v : Vec k ns) : ℕ → ℝ := fun n => v (Sum.inl (Fin.ofNat (k + 4) n))
    let p := srZone (W (i - 1)) (W i) (W (i + 1)) (num (W i)) (num Wlv) (num Wrv)
    let out (v : ℕ → ℝ) (old : Vec k ns) : Vec k ns := fun n => match n with
      | Sum.inl m => if m.val ≤ 3 then v m.val else old (Sum.inl m)
      | Sum.inr s => old (Sum.inr s)
    o.put i (out p.1 Wrv, out p.2 Wlv)) o

/-! ## Second order, characteristic variables -/

/-- Steps 2-5, lr_states_plm.c:137-209; steps 2-5 and 9-12 of lr_states_ppm.c:136-211, 315-390: the limited slopes `dWm` of the zone in the
middle. -/
def charSlope (E : Eig k) (a b c : Vec k ns) : Vec k ns :=
  let dWc : Vec k ns := fun n => c n - a n
  let dWl : Vec k ns := fun n => b n - a n
  let dWr : Vec k ns := fun n => c n - b n
  let dWg : Vec k ns := fun n => vanLeer (dWl n) (dWr n)
  let proj (d : Vec k ns) : Vec k ns := fun n => match n with
    | Sum.inl n => ∑ m, E.lem n m * d (Sum.inl m)
    | Sum.inr s => d (Sum.inr s)
  let da : Vec k ns := fun n => limit (proj dWc n) (proj dWl n) (proj dWr n) (proj dWg n)
  fun n => match n with
    | Sum.inl n => ∑ m, da (Sum.inl m) * E.rem n m
    | Sum.inr s => da (Sum.inr s)

/-- Step 7, lr_states_plm.c:219-246 with `gamma_curv = 0`. -/
def plmZone (a b c dWm : ℝ) : ℝ × ℝ :=
  let Wlv := b - 1/2 * dWm
  let Wrv := b + 1/2 * dWm
  let C := Wrv + Wlv
  let Wlv := clip b a Wlv
  let Wrv := C - Wlv
  let Wrv := clip b c Wrv
  (C - Wrv, Wrv)

/-- Steps 8-9, lr_states_plm.c:264-392: as in `lr_states_prim2.c`, but waves with `ev[n] = 0` are selected by both tests. -/
def plmTrace (hll : Bool) (q : ℝ) (E : Eig k) (vx : ℝ) (Wlv Wrv : Vec k ns) : Vec k ns × Vec k ns :=
  let dW : Vec k ns := fun n => Wrv n - Wlv n
  let pWl : Vec k ns := fun n => Wrv n - 1/2 * fmax E.hi 0 * q * dW n
  let pWr : Vec k ns := fun n => Wlv n + -(1/2) * fmin E.lo 0 * q * dW n
  let x (s : ℝ) : Fin (k + 4) → Fin (k + 4) → ℝ := fun n m => (1/2 * q * s - 1/2 * q * E.ev n) * dW (Sum.inl m)
  (fun n => match n with
    | Sum.inl m => pWl (Sum.inl m) + waves E (· ≥ 0) (x E.hi) m + if hll then waves E (· ≤ 0) (x E.hi) m else 0
    | Sum.inr s => if vx > 0 then pWl (Sum.inr s) + (1/2 * q * E.hi - 1/2 * q * vx) * dW (Sum.inr s) else pWl (Sum.inr s),
   fun n => match n with
    | Sum.inl m => pWr (Sum.inl m) + waves E (· ≤ 0) (x E.lo) m + if hll then waves E (· ≥ 0) (x E.lo) m else 0
    | Sum.inr s => if vx > 0 then pWr (Sum.inr s) else
        if vx < 0 then pWr (Sum.inr s) + (-(-(1/2) * q * E.lo) + -(1/2) * q * vx) * dW (Sum.inr s) else pWr (Sum.inr s))

/-- lr_states_plm.c:66-400. -/
def lrPlm (cf : Cfg) (es : Vec k ns → ℝ → Eig k) (q : ℝ) (W : ℤ → Vec k ns) (Bxc : ℤ → ℝ) (il iu : ℤ) (o : Out k ns) : Out k ns :=
  forLoop (il - 1) (iu + 1) (fun i o =>
    let E := es (W i) (Bxc i)
    let dWm := charSlope E (W (i - 1)) (W i) (W (i + 1))
    let Wlv : Vec k ns := fun n => (plmZone (W (i - 1) n) (W i n) (W (i + 1) n) (dWm n)).1
    let Wrv : Vec k ns := fun n => (plmZone (W (i - 1) n) (W i n) (W (i + 1) n) (dWm n)).2
    o.put i (if cf.ctu then plmTrace cf.hll q E (vx (W i)) Wlv Wrv else (Wrv, Wlv))) o

/-! ## Third order, primitive variables -/

/-- Step 1, lr_states_prim3.c:107-125: `Whalf[i]` from the values in the zones `i-2 … i+1`. -/
def half3 (a b c d : ℝ) : ℝ :=
  let wh := (7 * (b + c) - (a + d)) / 12
  let d2c := 3 * (b - 2 * wh + c)
  let d2l := a - 2 * b + c
  let d2r := b - 2 * c + d
  let lim := fmin |d2l| |d2r|
  let v := sgn d2c * fmin (5/4 * lim) |d2c|
  let d2lim := if d2c > 0 ∧ d2l > 0 ∧ d2r > 0 then v else 0
  let d2lim := if d2c < 0 ∧ d2l < 0 ∧ d2r < 0 then v else d2lim
  1/2 * ((b + c) - d2lim / 3)

/-- Step 3, lr_states_prim3.c:145-171; values in the zones `i-2 … i+2`. -/
def parab3 (a b c d e Wlv Wrv : ℝ) : ℝ × ℝ :=
  let qa := (Wrv - c) * (c - Wlv)
  let qb := (b - c) * (c - d)
  if qa ≤ 0 ∧ qb ≤ 0 then
    let qc := 6 * (c - 1/2 * (Wlv + Wrv))
    let d2 := -2 * qc
    let d2c := b - 2 * c + d
    let d2l := a - 2 * b + c
    let d2r := c - 2 * d + e
    let lim := fmin |d2l| |d2r|
    let lim := fmin |d2c| lim
    let v := sgn d2 * fmin (5/4 * lim) |d2|
    let d2lim := if d2c > 0 ∧ d2l > 0 ∧ d2r > 0 ∧ d2 > 0 then v else 0
    let d2lim := if d2c < 0 ∧ d2l < 0 ∧ d2r < 0 ∧ d2 < 0 then v else d2lim
    if d2 = 0 then (c, c) else (c + (Wlv - c) * d2lim / d2, c + (Wrv - c) * d2lim / d2)
  else (Wlv, Wrv)

/-- The monotonicity step, lr_states_prim3.c:203-215, lr_states_ppm.c:469-481 with `gamma_curv = 0`. -/
def mono3 (c Wlv Wrv : ℝ) : ℝ × ℝ :=
  let qa := (Wrv - c) * (c - Wlv)
  let qb := Wrv - Wlv
  let qc := 6 * (c - 1/2 * (Wlv + Wrv))
  if qa ≤ 0 then (c, c)
  else if qb * qc > qb * qb then (3 * c - 2 * Wrv, Wrv)
  else if qb * qc < -(qb * qb) then (Wlv, 3 * c - 2 * Wlv)
  else (Wlv, Wrv)

/-- Steps 2-4, lr_states_prim3.c:137-222. -/
def prim3Zone (a b c d e wl wr : ℝ) : ℝ × ℝ :=
  let p := parab3 a b c d e wl wr
  let p := mono3 c p.1 p.2
  (clip c b p.1, clip c d p.2)

/-- `#define TWO_3RDS`, src/defs.h.in:156. -/
def two3rds : ℝ := 0.6666666666666667

/-- Steps 7-9, lr_states_prim3.c:261-342.  In the loop over the scalars `m` still has the value `NWAVE` left by the loops before it, so
`dW[m]`, `W6[m]` are those of the first scalar for every `n`. -/
def prim3Trace (hll : Bool) (q : ℝ) (E : Eig k) (vx : ℝ) (W Wlv Wrv : Vec k ns) : Vec k ns × Vec k ns :=
  let dW : Vec k ns := fun n => Wrv n - Wlv n
  let W6 : Vec k ns := fun n => 6 * (W n - 1/2 * (Wlv n + Wrv n))
  let ql := two3rds * fmax E.hi 0 * q
  let qr := -two3rds * fmin E.lo 0 * q
  let pWl : Vec k ns := fun n => Wrv n - 3/4 * ql * (dW n - (1 - ql) * W6 n)
  let pWr : Vec k ns := fun n => Wlv n + 3/4 * qr * (dW n + (1 - qr) * W6 n)
  let qb (s v : ℝ) := 1/2 * q * (s - v)
  let qc (s v : ℝ) := 1/2 * q * q * two3rds * (s * s - v * v)
  (fun n => match n with
    | Sum.inl m => pWl (Sum.inl m) +
        waves E (· > 0) (fun n m => qb E.hi (E.ev n) * (dW (Sum.inl m) - W6 (Sum.inl m)) + qc E.hi (E.ev n) * W6 (Sum.inl m)) m +
        if hll then waves E (· < 0) (fun n m => qb E.hi (E.ev n) * dW (Sum.inl m)) m else 0
    | Sum.inr s =>
        let m : Fin ns := ⟨0, Nat.lt_of_le_of_lt (Nat.zero_le _) s.2⟩
        if vx > 0 then pWl (Sum.inr s) + (qb E.hi vx * (dW (Sum.inr m) - W6 (Sum.inr m)) + qc E.hi vx * W6 (Sum.inr m))
        else pWl (Sum.inr s),
   fun n => match n with
    | Sum.inl m => pWr (Sum.inl m) +
        waves E (· < 0) (fun n m => qb E.lo (E.ev n) * (dW (Sum.inl m) + W6 (Sum.inl m)) + qc E.lo (E.ev n) * W6 (Sum.inl m)) m +
        if hll then waves E (· > 0) (fun n m => qb E.lo (E.ev n) * dW (Sum.inl m)) m else 0
    | Sum.inr s =>
        let m : Fin ns := ⟨0, Nat.lt_of_le_of_lt (Nat.zero_le _) s.2⟩
        if vx > 0 then pWr (Sum.inr s) else
        if vx < 0 then pWr (Sum.inr s) + (qb E.lo vx * (dW (Sum.inr m) + W6 (Sum.inr m)) + qc E.lo vx * W6 (Sum.inr m))
        else pWr (Sum.inr s))

/-- lr_states_prim3.c:71-349.  `Whalf` is computed by a loop of its own. -/
def lrPrim3 (cf : Cfg) (es : Vec k ns → ℝ → Eig k) (q : ℝ) (W : ℤ → Vec k ns) (Bxc : ℤ → ℝ) (il iu : ℤ) (Wh : ℤ → Vec k ns)
    (o : Out k ns) : Out k ns :=
  let Wh := forLoop (il - 1) (iu + 2) (fun i Wh => upd Wh i fun n => half3 (W (i - 2) n) (W (i - 1) n) (W i n) (W (i + 1) n)) Wh
  forLoop (il - 1) (iu + 1) (fun i o =>
    let z : Fin (k + 4) ⊕ Fin ns → ℝ × ℝ := fun n =>
      prim3Zone (W (i - 2) n) (W (i - 1) n) (W i n) (W (i + 1) n) (W (i + 2) n) (Wh i n) (Wh (i + 1) n)
    let Wlv : Vec k ns := fun n => (z n).1
    let Wrv : Vec k ns := fun n => (z n).2
    o.put i (if cf.ctu then prim3Trace cf.hll q (es (W i) (Bxc i)) (vx (W i)) (W i) Wlv Wrv else (Wrv, Wlv))) o

/-! ## Third order, characteristic variables -/

/-- `#define FOUR_3RDS`, src/defs.h.in:157. -/
def four3rds : ℝ := 1.333333333333333

/-- Steps 17-19, lr_states_ppm.c:493-661. -/
def ppmTrace (hll : Bool) (q : ℝ) (E : Eig k) (vx : ℝ) (W Wlv Wrv : Vec k ns) : Vec k ns × Vec k ns :=
  let dW : Vec k ns := fun n => Wrv n - Wlv n
  let W6 : Vec k ns := fun n => 6 * (W n - 1/2 * (Wlv n + Wrv n))
  let ql := 1/2 * fmax E.hi 0 * q
  let qr := -(1/2) * fmin E.lo 0 * q
  let pWl : Vec k ns := fun n => Wrv n - ql * (dW n - (1 - four3rds * ql) * W6 n)
  let pWr : Vec k ns := fun n => Wlv n + qr * (dW n + (1 - four3rds * qr) * W6 n)
  let qb (s v : ℝ) := 1/2 * q * s - 1/2 * q * v
  let qc (s v : ℝ) := four3rds * ((1/2 * q * s) * (1/2 * q * s) - (1/2 * q * v) * (1/2 * q * v))
  (fun n => match n with
    | Sum.inl m => pWl (Sum.inl m) +
        waves E (· ≥ 0) (fun n m => qb E.hi (E.ev n) * (dW (Sum.inl m) - W6 (Sum.inl m)) + qc E.hi (E.ev n) * W6 (Sum.inl m)) m +
        if hll then waves E (· ≤ 0) (fun n m => qb E.hi (E.ev n) * dW (Sum.inl m)) m else 0
    | Sum.inr s => if vx > 0 then pWl (Sum.inr s) + (qb E.hi vx * (dW (Sum.inr s) - W6 (Sum.inr s)) + qc E.hi vx * W6 (Sum.inr s))
        else pWl (Sum.inr s),
   fun n => match n with
    | Sum.inl m => pWr (Sum.inl m) +
        waves E (· ≤ 0) (fun n m => qb E.lo (E.ev n) * (dW (Sum.inl m) + W6 (Sum.inl m)) + qc E.lo (E.ev n) * W6 (Sum.inl m)) m +
        if hll then waves E (· ≥ 0) (fun n m => qb E.lo (E.ev n) * dW (Sum.inl m)) m else 0
    | Sum.inr s => if vx > 0 then pWr (Sum.inr s) else
        if vx < 0 then pWr (Sum.inr s) + (qb E.lo vx * (dW (Sum.inr s) + W6 (Sum.inr s)) + qc E.lo vx * W6 (Sum.inr s))
        else pWr (Sum.inr s))

/-- Steps 7, 14, lr_states_ppm.c:272-274, 447-449: value at the interface between two zones. -/
def ppmHalf (a b da db : ℝ) : ℝ := 1/2 * (b + a) - (db - da) / 6

/-- Static work arrays and the eigensystem carried from one zone to the next. -/
structure PpmSt (k ns : ℕ) where
  E : Eig k
  dWm : ℤ → Vec k ns
  Wim1h : ℤ → Vec k ns
  o : Out k ns

/-- One turn of the first loop, lr_states_ppm.c:112-254. -/
def ppmFirst (es : Vec k ns → ℝ → Eig k) (W : ℤ → Vec k ns) (Bxc : ℤ → ℝ) (i : ℤ) (s : PpmSt k ns) : PpmSt k ns :=
  let E := es (W i) (Bxc i)
  { s with E := E, dWm := upd s.dWm i (charSlope E (W (i - 1)) (W i) (W (i + 1))) }

/-- One turn of the big loop, lr_states_ppm.c:289-677. -/
def ppmBody (cf : Cfg) (es : Vec k ns → ℝ → Eig k) (q : ℝ) (W : ℤ → Vec k ns) (Bxc : ℤ → ℝ) (i : ℤ) (s : PpmSt k ns) : PpmSt k ns :=
  let E' := es (W (i + 1)) (Bxc (i + 1))
  let dWm := upd s.dWm (i + 1) (charSlope E' (W i) (W (i + 1)) (W (i + 2)))
  let Wim1h := upd s.Wim1h (i + 1) (fun n => ppmHalf (W i n) (W (i + 1) n) (dWm i n) (dWm (i + 1) n))
  let z : Fin (k + 4) ⊕ Fin ns → ℝ × ℝ := fun n =>
    let p := mono3 (W i n) (Wim1h i n) (Wim1h (i + 1) n)
    (clip (W i n) (W (i - 1) n) p.1, clip (W i n) (W (i + 1) n) p.2)
  let Wlv : Vec k ns := fun n => (z n).1
  let Wrv : Vec k ns := fun n => (z n).2
  { E := E', dWm := dWm, Wim1h := Wim1h,
    o := s.o.put i (if cf.ctu then ppmTrace cf.hll q s.E (vx (W i)) (W i) Wlv Wrv else (Wrv, Wlv)) }

/-- lr_states_ppm.c:70-680. -/
def lrPpm (cf : Cfg) (es : Vec k ns → ℝ → Eig k) (q : ℝ) (W : ℤ → Vec k ns) (Bxc : ℤ → ℝ) (il iu : ℤ) (s : PpmSt k ns) : PpmSt k ns :=
  let s := forLoop (il - 2) (il - 1) (ppmFirst es W Bxc) s
  let s := { s with Wim1h := upd s.Wim1h (il - 1) fun n => ppmHalf (W (il - 2) n) (W (il - 1) n) (s.dWm (il - 2) n) (s.dWm (il - 1) n) }
  forLoop (il - 1) (iu + 1) (ppmBody cf es q W Bxc) s

/-! ## Third order, compact stencil -/

/-- `1e-40`, lr_states_p3c.c:103-104. -/
def eps : ℝ := 1 / 10 ^ 40

/-- `theta` and `thetai`, lr_states_p3c.c:103-104, for the differences away from and towards the interface. -/
def theta (away towards : ℝ) : ℝ := away / (|towards| + eps) * sgn towards

/-- Koren limiter, lr_states_p3c.c:106-111. -/
def koren (th : ℝ) : ℝ := fmax (fmin (fmin th ((2 + th) / 6)) 1) 0

/-- LimO3 limiter, lr_states_p3c.c:114-129; `eta` is given, `:114`; `RLIM` is 0.1. -/
def limO3 (th eta : ℝ) : ℝ :=
  let lm := (2 + th) / 6
  if eta ≥ 1 then
    let phi := fmin th (4/5)
    let phi := fmin lm phi
    let phi := fmax (-(1/4) * th) phi
    let phi := fmin lm phi
    fmax phi 0
  else lm

/-- lr_states_p3c.c:69-142; `limo3` selects `THIRD_ORDER_COMPACT_PRIM_LIMO3`. -/
def lrP3c (limo3 : Bool) (dx : ℝ) (W : ℤ → Vec k ns) (il iu : ℤ) (o : Out k ns) : Out k ns :=
  forLoop (il - 1) (iu + 1) (fun i o =>
    let dWl : Vec k ns := fun n => W i n - W (i - 1) n
    let dWr : Vec k ns := fun n => W (i + 1) n - W i n
    let eta : Vec k ns := fun n => (dWl n * dWl n + dWr n * dWr n) / ((1/10 * dx) * (1/10 * dx))
    let lm (away towards : Vec k ns) (n) : ℝ :=
      if limo3 then limO3 (theta (away n) (towards n)) (eta n) else koren (theta (away n) (towards n))
    o.put i (fun n => W i n + lm dWl dWr n * dWr n, fun n => W i n - lm dWr dWl n * dWl n)) o

/-! ## Eigensystems in hydrodynamics -/

/-- `esys_prim_adb_hyd`, esystem_prim.c:113-191, for the arguments of the calls, `d`, `Vx`, `Gamma*P`. -/
def esysAdbHyd (ns : ℕ) (gamma : ℝ) (W : Vec 1 ns) : Eig 1 :=
  let d := W (Sum.inl 0)
  let v := W (Sum.inl 1)
  let asq := gamma * W (Sum.inl 4) / d
  let a := Real.sqrt asq
  { ev := ![v - a, v, v, v, v + a]
    rem := ![![1, 1, 0, 0, 1], ![-a / d, 0, 0, 0, -(-a / d)], ![0, 0, 1, 0, 0], ![0, 0, 0, 1, 0], ![asq, 0, 0, 0, asq]]
    lem := ![![0, -(1/2) * d / a, 0, 0, 1/2 / asq], ![1, 0, 0, 0, -1 / asq], ![0, 0, 1, 0, 0], ![0, 0, 0, 1, 0],
      ![0, -(-(1/2) * d / a), 0, 0, 1/2 / asq]] }

/-- `esys_prim_iso_hyd`, esystem_prim.c:51-101, `cs` being `Iso_csound`. -/
def esysIsoHyd (ns : ℕ) (cs : ℝ) (W : Vec 0 ns) : Eig 0 :=
  let d := W (Sum.inl 0)
  let v := W (Sum.inl 1)
  { ev := ![v - cs, v, v, v + cs]
    rem := ![![1, 0, 0, 1], ![-cs / d, 0, 0, cs / d], ![0, 1, 0, 0], ![0, 0, 1, 0]]
    lem := ![![1/2, -(1/2) * d / cs, 0, 0], ![0, 0, 1, 0], ![0, 0, 0, 1], ![1/2, 1/2 * d / cs, 0, 0]] }

end
end Athena.Recon
