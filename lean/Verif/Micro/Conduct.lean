import Verif.Integr.All

/-!
# src/microphysics/conduction.c: explicit thermal conduction

Cartesian (the file has no other version), adiabatic, MHD; without MHD the fields are zero and the anisotropic part is
not compiled, which gives the same fluxes.  Real numbers instead of `double`.
-/

namespace Athena.Micro
open Athena.Bvals hiding Rng
open Athena.Vl3 Athena.Gen

/-- What the diffusion functions read besides the Grid: the time step (`pG->dt`, or `STS_dt` with super time
stepping), the zone sizes, the global coefficients of src/globals.h:40-60 and `TINY_NUMBER`.  `eta` is the function behind
`get_myeta` (src/microphysics/get_eta.c:95-120 or the problem generator's): from a zone to its Ohmic, Hall and ambipolar
diffusivities. -/
structure Diff (ns : ℕ) where
  dt : ℝ
  dx1 : ℝ
  dx2 : ℝ
  dx3 : ℝ
  kIso : ℝ
  kAni : ℝ
  gm1 : ℝ
  tiny : ℝ
  nuIso : ℝ
  etaOhm : ℝ
  qHall : ℝ
  qAD : ℝ
  eta : Cons ℝ ns → ℝ × ℝ × ℝ

/-- A triple loop that changes element `[k][j][i]` by `f`. -/
def mod3 {α : Type} (kl ku jl ju il iu : ℤ) (f : ℤ → ℤ → ℤ → α → α) (old : Arr α) : Arr α :=
  loop3 kl ku jl ju il iu (fun k j i => f k j i (old k j i)) old

/-- `limiter2`, that is `vanleer`; conduction.c:367-389, the same in viscosity.c. -/
noncomputable def limiter2 (a b : ℝ) : ℝ := if a * b > 0 then 2 * a * b / (a + b) else 0
/-- `limiter4`, conduction.c:377-380. -/
noncomputable def limiter4 (a b c d : ℝ) : ℝ := limiter2 (limiter2 a b) (limiter2 c d)

section Model
variable {ns : ℕ} (w : Which) (q : Diff ns) (g : Rng)

/-- Temperature of a zone, conduction.c:109-115. -/
noncomputable def temp (u : Cons ℝ ns) : ℝ :=
  (u.E - 0.5 / u.d * (u.M1 ^ 2 + u.M2 ^ 2 + u.M3 ^ 2) - 0.5 * (u.B1c ^ 2 + u.B2c ^ 2 + u.B3c ^ 2)) * (q.gm1 / u.d)

/-! ### The expressions inside the loops of `HeatFlux_iso` and `HeatFlux_aniso` -/

/-- x1-flux, conduction.c:178-179. -/
noncomputable def iso1 (U : Arr (Cons ℝ ns)) (T : Arr ℝ) : Arr ℝ := fun k j i =>
  q.kIso * 0.5 * ((U k j i).d + (U k j (i-1)).d) * (T k j i - T k j (i-1)) / q.dx1
/-- x2-flux, conduction.c:189-190. -/
noncomputable def iso2 (U : Arr (Cons ℝ ns)) (T : Arr ℝ) : Arr ℝ := fun k j i =>
  q.kIso * 0.5 * ((U k j i).d + (U k (j-1) i).d) * (T k j i - T k (j-1) i) / q.dx2
/-- x3-flux, conduction.c:201-202. -/
noncomputable def iso3 (U : Arr (Cons ℝ ns)) (T : Arr ℝ) : Arr ℝ := fun k j i =>
  q.kIso * 0.5 * ((U k j i).d + (U (k-1) j i).d) * (T k j i - T (k-1) j i) / q.dx3

/-- conduction.c:234-263: x1-interface, in two and in three dimensions. -/
noncomputable def ani1 (S : St ℝ ns) (T : Arr ℝ) : Arr ℝ := fun k j i =>
  let dTdy := limiter4 (T k (j+1) i - T k j i) (T k j i - T k (j-1) i) (T k (j+1) (i-1) - T k j (i-1))
    (T k j (i-1) - T k (j-1) (i-1)) / q.dx2
  let By := 0.5 * ((S.U k j (i-1)).B2c + (S.U k j i).B2c)
  let kd := q.kAni * 0.5 * ((S.U k j i).d + (S.U k j (i-1)).d)
  if dims w 2 then
    let dTdz := limiter4 (T (k+1) j i - T k j i) (T k j i - T (k-1) j i) (T (k+1) j (i-1) - T k j (i-1))
      (T k j (i-1) - T (k-1) j (i-1)) / q.dx3
    let Bz := 0.5 * ((S.U k j (i-1)).B3c + (S.U k j i).B3c)
    let B02 := max (S.B1i k j i ^ 2 + By ^ 2 + Bz ^ 2) q.tiny
    let b := S.B1i k j i * (T k j i - T k j (i-1)) / q.dx1 + By * dTdy + Bz * dTdz
    kd * (S.B1i k j i * b) / B02
  else
    let B02 := max (S.B1i k j i ^ 2 + By ^ 2) q.tiny
    let b := S.B1i k j i * (T k j i - T k j (i-1)) / q.dx1 + By * dTdy
    kd * (S.B1i k j i * b) / B02

/-- conduction.c:275-307: x2-interface. -/
noncomputable def ani2 (S : St ℝ ns) (T : Arr ℝ) : Arr ℝ := fun k j i =>
  let dTdx := limiter4 (T k j (i+1) - T k j i) (T k j i - T k j (i-1)) (T k (j-1) (i+1) - T k (j-1) i)
    (T k (j-1) i - T k (j-1) (i-1)) / q.dx1
  let Bx := 0.5 * ((S.U k (j-1) i).B1c + (S.U k j i).B1c)
  let kd := q.kAni * 0.5 * ((S.U k j i).d + (S.U k (j-1) i).d)
  if dims w 2 then
    let dTdz := limiter4 (T (k+1) j i - T k j i) (T k j i - T (k-1) j i) (T (k+1) (j-1) i - T k (j-1) i)
      (T k (j-1) i - T (k-1) (j-1) i) / q.dx3
    let Bz := 0.5 * ((S.U k (j-1) i).B3c + (S.U k j i).B3c)
    let B02 := max (Bx ^ 2 + S.B2i k j i ^ 2 + Bz ^ 2) q.tiny
    let b := S.B2i k j i * (T k j i - T k (j-1) i) / q.dx2 + Bx * dTdx + Bz * dTdz
    kd * (S.B2i k j i * b) / B02
  else
    let B02 := max (Bx ^ 2 + S.B2i k j i ^ 2) q.tiny
    let b := S.B2i k j i * (T k j i - T k (j-1) i) / q.dx2 + Bx * dTdx
    kd * (S.B2i k j i * b) / B02

/-- conduction.c:322-346: x3-interface, three dimensions only. -/
noncomputable def ani3 (S : St ℝ ns) (T : Arr ℝ) : Arr ℝ := fun k j i =>
  let dTdx := limiter4 (T k j (i+1) - T k j i) (T k j i - T k j (i-1)) (T (k-1) j (i+1) - T (k-1) j i)
    (T (k-1) j i - T (k-1) j (i-1)) / q.dx1
  let dTdy := limiter4 (T k (j+1) i - T k j i) (T k j i - T k (j-1) i) (T (k-1) (j+1) i - T (k-1) j i)
    (T (k-1) j i - T (k-1) (j-1) i) / q.dx2
  let Bx := 0.5 * ((S.U (k-1) j i).B1c + (S.U k j i).B1c)
  let By := 0.5 * ((S.U (k-1) j i).B2c + (S.U k j i).B2c)
  let B02 := max (Bx ^ 2 + By ^ 2 + S.B3i k j i ^ 2) q.tiny
  let b := S.B3i k j i * (T k j i - T (k-1) j i) / q.dx3 + Bx * dTdx + By * dTdy
  let kd := q.kAni * 0.5 * ((S.U k j i).d + (S.U (k-1) j i).d)
  kd * (S.B3i k j i * b) / B02

/-! ### The loops -/

/-- The static arrays of conduction.c:44-46. -/
structure WorkC where
  Temp : Arr ℝ
  Q1 : Arr ℝ
  Q2 : Arr ℝ
  Q3 : Arr ℝ

/-- The loop over active and neighbouring zones, conduction.c:80-103. -/
def near1 {α : Type} (f old : Arr α) : Arr α :=
  loop3 (g.ks - wid (dims w 2) 1) (g.ke + wid (dims w 2) 1) (g.js - wid (dims w 1) 1) (g.je + wid (dims w 1) 1) (g.is - 1) (g.ie + 1) f old

variable (S : St ℝ ns) (J : WorkC)

/-- conduction.c:101-117. -/
noncomputable def cTemp : Arr ℝ := near1 w g (fun k j i => temp q (S.U k j i)) J.Temp

/-- The x1-fluxes: set to zero (:105), then `HeatFlux_iso` (:175-181) and `HeatFlux_aniso` (:228-265). -/
noncomputable def cQ1 : Arr ℝ :=
  let Q := near1 w g (fun _ _ _ => (0 : ℝ)) J.Q1
  let Q := if q.kIso > 0 then mod3 g.ks g.ke g.js g.je g.is (g.ie+1) (fun k j i x => x + iso1 q S.U (cTemp w q g S J) k j i) Q else Q
  if q.kAni > 0 ∧ dims w 1 then mod3 g.ks g.ke g.js g.je g.is (g.ie+1) (fun k j i x => x + ani1 w q S (cTemp w q g S J) k j i) Q else Q
/-- The x2-fluxes: :106, 185-193, 269-309. -/
noncomputable def cQ2 : Arr ℝ :=
  let Q := near1 w g (fun _ _ _ => (0 : ℝ)) J.Q2
  let Q := if q.kIso > 0 ∧ dims w 1 then
    mod3 g.ks g.ke g.js (g.je+1) g.is g.ie (fun k j i x => x + iso2 q S.U (cTemp w q g S J) k j i) Q else Q
  if q.kAni > 0 ∧ dims w 1 then mod3 g.ks g.ke g.js (g.je+1) g.is g.ie (fun k j i x => x + ani2 w q S (cTemp w q g S J) k j i) Q else Q
/-- The x3-fluxes: :107, 197-205, 313-348. -/
noncomputable def cQ3 : Arr ℝ :=
  let Q := near1 w g (fun _ _ _ => (0 : ℝ)) J.Q3
  let Q := if q.kIso > 0 ∧ dims w 2 then
    mod3 g.ks (g.ke+1) g.js g.je g.is g.ie (fun k j i x => x + iso3 q S.U (cTemp w q g S J) k j i) Q else Q
  if q.kAni > 0 ∧ dims w 1 ∧ dims w 2 then
    mod3 g.ks (g.ke+1) g.js g.je g.is g.ie (fun k j i x => x + ani3 q S (cTemp w q g S J) k j i) Q else Q

/-- A loop over the active zones that adds to the energy. -/
def addE (f : Arr ℝ) (U : Arr (Cons ℝ ns)) : Arr (Cons ℝ ns) :=
  mod3 g.ks g.ke g.js g.je g.is g.ie (fun k j i u => { u with E := u.E + f k j i }) U

/-- `conduction`, conduction.c:68-158; the last three loops are :126-155. -/
noncomputable def conduct : St ℝ ns :=
  let U := addE g (fun k j i => q.dt / q.dx1 * (cQ1 w q g S J k j (i+1) - cQ1 w q g S J k j i)) S.U
  let U := if dims w 1 then addE g (fun k j i => q.dt / q.dx2 * (cQ2 w q g S J k (j+1) i - cQ2 w q g S J k j i)) U else U
  let U := if dims w 2 then addE g (fun k j i => q.dt / q.dx3 * (cQ3 w q g S J (k+1) j i - cQ3 w q g S J k j i)) U else U
  { S with U := U }

end Model

/-! ## On the lattice -/

section Ideal
variable {ns : ℕ} (w : Which) (q : Diff ns) (L : St ℝ ns)

noncomputable def lTemp : Arr ℝ := fun k j i => temp q (L.U k j i)
/-- Heat flux through the x1-interfaces. -/
noncomputable def lQ1 : Arr ℝ := fun k j i =>
  (if q.kIso > 0 then iso1 q L.U (lTemp q L) k j i else 0) + if q.kAni > 0 ∧ dims w 1 then ani1 w q L (lTemp q L) k j i else 0
/-- Heat flux through the x2-interfaces. -/
noncomputable def lQ2 : Arr ℝ := fun k j i =>
  (if q.kIso > 0 ∧ dims w 1 then iso2 q L.U (lTemp q L) k j i else 0) + if q.kAni > 0 ∧ dims w 1 then ani2 w q L (lTemp q L) k j i else 0
/-- Heat flux through the x3-interfaces. -/
noncomputable def lQ3 : Arr ℝ := fun k j i =>
  (if q.kIso > 0 ∧ dims w 2 then iso3 q L.U (lTemp q L) k j i else 0) +
    if q.kAni > 0 ∧ dims w 1 ∧ dims w 2 then ani3 q L (lTemp q L) k j i else 0

/-- Change of the energy of a zone. -/
noncomputable def lDE : Arr ℝ := fun k j i =>
  q.dt / q.dx1 * (lQ1 w q L k j (i+1) - lQ1 w q L k j i)
    + (if dims w 1 then q.dt / q.dx2 * (lQ2 w q L k (j+1) i - lQ2 w q L k j i) else 0)
    + if dims w 2 then q.dt / q.dx3 * (lQ3 w q L (k+1) j i - lQ3 w q L k j i) else 0

/-- `conduction` on a lattice. -/
noncomputable def latCond : St ℝ ns := { L with U := fun k j i => { L.U k j i with E := (L.U k j i).E + lDE w q L k j i } }

variable (a b d k j i : ℤ)
theorem sTemp : lTemp q (L.shift a b d) k j i = lTemp q L (k+a) (j+b) (i+d) := rfl
theorem sQ1 : lQ1 w q (L.shift a b d) k j i = lQ1 w q L (k+a) (j+b) (i+d) := by
  simp only [lQ1, iso1, ani1, sTemp, pm, pp]; simp only [St.shift, pm]
theorem sQ2 : lQ2 w q (L.shift a b d) k j i = lQ2 w q L (k+a) (j+b) (i+d) := by
  simp only [lQ2, iso2, ani2, sTemp, pm, pp]; simp only [St.shift, pm]
theorem sQ3 : lQ3 w q (L.shift a b d) k j i = lQ3 w q L (k+a) (j+b) (i+d) := by
  simp only [lQ3, iso3, ani3, sTemp, pm, pp]; simp only [St.shift, pm]
theorem sDE : lDE w q (L.shift a b d) k j i = lDE w q L (k+a) (j+b) (i+d) := by
  simp only [lDE, sQ1, sQ2, sQ3, pp]
theorem latCond_shift : (latCond w q L).shift a b d = latCond w q (L.shift a b d) := by
  simp only [latCond, St.shift]
  congr
  funext k j i
  have := sDE w q L a b d k j i
  simp only [St.shift] at this
  rw [this]

end Ideal

/-! ## Agreement -/

section Agreement
variable {ns : ℕ} {w : Which} {q : Diff ns} {g : Rng} {S L : St ℝ ns} {J : WorkC}

theorem mod3_in {α : Type} {kl ku jl ju il iu : ℤ} (f : ℤ → ℤ → ℤ → α → α) (old : Arr α) {k j i : ℤ} (h1 : kl ≤ k) (h2 : k ≤ ku)
    (h3 : jl ≤ j) (h4 : j ≤ ju) (h5 : il ≤ i) (h6 : i ≤ iu) : mod3 kl ku jl ju il iu f old k j i = f k j i (old k j i) :=
  loop3_in _ _ h1 h2 h3 h4 h5 h6

theorem wid_mul (a : Bool) (m : ℤ) : wid a m = m * wid a 1 := by cases a <;> simp [wid]
theorem wid_one (a : Bool) : wid a 1 = 0 ∧ a = false ∨ wid a 1 = 1 ∧ a = true := by cases a <;> simp [wid]
theorem wid_on {a : Bool} (h : a = true) : wid a 1 = 1 := by subst h; rfl
@[simp] theorem dim11 : dims .d1 1 = false := rfl
@[simp] theorem dim12 : dims .d1 2 = false := rfl
@[simp] theorem dim21 : dims .d2 1 = true := rfl
@[simp] theorem dim22 : dims .d2 2 = false := rfl
@[simp] theorem dim31 : dims .d3 1 = true := rfl
@[simp] theorem dim32 : dims .d3 2 = true := rfl
theorem dims0 (w : Which) : dims w 0 = true := by cases w <;> rfl

/-- Agreement of the zones over four ghost zones. -/
theorem agU (hg : RngOk (dims w) g) (ha : AgreeA (dims w) g S L) {k j i : ℤ} (h1 : g.ks - 4 * wid (dims w 2) 1 ≤ k)
    (h2 : k ≤ g.ke + 4 * wid (dims w 2) 1) (h3 : g.js - 4 * wid (dims w 1) 1 ≤ j) (h4 : j ≤ g.je + 4 * wid (dims w 1) 1)
    (h5 : g.is - 4 ≤ i) (h6 : i ≤ g.ie + 4) : S.U k j i = L.U k j i := by
  have hn := hg.hng
  have m : ∀ t, 4 * wid (dims w t) 1 ≤ wid (dims w t) g.ng := fun t => by
    rcases wid_one (dims w t) with ⟨e, e'⟩ | ⟨e, e'⟩ <;> rw [e, e'] <;> simp [wid]; exact hn
  have m1 := m 1; have m2 := m 2; have m0 := m 0
  rw [wid_on (dims0 w)] at m0
  exact ha.U _ _ _ (by omega) (by omega) (by omega) (by omega) (by omega) (by omega)

theorem agB1 (hg : RngOk (dims w) g) (ha : AgreeA (dims w) g S L) {k j i : ℤ} (h1 : g.ks - 4 * wid (dims w 2) 1 ≤ k)
    (h2 : k ≤ g.ke + 4 * wid (dims w 2) 1) (h3 : g.js - 4 * wid (dims w 1) 1 ≤ j) (h4 : j ≤ g.je + 4 * wid (dims w 1) 1)
    (h5 : g.is - 3 ≤ i) (h6 : i ≤ g.ie + 4) : S.B1i k j i = L.B1i k j i := by
  have hn := hg.hng
  have m : ∀ t, 4 * wid (dims w t) 1 ≤ wid (dims w t) g.ng := fun t => by
    rcases wid_one (dims w t) with ⟨e, e'⟩ | ⟨e, e'⟩ <;> rw [e, e'] <;> simp [wid]; exact hn
  have m1 := m 1; have m2 := m 2; have m0 := m 0
  have e0 := wid_on (dims0 w)
  exact ha.B1 _ _ _ (by omega) (by omega) (by omega) (by omega) (by omega) (by omega)

theorem agB2 (hg : RngOk (dims w) g) (ha : AgreeA (dims w) g S L) {k j i : ℤ} (h1 : g.ks - 4 * wid (dims w 2) 1 ≤ k)
    (h2 : k ≤ g.ke + 4 * wid (dims w 2) 1) (h3 : g.js - 3 * wid (dims w 1) 1 ≤ j) (h4 : j ≤ g.je + 4 * wid (dims w 1) 1)
    (h5 : g.is - 4 ≤ i) (h6 : i ≤ g.ie + 4) : S.B2i k j i = L.B2i k j i := by
  have hn := hg.hng
  have m : ∀ t, 4 * wid (dims w t) 1 ≤ wid (dims w t) g.ng := fun t => by
    rcases wid_one (dims w t) with ⟨e, e'⟩ | ⟨e, e'⟩ <;> rw [e, e'] <;> simp [wid]; exact hn
  have m1 := m 1; have m2 := m 2; have m0 := m 0
  have e0 := wid_on (dims0 w)
  exact ha.B2 _ _ _ (by omega) (by omega) (by omega) (by omega) (by omega) (by omega)

theorem agB3 (hg : RngOk (dims w) g) (ha : AgreeA (dims w) g S L) {k j i : ℤ} (h1 : g.ks - 3 * wid (dims w 2) 1 ≤ k)
    (h2 : k ≤ g.ke + 4 * wid (dims w 2) 1) (h3 : g.js - 4 * wid (dims w 1) 1 ≤ j) (h4 : j ≤ g.je + 4 * wid (dims w 1) 1)
    (h5 : g.is - 4 ≤ i) (h6 : i ≤ g.ie + 4) : S.B3i k j i = L.B3i k j i := by
  have hn := hg.hng
  have m : ∀ t, 4 * wid (dims w t) 1 ≤ wid (dims w t) g.ng := fun t => by
    rcases wid_one (dims w t) with ⟨e, e'⟩ | ⟨e, e'⟩ <;> rw [e, e'] <;> simp [wid]; exact hn
  have m1 := m 1; have m2 := m 2; have m0 := m 0
  have e0 := wid_on (dims0 w)
  exact ha.B3 _ _ _ (by omega) (by omega) (by omega) (by omega) (by omega) (by omega)

/-- Agreement on the active zones and faces. -/
theorem act_of (hg : RngOk (dims w) g) (ha : AgreeA (dims w) g S L) : ActEq (dims w) g S L := by
  have e0 := wid_on (dims0 w)
  have e1 := wid_one (dims w 1); have e2 := wid_one (dims w 2)
  constructor
  · intro k j i h1 h2 h3 h4 h5 h6
    exact agU hg ha (by omega) (by omega) (by omega) (by omega) (by omega) (by omega)
  · intro k j i h1 h2 h3 h4 h5 h6
    exact agB1 hg ha (by omega) (by omega) (by omega) (by omega) (by omega) (by omega)
  · intro k j i h1 h2 h3 h4 h5 h6
    exact agB2 hg ha (by omega) (by omega) (by omega) (by omega) (by omega) (by omega)
  · intro k j i h1 h2 h3 h4 h5 h6
    exact agB3 hg ha (by omega) (by omega) (by omega) (by omega) (by omega) (by omega)

variable (hg : RngOk (dims w) g) (ha : AgreeA (dims w) g S L)
include hg ha

theorem aTemp {k j i : ℤ} (h1 : g.ks - wid (dims w 2) 1 ≤ k) (h2 : k ≤ g.ke + wid (dims w 2) 1) (h3 : g.js - wid (dims w 1) 1 ≤ j)
    (h4 : j ≤ g.je + wid (dims w 1) 1) (h5 : g.is - 1 ≤ i) (h6 : i ≤ g.ie + 1) : cTemp w q g S J k j i = lTemp q L k j i := by
  have e1 := wid_one (dims w 1); have e2 := wid_one (dims w 2)
  rw [cTemp, near1, loop3_in _ _ h1 h2 h3 h4 h5 h6, agU hg ha (by omega) (by omega) (by omega) (by omega) (by omega) (by omega)]
  rfl

theorem aQ1 {k j i : ℤ} (h1 : g.ks ≤ k) (h2 : k ≤ g.ke) (h3 : g.js ≤ j) (h4 : j ≤ g.je) (h5 : g.is ≤ i) (h6 : i ≤ g.ie + 1) :
    cQ1 w q g S J k j i = lQ1 w q L k j i := by
  have e1 := wid_one (dims w 1); have e2 := wid_one (dims w 2)
  have i1 : iso1 q S.U (cTemp w q g S J) k j i = iso1 q L.U (lTemp q L) k j i := by
    simp (disch := omega) only [iso1, aTemp hg ha, agU hg ha]
  have i2 : dims w 1 = true → ani1 w q S (cTemp w q g S J) k j i = ani1 w q L (lTemp q L) k j i := by
    intro hw
    have e1 := wid_on hw
    simp only [ani1]
    by_cases hz : dims w 2 = true
    · rw [if_pos hz, if_pos hz]
      have e2 := wid_on hz
      simp (disch := omega) only [aTemp hg ha, agU hg ha, agB1 hg ha]
    · rw [if_neg hz, if_neg hz]
      simp (disch := omega) only [aTemp hg ha, agU hg ha, agB1 hg ha]
  have z : near1 w g (fun _ _ _ => (0 : ℝ)) J.Q1 k j i = 0 :=
    loop3_in _ _ (by omega) (by omega) (by omega) (by omega) (by omega) (by omega)
  unfold cQ1 lQ1
  by_cases hi : q.kIso > 0 <;> by_cases hn : q.kAni > 0 ∧ dims w 1 = true
  · simp (disch := omega) only [hi, hn, if_true, mod3_in, i1, i2 hn.2, z, zero_add, and_self]
  · simp (disch := omega) only [hi, hn, if_true, if_false, mod3_in, i1, z, zero_add, add_zero]
  · simp (disch := omega) only [hi, hn, if_true, if_false, mod3_in, i2 hn.2, z, zero_add, and_self]
  · simp only [hi, hn, if_false, z, add_zero]

theorem aQ2 (hw : dims w 1 = true) {k j i : ℤ} (h1 : g.ks ≤ k) (h2 : k ≤ g.ke) (h3 : g.js ≤ j) (h4 : j ≤ g.je + 1) (h5 : g.is ≤ i) (h6 : i ≤ g.ie) :
    cQ2 w q g S J k j i = lQ2 w q L k j i := by
  have e1 := wid_on hw; have e2 := wid_one (dims w 2)
  have i1 : iso2 q S.U (cTemp w q g S J) k j i = iso2 q L.U (lTemp q L) k j i := by
    simp (disch := omega) only [iso2, aTemp hg ha, agU hg ha]
  have i2 : ani2 w q S (cTemp w q g S J) k j i = ani2 w q L (lTemp q L) k j i := by
    simp only [ani2]
    by_cases hz : dims w 2 = true
    · rw [if_pos hz, if_pos hz]
      have e2 := wid_on hz
      simp (disch := omega) only [aTemp hg ha, agU hg ha, agB2 hg ha]
    · rw [if_neg hz, if_neg hz]
      simp (disch := omega) only [aTemp hg ha, agU hg ha, agB2 hg ha]
  have z : near1 w g (fun _ _ _ => (0 : ℝ)) J.Q2 k j i = 0 :=
    loop3_in _ _ (by omega) (by omega) (by omega) (by omega) (by omega) (by omega)
  unfold cQ2 lQ2
  by_cases hi : q.kIso > 0 <;> by_cases hn : q.kAni > 0 <;>
    simp (disch := omega) only [hi, hn, hw, if_true, if_false, mod3_in, i1, i2, z, true_and, and_true, false_and, and_self, zero_add, add_zero]

theorem aQ3 (hw : dims w 2 = true) {k j i : ℤ} (h1 : g.ks ≤ k) (h2 : k ≤ g.ke + 1) (h3 : g.js ≤ j) (h4 : j ≤ g.je) (h5 : g.is ≤ i) (h6 : i ≤ g.ie) :
    cQ3 w q g S J k j i = lQ3 w q L k j i := by
  have hw1 : dims w 1 = true := by cases w <;> simp [dims, A1, A2, A3] at hw ⊢
  have e1 := wid_on hw1; have e2 := wid_on hw
  have i1 : iso3 q S.U (cTemp w q g S J) k j i = iso3 q L.U (lTemp q L) k j i := by
    simp (disch := omega) only [iso3, aTemp hg ha, agU hg ha]
  have i2 : ani3 q S (cTemp w q g S J) k j i = ani3 q L (lTemp q L) k j i := by
    simp (disch := omega) only [ani3, aTemp hg ha, agU hg ha, agB3 hg ha]
  have z : near1 w g (fun _ _ _ => (0 : ℝ)) J.Q3 k j i = 0 :=
    loop3_in _ _ (by omega) (by omega) (by omega) (by omega) (by omega) (by omega)
  unfold cQ3 lQ3
  by_cases hi : q.kIso > 0 <;> by_cases hn : q.kAni > 0 <;>
    simp (disch := omega) only [hi, hn, hw, hw1, if_true, if_false, mod3_in, i1, i2, z, true_and, and_true, false_and, and_self, zero_add, add_zero]

/-- What `conduction` does to an active zone of a Grid that holds the values of a lattice. -/
theorem conduct_U {k j i : ℤ} (h1 : g.ks ≤ k) (h2 : k ≤ g.ke) (h3 : g.js ≤ j) (h4 : j ≤ g.je) (h5 : g.is ≤ i) (h6 : i ≤ g.ie) :
    (conduct w q g S J).U k j i = (latCond w q L).U k j i := by
  have e1 := wid_one (dims w 1); have e2 := wid_one (dims w 2)
  have eU : S.U k j i = L.U k j i := agU hg ha (by omega) (by omega) (by omega) (by omega) (by omega) (by omega)
  unfold conduct latCond lDE
  dsimp only
  have a1 : cQ1 w q g S J k j (i+1) = lQ1 w q L k j (i+1) := aQ1 hg ha h1 h2 h3 h4 (by omega) (by omega)
  have a2 : cQ1 w q g S J k j i = lQ1 w q L k j i := aQ1 hg ha h1 h2 h3 h4 h5 (by omega)
  by_cases hw : dims w 1 = true
  · have b1 : cQ2 w q g S J k (j+1) i = lQ2 w q L k (j+1) i := aQ2 hg ha hw h1 h2 (by omega) (by omega) h5 h6
    have b2 : cQ2 w q g S J k j i = lQ2 w q L k j i := aQ2 hg ha hw h1 h2 h3 (by omega) h5 h6
    by_cases hz : dims w 2 = true
    · have c1 : cQ3 w q g S J (k+1) j i = lQ3 w q L (k+1) j i := aQ3 hg ha hz (by omega) (by omega) h3 h4 h5 h6
      have c2 : cQ3 w q g S J k j i = lQ3 w q L k j i := aQ3 hg ha hz h1 (by omega) h3 h4 h5 h6
      simp only [hw, hz, if_true, addE]
      rw [mod3_in _ _ h1 h2 h3 h4 h5 h6, mod3_in _ _ h1 h2 h3 h4 h5 h6, mod3_in _ _ h1 h2 h3 h4 h5 h6, eU, a1, a2, b1, b2, c1, c2]
      ext <;> simp <;> ring
    · simp only [hw, hz, if_true, if_false, addE, Bool.false_eq_true]
      rw [mod3_in _ _ h1 h2 h3 h4 h5 h6, mod3_in _ _ h1 h2 h3 h4 h5 h6, eU, a1, a2, b1, b2]
      ext <;> simp <;> ring
  · have hz : ¬ dims w 2 = true := by cases w <;> simp [dims, A1, A2, A3] at hw ⊢
    simp only [hw, hz, if_false, addE, Bool.false_eq_true]
    rw [mod3_in _ _ h1 h2 h3 h4 h5 h6, eU, a1, a2]
    ext <;> simp

theorem conduct_act : ActEq (dims w) g (conduct w q g S J) (latCond w q L) := by
  have h := act_of hg ha
  exact ⟨fun k j i h1 h2 h3 h4 h5 h6 => conduct_U hg ha h1 h2 h3 h4 h5 h6, h.B1, h.B2, h.B3⟩

end Agreement

section Results
variable {ns : ℕ}

theorem conduct_lattice (w : Which) : Lattice (dims w) (conduct (ns := ns) w) (latCond w) :=
  lattice_of (fun q L a b d => latCond_shift w q L a b d) fun _ _ _ _ _ hg ha => conduct_act hg ha

theorem latCond_conserves (w : Which) (q : Diff ns) : Conserves (dims w) (latCond w q) := by
  intro N L hL hN f hf is js ks
  by_cases hE : f = .cell .E
  · subst hE
    refine zsum_step (lQ1 w q L) (fun k j i => if dims w 1 then lQ2 w q L k j i else 0) (fun k j i => if dims w 2 then lQ3 w q L k j i else 0)
      (-(q.dt / q.dx1)) (-(q.dt / q.dx2)) (-(q.dt / q.dx3)) ?_ ?_ ?_ ?_
    · intro k j i
      simp only [lval, latCond, Cons.get, lDE]
      split_ifs <;> ring
    · intro k j i; exact per1 hL (lQ1 w q) (fun L a b d k j i => sQ1 w q L a b d k j i) k j i
    · intro k j i
      rw [per2 hL (lQ2 w q) (fun L a b d k j i => sQ2 w q L a b d k j i)]
    · intro k j i
      rw [per3 hL (lQ3 w q) (fun L a b d k j i => sQ3 w q L a b d k j i)]
  · have : lval f (latCond w q L) = lval f L := by
      funext k j i
      cases f with
      | cell v => cases v <;> first | rfl | exact absurd rfl hE
      | face n => rfl
    rw [this]

theorem conduct_divB (w : Which) (q : Diff ns) (dx : Fin 3 → ℝ) : KeepsDivB (dims w) dx (conduct w q) := by
  intro g S J k j i _ _ _ _ _ _ _
  rfl

end Results
end Athena.Micro
