import Verif.Integr.Funs

/-!
# src/integrators/integrate_1d_vl.c and integrate_1d_ctu.c

Newtonian, Cartesian (`rsf = lsf = 1.0`), without source terms, cooling, particles and mesh refinement; MHD, adiabatic,
any number of scalars.
-/

namespace Athena.Gen
open Athena.Bvals hiding Rng
open Athena.Vl3
open Num

/-- The static work arrays of the 1D integrators that are read where the same call may not have set them.  `Ul`, `Ur`,
`Wl`, `Wr` are set and read over the same range and are left out. -/
structure Work1 (R : Type) (ns : ℕ) where
  Uhalf : ℤ → Cons R ns
  x1Flux : ℤ → Cons1 R ns
  U1d : ℤ → Cons1 R ns
  W : ℤ → Prim1 R ns
  Bxc : ℤ → R
  Bxi : ℤ → R

section Model
variable {R : Type} {ns : ℕ} [NumC R] (M : Funs R ns) (q : Step R) (g : Rng) (S : St R ns) (J : Work1 R ns)

/-- Difference of the x1-fluxes, including the transverse fields; integrate_1d_vl.c:146-159, 408-424,
integrate_1d_ctu.c:558-574. -/
def updA1 (q : R) (r l : Cons1 R ns) (u : Cons R ns) : Cons R ns :=
  { upd1 q r l u with
    B2c := u.B2c - q * (r.By - l.By)
    B3c := u.B3c - q * (r.Bz - l.Bz) }

/-- `for (i=l; i<=u; i++) a[i] = f(a[i])` -/
def mod1 {α : Type} (l u : ℤ) (f : ℤ → α → α) (old : ℤ → α) : ℤ → α := loop1 l u (fun i => f i (old i)) old

/-! ### Step 1a, the same in both integrators: integrate_1d_vl.c:90-107, integrate_1d_ctu.c:121-138 -/

def v1U1d : ℤ → Cons1 R ns := loop1 (g.is-g.ng) (g.ie+g.ng) (fun i => load1 (S.U g.ks g.js i)) J.U1d
def v1Bxc : ℤ → R := loop1 (g.is-g.ng) (g.ie+g.ng) (fun i => (S.U g.ks g.js i).B1c) J.Bxc
def v1Bxi : ℤ → R := loop1 (g.is-g.ng) (g.ie+g.ng) (fun i => S.B1i g.ks g.js i) J.Bxi
/-- Step 1b, integrate_1d_vl.c:112-114, integrate_1d_ctu.c:144-146. -/
def v1W : ℤ → Prim1 R ns := loop1 (g.is-g.ng) (g.ie+g.ng) (fun i => M.c2p1 (v1U1d g S J i) (v1Bxc g S J i)) J.W

/-! ### integrate_1d_vl -/

/-- Steps 1b-1d, :116-132. -/
def v1Flux : ℤ → Cons1 R ns := loop1 (g.is-(g.ng-1)) (g.ie+g.ng) (fun i =>
  M.flux (v1U1d g S J (i-1)) (v1U1d g S J i) (v1W M g S J (i-1)) (v1W M g S J i) (v1Bxi g S J i)) J.x1Flux
/-- The copy :78-80 and Step 5a, :142-161. -/
def v1Uhalf : ℤ → Cons R ns :=
  mod1 (g.is-(g.ng-1)) (g.ie+(g.ng-1)) (fun i => updA1 (half * q.dt / q.dx1) (v1Flux M g S J (i+1)) (v1Flux M g S J i))
    (loop1 (g.is-g.ng) (g.ie+g.ng) (fun i => S.U g.ks g.js i) J.Uhalf)
/-- Step 7a, :251-267. -/
def v1Bxc' : ℤ → R := loop1 (g.is-(g.ng-1)) (g.ie+(g.ng-1)) (fun i => (v1Uhalf M q g S J i).B1c) (v1Bxc g S J)
/-- Steps 7a, 7b, :251-275. -/
def v1W' : ℤ → Prim1 R ns := loop1 (g.is-(g.ng-1)) (g.ie+(g.ng-1))
  (fun i => M.c2p1 (load1 (v1Uhalf M q g S J i)) (v1Bxc' M q g S J i)) (v1W M g S J)
/-- Step 7b, :277: `lr_states`. -/
def v1LR (i : ℤ) : Prim1 R ns × Prim1 R ns :=
  M.lr q.dt q.dx1 0 (fun m => v1W' M q g S J (i+m)) (fun m => v1Bxc' M q g S J (i+m))
/-- Step 10b, :292-297. -/
def v1Flux' : ℤ → Cons1 R ns := loop1 g.is (g.ie+1) (fun i =>
  M.flux (M.p2c1 (v1LR M q g S J i).1 (v1Bxi g S J i)) (M.p2c1 (v1LR M q g S J i).2 (v1Bxi g S J i))
    (v1LR M q g S J i).1 (v1LR M q g S J i).2 (v1Bxi g S J i)) (v1Flux M g S J)

/-- The last loop of both integrators, integrate_1d_vl.c:404-426, integrate_1d_ctu.c:554-576: `U` on the active
zones, then `B2i`, `B3i` from it. -/
def update1 (F : ℤ → Cons1 R ns) : St R ns :=
  let U := loop3 g.ks g.ks g.js g.js g.is g.ie (fun k j i => updA1 (q.dt / q.dx1) (F (i+1)) (F i) (S.U k j i)) S.U
  { U := U
    B1i := S.B1i
    B2i := loop3 g.ks g.ks g.js g.js g.is g.ie (fun k j i => (U k j i).B2c) S.B2i
    B3i := loop3 g.ks g.ks g.js g.js g.is g.ie (fun k j i => (U k j i).B3c) S.B3i }

/-- `integrate_1d_vl`, :52-492. -/
def vl1 : St R ns := update1 q g S (v1Flux' M q g S J)

/-! ### integrate_1d_ctu -/

/-- The density floor, integrate_1d_ctu.c:151-158. -/
def floorW (w : Prim1 R ns) : Prim1 R ns := if NumC.lt w.d M.dMin then { w with d := M.dMin } else w

/-- Step 1b, :148-158. -/
def c1LR (i : ℤ) : Prim1 R ns × Prim1 R ns :=
  let p := M.lr q.dt q.dx1 0 (fun m => v1W M g S J (i+m)) (fun m => v1Bxc g S J (i+m))
  (floorW M p.1, floorW M p.2)
/-- Step 1d, :309-314 (`il+1 = is`, `iu = ie+1`). -/
def c1Flux : ℤ → Cons1 R ns := loop1 g.is (g.ie+1) (fun i =>
  M.flux (M.p2c1 (c1LR M q g S J i).1 (v1Bxi g S J i)) (M.p2c1 (c1LR M q g S J i).2 (v1Bxi g S J i))
    (c1LR M q g S J i).1 (c1LR M q g S J i).2 (v1Bxi g S J i)) J.x1Flux

/-- `integrate_1d_ctu`, :60-646. -/
def ctu1 : St R ns := update1 q g S (c1Flux M q g S J)

end Model

/-! ## On the lattice -/

section Ideal
variable {R : Type} {ns : ℕ} [NumC R] (M : Funs R ns) (q : Step R) (L : St R ns)

def lW (k j i : ℤ) : Prim1 R ns := M.c2p1 (load1 (L.U k j i)) (L.U k j i).B1c
def lvFlux : Arr (Cons1 R ns) := fun k j i =>
  M.flux (load1 (L.U k j (i-1))) (load1 (L.U k j i)) (lW M L k j (i-1)) (lW M L k j i) (L.B1i k j i)
def lvUhalf : Arr (Cons R ns) := fun k j i => updA1 (half * q.dt / q.dx1) (lvFlux M L k j (i+1)) (lvFlux M L k j i) (L.U k j i)
def lvLR (k j i : ℤ) : Prim1 R ns × Prim1 R ns :=
  M.lr q.dt q.dx1 0 (fun m => M.c2p1 (load1 (lvUhalf M q L k j (i+m))) (lvUhalf M q L k j (i+m)).B1c)
    (fun m => (lvUhalf M q L k j (i+m)).B1c)
def side (f : Prim1 R ns × Prim1 R ns) (b : R) : Cons1 R ns := M.flux (M.p2c1 f.1 b) (M.p2c1 f.2 b) f.1 f.2 b
def lvFlux' : Arr (Cons1 R ns) := fun k j i => side M (lvLR M q L k j i) (L.B1i k j i)
def lcLR (k j i : ℤ) : Prim1 R ns × Prim1 R ns :=
  let p := M.lr q.dt q.dx1 0 (fun m => lW M L k j (i+m)) (fun m => (L.U k j (i+m)).B1c)
  (floorW M p.1, floorW M p.2)
def lcFlux : Arr (Cons1 R ns) := fun k j i => side M (lcLR M q L k j i) (L.B1i k j i)

/-- The step of either integrator on a lattice, given its fluxes. -/
def lat1 (F : Arr (Cons1 R ns)) : St R ns :=
  let U : Arr (Cons R ns) := fun k j i => updA1 (q.dt / q.dx1) (F k j (i+1)) (F k j i) (L.U k j i)
  ⟨U, L.B1i, fun k j i => (U k j i).B2c, fun k j i => (U k j i).B3c⟩

variable (a b d k j i : ℤ)
theorem s1W : lW M (L.shift a b d) k j i = lW M L (k+a) (j+b) (i+d) := rfl
theorem s1vFlux : lvFlux M (L.shift a b d) k j i = lvFlux M L (k+a) (j+b) (i+d) := by
  simp only [lvFlux, s1W, pm]; simp only [St.shift, pm]
theorem s1vUhalf : lvUhalf M q (L.shift a b d) k j i = lvUhalf M q L (k+a) (j+b) (i+d) := by
  simp only [lvUhalf, s1vFlux, pp]; simp only [St.shift]
theorem s1vLR : lvLR M q (L.shift a b d) k j i = lvLR M q L (k+a) (j+b) (i+d) := by
  simp only [lvLR, s1vUhalf, pq i _ d]
theorem s1vFlux' : lvFlux' M q (L.shift a b d) k j i = lvFlux' M q L (k+a) (j+b) (i+d) := by
  simp only [lvFlux', s1vLR]; simp only [St.shift]
theorem s1cLR : lcLR M q (L.shift a b d) k j i = lcLR M q L (k+a) (j+b) (i+d) := by
  simp only [lcLR, s1W]; simp only [St.shift, pq i _ d]
theorem s1cFlux : lcFlux M q (L.shift a b d) k j i = lcFlux M q L (k+a) (j+b) (i+d) := by
  simp only [lcFlux, s1cLR]; simp only [St.shift]

theorem lat1_shift (F F' : Arr (Cons1 R ns)) (h : ∀ k j i, F' k j i = F (k+a) (j+b) (i+d)) :
    (lat1 q L F).shift a b d = lat1 q (L.shift a b d) F' := by
  have e : F' = fun k j i => F (k+a) (j+b) (i+d) := by funext k j i; exact h k j i
  subst e
  simp only [lat1, St.shift, pp]

end Ideal

/-! ## Agreement -/

section Agreement
variable {R : Type} {ns : ℕ} [NumC R] {M : Funs R ns} {q : Step R} {g : Rng} {S L : St R ns} {J : Work1 R ns}

/-- What is needed of the Grid. -/
structure Agr1 (g : Rng) (S L : St R ns) : Prop where
  hng : 4 ≤ g.ng
  U : ∀ i, g.is - g.ng ≤ i → i ≤ g.ie + g.ng → S.U g.ks g.js i = L.U g.ks g.js i
  B : ∀ i, g.is - g.ng + 1 ≤ i → i ≤ g.ie + g.ng → S.B1i g.ks g.js i = L.B1i g.ks g.js i

theorem agr1 (hg : RngOk A1 g) (ha : AgreeA A1 g S L) : Agr1 g S L where
  hng := hg.hng
  U i h1 h2 := by
    refine ha.U _ _ _ ?_ ?_ ?_ ?_ ?_ ?_ <;> simp only [w1, sub_zero, add_zero, le_refl, hg.hk, hg.hj, h1, h2]
  B i h1 h2 := by
    refine ha.B1 _ _ _ ?_ ?_ ?_ ?_ ?_ ?_ <;> simp only [w1, sub_zero, add_zero, le_refl, hg.hk, hg.hj, h1, h2]

variable (h : Agr1 g S L)
include h

theorem a1Bxi {i : ℤ} (h1 : g.is - g.ng + 1 ≤ i) (h2 : i ≤ g.ie + g.ng) : v1Bxi g S J i = L.B1i g.ks g.js i := by
  rw [v1Bxi, loop1_in _ _ (by omega) h2, h.B _ h1 h2]
theorem a1Bxc {i : ℤ} (h1 : g.is - g.ng ≤ i) (h2 : i ≤ g.ie + g.ng) : v1Bxc g S J i = (L.U g.ks g.js i).B1c := by
  rw [v1Bxc, loop1_in _ _ h1 h2, h.U _ h1 h2]
theorem a1U {i : ℤ} (h1 : g.is - g.ng ≤ i) (h2 : i ≤ g.ie + g.ng) : v1U1d g S J i = load1 (L.U g.ks g.js i) := by
  rw [v1U1d, loop1_in _ _ h1 h2, h.U _ h1 h2]
theorem a1W {i : ℤ} (h1 : g.is - g.ng ≤ i) (h2 : i ≤ g.ie + g.ng) : v1W M g S J i = lW M L g.ks g.js i := by
  rw [v1W, loop1_in _ _ h1 h2, a1U h h1 h2, a1Bxc h h1 h2]; rfl
theorem a1vFlux {i : ℤ} (h1 : g.is - g.ng + 1 ≤ i) (h2 : i ≤ g.ie + g.ng) : v1Flux M g S J i = lvFlux M L g.ks g.js i := by
  rw [v1Flux, loop1_in _ _ (by omega) h2]
  simp (disch := omega) only [lvFlux, a1U h, a1W h, a1Bxi h]
theorem a1vUhalf {i : ℤ} (h1 : g.is - g.ng + 1 ≤ i) (h2 : i ≤ g.ie + g.ng - 1) : v1Uhalf M q g S J i = lvUhalf M q L g.ks g.js i := by
  rw [v1Uhalf, mod1, loop1_in _ _ (by omega) (by omega), loop1_in _ _ (by omega) (by omega)]
  simp (disch := omega) only [lvUhalf, a1vFlux h, h.U]
theorem a1vLR (hM : M.Local) {i : ℤ} (h1 : g.is ≤ i) (h2 : i ≤ g.ie + 1) : v1LR M q g S J i = lvLR M q L g.ks g.js i := by
  have := h.hng
  refine hM _ _ _ _ _ _ _ fun m hm hm' => ?_
  simp (disch := omega) only [v1W', v1Bxc', loop1_in, a1vUhalf h, and_self]
theorem a1vFlux' (hM : M.Local) {i : ℤ} (h1 : g.is ≤ i) (h2 : i ≤ g.ie + 1) : v1Flux' M q g S J i = lvFlux' M q L g.ks g.js i := by
  have := h.hng
  rw [v1Flux', loop1_in _ _ h1 h2, a1vLR h hM h1 h2, a1Bxi h (by omega) (by omega)]; rfl
theorem a1cLR (hM : M.Local) {i : ℤ} (h1 : g.is ≤ i) (h2 : i ≤ g.ie + 1) : c1LR M q g S J i = lcLR M q L g.ks g.js i := by
  have := h.hng
  have e : M.lr q.dt q.dx1 0 (fun m => v1W M g S J (i+m)) (fun m => v1Bxc g S J (i+m)) =
      M.lr q.dt q.dx1 0 (fun m => lW M L g.ks g.js (i+m)) (fun m => (L.U g.ks g.js (i+m)).B1c) := by
    refine hM _ _ _ _ _ _ _ fun m hm hm' => ?_
    simp (disch := omega) only [a1W h, a1Bxc h, and_self]
  simp only [c1LR, lcLR, e]
theorem a1cFlux (hM : M.Local) {i : ℤ} (h1 : g.is ≤ i) (h2 : i ≤ g.ie + 1) : c1Flux M q g S J i = lcFlux M q L g.ks g.js i := by
  have := h.hng
  rw [c1Flux, loop1_in _ _ h1 h2, a1cLR h hM h1 h2, a1Bxi h (by omega) (by omega)]; rfl

omit [NumC R] h in
theorem act1 [NumC R] (hg : RngOk A1 g) (ha : AgreeA A1 g S L) {F : ℤ → Cons1 R ns} {F' : Arr (Cons1 R ns)}
    (hF : ∀ i, g.is ≤ i → i ≤ g.ie + 1 → F i = F' g.ks g.js i) : ActEq A1 g (update1 q g S F) (lat1 q L F') := by
  have h := agr1 hg ha
  have ek : ∀ k, g.ks ≤ k → k ≤ g.ke → k = g.ks := fun k h1 h2 => by have := hg.ck rfl; omega
  have ej : ∀ j, g.js ≤ j → j ≤ g.je → j = g.js := fun j h1 h2 => by have := hg.cj rfl; omega
  have hn := hg.hng
  have eU : ∀ i, g.is ≤ i → i ≤ g.ie → (update1 q g S F).U g.ks g.js i = (lat1 q L F').U g.ks g.js i := by
    intro i h5 h6
    simp only [update1, lat1]
    rw [loop3_in _ _ (le_refl _) (le_refl _) (le_refl _) (le_refl _) h5 h6, hF _ (by omega) (by omega), hF _ h5 (by omega),
      h.U _ (by omega) (by omega)]
  refine ⟨?_, ?_, ?_, ?_⟩
  · intro k j i h1 h2 h3 h4 h5 h6
    obtain rfl := ek k h1 h2; obtain rfl := ej j h3 h4
    exact eU i h5 h6
  · intro k j i h1 h2 h3 h4 h5 h6
    obtain rfl := ek k h1 h2; obtain rfl := ej j h3 h4
    rw [(w1 1).1] at h6
    exact h.B _ (by omega) (by omega)
  · intro k j i h1 h2 h3 h4 h5 h6
    rw [(w1 1).2.1, add_zero] at h4
    obtain rfl := ek k h1 h2; obtain rfl := ej j h3 h4
    have := eU i h5 h6
    simp only [update1, lat1] at this ⊢
    rw [loop3_in _ _ (le_refl _) (le_refl _) (le_refl _) (le_refl _) h5 h6, this]
  · intro k j i h1 h2 h3 h4 h5 h6
    rw [(w1 1).2.2, add_zero] at h2
    obtain rfl := ek k h1 h2; obtain rfl := ej j h3 h4
    have := eU i h5 h6
    simp only [update1, lat1] at this ⊢
    rw [loop3_in _ _ (le_refl _) (le_refl _) (le_refl _) (le_refl _) h5 h6, this]

end Agreement

section Results
variable {R : Type} {ns : ℕ} [NumC R]

theorem vl1_lattice (M : Funs R ns) (hM : M.Local) : Lattice A1 (vl1 M) (fun q L => lat1 q L (lvFlux' M q L)) :=
  lattice_of (fun q L a b d => lat1_shift q L a b d _ _ fun k j i => s1vFlux' M q L a b d k j i)
    fun q g S L J hg ha => act1 hg ha fun i h1 h2 => a1vFlux' (agr1 hg ha) hM h1 h2

theorem ctu1_lattice (M : Funs R ns) (hM : M.Local) : Lattice A1 (ctu1 M) (fun q L => lat1 q L (lcFlux M q L)) :=
  lattice_of (fun q L a b d => lat1_shift q L a b d _ _ fun k j i => s1cFlux M q L a b d k j i)
    fun q g S L J hg ha => act1 hg ha fun i h1 h2 => a1cFlux (agr1 hg ha) hM h1 h2

end Results

section Real
variable {ns : ℕ}

/-- The flux of a conserved field, with the transverse fields. -/
def flx1 (f : Fld) (F : Cons1 ℝ ns) : ℝ :=
  match f with
  | .cell .d => F.d
  | .cell (.M n) => if n = 0 then F.Mx else if n = 1 then F.My else F.Mz
  | .cell .E => F.E
  | .cell (.Bc n) => if n = 0 then 0 else if n = 1 then F.By else F.Bz
  | .cell (.s n) => if h : n < ns then F.s ⟨n, h⟩ else 0
  | .face _ => 0

theorem lat1_conserves (q : Step ℝ) (F : St ℝ ns → Arr (Cons1 ℝ ns))
    (hF : ∀ L a b d k j i, F (L.shift a b d) k j i = F L (k+a) (j+b) (i+d)) : Conserves A1 (fun L => lat1 q L (F L)) := by
  intro N L hL hN f hf is js ks
  refine zsum_step (fun k j i => flx1 f (F L k j i)) (fun _ _ _ => 0) (fun _ _ _ => 0) (q.dt / q.dx1) 0 0 ?_ ?_ (by intros; rfl) (by intros; rfl)
  · intro k j i
    cases f with
    | cell v =>
      cases v with
      | s n =>
        have hn : n < ns := hf
        simp only [lval, lat1, updA1, upd1, Cons.get, flx1, dif_pos hn]; ring
      | M n => rcases three n with rfl | rfl | rfl <;> simp [lval, lat1, updA1, upd1, Cons.get, flx1]
      | Bc n => rcases three n with rfl | rfl | rfl <;> simp [lval, lat1, updA1, upd1, Cons.get, flx1]
      | _ => simp [lval, lat1, updA1, upd1, Cons.get, flx1]
    | face n =>
      rcases three n with rfl | rfl | rfl
      · simp [lval, lat1, flx1]
      · simp [Kept, A1] at hf
      · simp [Kept, A1] at hf
  · intro k j i
    rw [per1 hL F hF]

theorem update1_divB (dt : ℝ) (dx : Fin 3 → ℝ) (F : Rng → St ℝ ns → Work1 ℝ ns → ℤ → Cons1 ℝ ns) :
    KeepsDivB A1 dx (fun g S J => update1 ⟨dt, dx 0, dx 1, dx 2⟩ g S (F g S J)) := by
  intro g S J k j i _ _ _ _ _ _ _
  simp [divA, A1, update1]

end Real
end Athena.Gen
