import Verif.Integr.D3c

/-!
# All Newtonian integrators

`integrate_init` (src/integrators/integrate.c:25-85) selects one of six functions; what a run relies on holds for
each of them.
-/

namespace Athena.Gen
open Athena.Bvals hiding Rng
open Athena.Vl3

/-- `VL_INTEGRATOR` or `CTU_INTEGRATOR`, chosen at configure time. -/
inductive Kind | vl | ctu
deriving DecidableEq

/-- Dimension of the integrator. -/
inductive Which | d1 | d2 | d3
deriving DecidableEq

/-- `integrate_init`, src/integrators/integrate.c:24-85.  `Nx` are the numbers of zones of the root Domain, `big` is
`cour_no > 0.5`.  `none` is the null pointer, returned when no direction has more than one zone. -/
def integrateInit (K : Kind) (Nx : Fin 3 → ℕ) (big : Bool) : Res (Option Which) :=
  let dim := (if 1 < Nx 0 then 1 else 0) + (if 1 < Nx 1 then 1 else 0) + (if 1 < Nx 2 then 1 else 0)
  if dim = 1 then
    if Nx 0 ≤ 1 then .fatal
    else match K with
      | .ctu => .ok (some .d1)
      | .vl => if big then .fatal else .ok (some .d1)
  else if dim = 2 then
    if 1 < Nx 2 then .fatal
    else match K with
      | .ctu => .ok (some .d2)
      | .vl => if big then .fatal else .ok (some .d2)
  else if dim = 3 then
    if big then .fatal else .ok (some .d3)
  else .ok none

/-- The static work arrays of all integrators. -/
structure Works (R : Type) (ns : ℕ) where
  w1 : Work1 R ns
  v2 : WorkV2 R ns
  c2 : WorkC2 R ns
  v3 : Work R (Prim1 R ns) ns
  c3 : WorkC3 R ns

section Defs
variable {R : Type} {ns : ℕ} [NumC R]

/-- `(*Integrate)(pD)`. -/
def integ (M : Funs R ns) (K : Kind) (w : Which) : Integ (Step R) R (Works R ns) ns :=
  match K, w with
  | .vl, .d1 => fun q g S J => vl1 M q g S J.w1
  | .ctu, .d1 => fun q g S J => ctu1 M q g S J.w1
  | .vl, .d2 => fun q g S J => vl2 M q g J.v2 S
  | .ctu, .d2 => fun q g S J => ctu2 M q g J.c2 S
  | .vl, .d3 => fun q g S J => vl3 M q g J.v3 S
  | .ctu, .d3 => fun q g S J => ctu3 M q g S J.c3

/-- The directions in which the Domain has more than one zone. -/
def dims : Which → Fin 3 → Bool
  | .d1 => A1
  | .d2 => A2
  | .d3 => A3

/-- The step on a lattice. -/
def latt (M : Funs R ns) (K : Kind) (w : Which) : Step R → St R ns → St R ns :=
  match K, w with
  | .vl, .d1 => fun q L => lat1 q L (lvFlux' M q L)
  | .ctu, .d1 => fun q L => lat1 q L (lcFlux M q L)
  | .vl, .d2 => latV2 M
  | .ctu, .d2 => latC2 M
  | .vl, .d3 => latV3 M
  | .ctu, .d3 => latC3 M

theorem Lattice.comap {A : Fin 3 → Bool} {Q R Wk Wk' : Type} {ns : ℕ} {I : Integ Q R Wk ns} {lat : Q → St R ns → St R ns}
    (h : Lattice A I lat) (p : Wk' → Wk) : Lattice A (fun q g S J => I q g S (p J)) lat where
  shift := h.shift
  active q ng J g L h1 h2 h3 f hf y hy := h.active q ng (p J) g L h1 h2 h3 f hf y hy

theorem integ_lattice (M : Funs R ns) (hM : M.Local) (K : Kind) (w : Which) : Lattice (dims w) (integ M K w) (latt M K w) := by
  cases K <;> cases w
  · exact (vl1_lattice M hM).comap Works.w1
  · exact (vl2_lattice M hM).comap Works.v2
  · exact (vl3_lattice M hM).comap Works.v3
  · exact (ctu1_lattice M hM).comap Works.w1
  · exact (ctu2_lattice M hM).comap Works.c2
  · exact (ctu3_lattice M hM).comap Works.c3

end Defs

section Real
variable {ns : ℕ}

theorem latt_conserves (M : Funs ℝ ns) (K : Kind) (w : Which) (q : Step ℝ) : Conserves (dims w) (latt M K w q) := by
  cases K <;> cases w
  · exact lat1_conserves q (fun L => lvFlux' M q L) (fun L a b d k j i => s1vFlux' M q L a b d k j i)
  · exact lat2_conserves q (fun L k => o2G1 M q (plane L k)) (fun L k => o2G2 M q (plane L k)) (fun L k => o2Emf' M q (plane L k))
      (fun L a b d k j i => s2G1 M q (plane L (k+a)) b d j i) (fun L a b d k j i => s2G2 M q (plane L (k+a)) b d j i)
      (fun L a b d k j i => s2Emf' M q (plane L (k+a)) b d j i)
  · exact lat3_conserves q (fun L => tFlux1 (M.vl q) (coef q) L) (fun L => tFlux2 (M.vl q) (coef q) L)
      (fun L => tFlux3 (M.vl q) (coef q) L) (fun L => tEmf1 (M.vl q) (coef q) L) (fun L => tEmf2 (M.vl q) (coef q) L)
      (fun L => tEmf3 (M.vl q) (coef q) L)
  · exact lat1_conserves q (fun L => lcFlux M q L) (fun L a b d k j i => s1cFlux M q L a b d k j i)
  · exact lat2_conserves q (fun L k => d2G1 M q (plane L k)) (fun L k => d2G2 M q (plane L k)) (fun L k => d2Emf' M q (plane L k))
      (fun L a b d k j i => u2G1 M q (plane L (k+a)) b d j i) (fun L a b d k j i => u2G2 M q (plane L (k+a)) b d j i)
      (fun L a b d k j i => u2Emf' M q (plane L (k+a)) b d j i)
  · exact lat3_conserves q (fun L => u3G1 M q L) (fun L => u3G2 M q L) (fun L => u3G3 M q L)
      (fun L => u3Emf1' M q L) (fun L => u3Emf2' M q L) (fun L => u3Emf3' M q L)

theorem integ_divB (M : Funs ℝ ns) (K : Kind) (w : Which) (dt : ℝ) (dx : Fin 3 → ℝ) :
    KeepsDivB (dims w) dx (integ M K w ⟨dt, dx 0, dx 1, dx 2⟩) := by
  cases K <;> cases w
  · exact fun g S J => update1_divB dt dx (fun g S J => v1Flux' M ⟨dt, dx 0, dx 1, dx 2⟩ g S J) g S J.w1
  · exact fun g S J => updV2_divB dt dx (fun g S J => p2G1 M ⟨dt, dx 0, dx 1, dx 2⟩ g (plane S g.ks) J)
      (fun g S J => p2G2 M ⟨dt, dx 0, dx 1, dx 2⟩ g (plane S g.ks) J) (fun g S J => p2Emf' M ⟨dt, dx 0, dx 1, dx 2⟩ g (plane S g.ks) J) g S J.v2
  · exact fun g S J => upd3_divB dt dx (fun g S J => yFlux1 (M.vl ⟨dt, dx 0, dx 1, dx 2⟩) (coef ⟨dt, dx 0, dx 1, dx 2⟩) g S J)
      (fun g S J => yFlux2 (M.vl ⟨dt, dx 0, dx 1, dx 2⟩) (coef ⟨dt, dx 0, dx 1, dx 2⟩) g S J)
      (fun g S J => yFlux3 (M.vl ⟨dt, dx 0, dx 1, dx 2⟩) (coef ⟨dt, dx 0, dx 1, dx 2⟩) g S J)
      (fun g S J => yEmf1 (M.vl ⟨dt, dx 0, dx 1, dx 2⟩) (coef ⟨dt, dx 0, dx 1, dx 2⟩) g S J)
      (fun g S J => yEmf2 (M.vl ⟨dt, dx 0, dx 1, dx 2⟩) (coef ⟨dt, dx 0, dx 1, dx 2⟩) g S J)
      (fun g S J => yEmf3 (M.vl ⟨dt, dx 0, dx 1, dx 2⟩) (coef ⟨dt, dx 0, dx 1, dx 2⟩) g S J) g S J.v3
  · exact fun g S J => update1_divB dt dx (fun g S J => c1Flux M ⟨dt, dx 0, dx 1, dx 2⟩ g S J) g S J.w1
  · intro g S J
    have := updV2_divB dt dx (fun g S J => c2G1 M ⟨dt, dx 0, dx 1, dx 2⟩ g (plane S g.ks) J)
      (fun g S J => c2G2 M ⟨dt, dx 0, dx 1, dx 2⟩ g (plane S g.ks) J) (fun g S J => c2Emf' M ⟨dt, dx 0, dx 1, dx 2⟩ g (plane S g.ks) J) g S J.c2
    simp only [← updC2_eq] at this
    exact this
  · intro g S J
    have := upd3_divB dt dx (fun g S J => c3G1 M ⟨dt, dx 0, dx 1, dx 2⟩ g S J) (fun g S J => c3G2 M ⟨dt, dx 0, dx 1, dx 2⟩ g S J)
      (fun g S J => c3G3 M ⟨dt, dx 0, dx 1, dx 2⟩ g S J) (fun g S J => c3Emf1' M ⟨dt, dx 0, dx 1, dx 2⟩ g S J)
      (fun g S J => c3Emf2' M ⟨dt, dx 0, dx 1, dx 2⟩ g S J) (fun g S J => c3Emf3' M ⟨dt, dx 0, dx 1, dx 2⟩ g S J) g S J.c3
    simp only [← updC3_eq] at this
    exact this

end Real

/-! ## The selection -/

/-- If an integrator is selected its directions are those with more than one zone. -/
theorem init_dims {K : Kind} {Nx : Fin 3 → ℕ} {big : Bool} {w : Which} (h : integrateInit K Nx big = .ok (some w)) (t : Fin 3) :
    1 < Nx t ↔ dims w t = true := by
  have key : (w = .d1 ∧ 1 < Nx 0 ∧ ¬ 1 < Nx 1 ∧ ¬ 1 < Nx 2) ∨ (w = .d2 ∧ 1 < Nx 0 ∧ 1 < Nx 1 ∧ ¬ 1 < Nx 2) ∨
      (w = .d3 ∧ 1 < Nx 0 ∧ 1 < Nx 1 ∧ 1 < Nx 2) := by
    unfold integrateInit at h
    dsimp only at h
    by_cases h0 : 1 < Nx 0 <;> by_cases h1 : 1 < Nx 1 <;> by_cases h2 : 1 < Nx 2 <;> by_cases h3 : Nx 0 ≤ 1 <;>
      first
      | omega
      | cases K <;> cases big <;> simp [h0, h1, h2, h3] at h <;> (subst h; simp [h0, h1, h2])
  rcases key with ⟨rfl, h0, h1, h2⟩ | ⟨rfl, h0, h1, h2⟩ | ⟨rfl, h0, h1, h2⟩ <;>
    rcases three t with rfl | rfl | rfl <;> simp [dims, A1, A2, A3, h0, h1, h2]

/-- The integrator selected for a mesh is the one for each Grid of its Domains. -/
theorem init_hasDim {K : Kind} {Nx : Fin 3 → ℕ} {big : Bool} {w : Which} (h : integrateInit K Nx big = .ok (some w))
    {ng ns : ℕ} {D : Dom} {Ds : List Dom} (hDs : D ∈ Ds) (hD : Regular (cfg ng ns) D) (hN : ∀ t, 1 < Nx t ↔ 1 < tot D t)
    (C : Coord) (hC : D.Has C) : HasDim (dims w) (D.gnx C) := by
  intro t
  have h1 := (gnx_tot (hD.ok hDs) hC t).1
  have h2 := init_dims h t
  have hz := (hD.dims C hC).zones t
  have e : 1 < D.gnx C t ↔ dims w t = true := h1.trans ((hN t).symm.trans h2)
  refine ⟨e, fun ha => ?_⟩
  have : ¬ 1 < D.gnx C t := fun x => by rw [e.1 x] at ha; simp at ha
  omega

/-! ## Runs -/

/-- **C60.** Whichever integrator was configured (van Leer or CTU; any Riemann solver; any reconstruction that uses at most three
zones on either side of an interface) and in one, two or three dimensions: if the Grids of a Domain hold, ghost zones included,
the values of the undivided Domain, then after any number of cycles, in whatever order messages arrive and whatever
the work arrays contained, every zone and face of every Grid holds the value of the undivided Domain. -/
theorem run_decomposed {R : Type} {ns : ℕ} [NumC R] [Zero R] (M : Funs R ns) (hM : M.Local) (K : Kind) (Nx : Fin 3 → ℕ)
    (big : Bool) (w : Which) (hI : integrateInit K Nx big = .ok (some w)) (q : ℕ → Step R) {ng : ℕ} (hng : 4 ≤ ng) (Ds : List Dom)
    (D : Dom) (hDs : D ∈ Ds) (hD : Regular (cfg ng ns) D) (hN : ∀ t, 1 < Nx t ↔ 1 < tot D t)
    (o o' : ℕ → Fin 3 → Coord → Bool) (J : ℕ → Coord → Works R ns) (J' : ℕ → Works R ns) (s : ℕ → Coord → Grid R) (G : ℕ → Grid R)
    (hs : IsRun (integ M K w) q ng (bufSize (cfg ng ns) Ds) D o J s)
    (hG : IsRun (integ M K w) q ng 0 (single D) o' (fun n _ => J' n) (fun n _ => G n))
    (hsn : ∀ C, D.Has C → (s 0 C).nx = D.gnx C) (hGn : (G 0).nx = tot D)
    (h0 : ∀ C, D.Has C → ∀ f : Fld, f.In (cfg ng ns) → ∀ y, Stored (cfg ng ns) (D.gnx C) f y →
      f.val (s 0 C) y = f.val (G 0) (gl D C y)) :
    ∀ n C, D.Has C → ∀ f : Fld, f.In (cfg ng ns) → ∀ y, Stored (cfg ng ns) (D.gnx C) f y →
      f.val (s n C) y = f.val (G n) (gl D C y) :=
  decomposed_run (integ_lattice M hM K w) q hng Ds D hDs hD (init_hasDim hI hDs hD hN) o o' J J' s G hs hG hsn hGn h0

/-- **C32.** On a Domain with periodic boundaries, divided into Grids in any way, the sums over all active zones of density,
momentum, energy, scalars, the interface fields normal to the directions of the Domain and the zone-centred field along the
others stay what they were after any number of cycles, for every Newtonian integrator, Riemann solver and reconstruction. -/
theorem run_conserves {ns : ℕ} (M : Funs ℝ ns) (hM : M.Local) (K : Kind) (Nx : Fin 3 → ℕ)
    (big : Bool) (w : Which) (hI : integrateInit K Nx big = .ok (some w)) (q : ℕ → Step ℝ) {ng : ℕ} (hng : 4 ≤ ng) (Ds : List Dom)
    (D : Dom) (hDs : D ∈ Ds) (hD : Regular (cfg ng ns) D) (hN : ∀ t, 1 < Nx t ↔ 1 < tot D t) (hP : AllPeriodic (dims w) D)
    (o : ℕ → Fin 3 → Coord → Bool) (J : ℕ → Coord → Works ℝ ns) (s : ℕ → Coord → Grid ℝ)
    (hs : IsRun (integ M K w) q ng (bufSize (cfg ng ns) Ds) D o J s) (Gi : Grid ℝ)
    (hst : Start (cfg ng ns) (bufSize (cfg ng ns) Ds) D Gi (s 0)) (hcl : Closed (cfg ng ns) Gi) (f : Fld) (hf : Kept (dims w) ns f) (n : ℕ) :
    domTotal (cfg ng ns) D (s n) f = domTotal (cfg ng ns) D (s 0) f :=
  conserved_run (integ_lattice M hM K w) q (fun n => latt_conserves M K w (q n)) hng Ds D hDs hD (init_hasDim hI hDs hD hN) hP o J s
    hs Gi hst hcl f hf n

/-- **C33.** On a Domain without reflecting boundaries, divided into Grids in any way, the divergence of the interface fields of
every active zone of every Grid stays what it was after any number of cycles, for every Newtonian integrator, Riemann
solver and reconstruction, with any sequence of time steps. -/
theorem run_divB {ns : ℕ} (M : Funs ℝ ns) (hM : M.Local) (K : Kind) (Nx : Fin 3 → ℕ)
    (big : Bool) (w : Which) (hI : integrateInit K Nx big = .ok (some w)) (dt : ℕ → ℝ) (dx : Fin 3 → ℝ) {ng : ℕ} (hng : 4 ≤ ng)
    (Ds : List Dom) (D : Dom) (hDs : D ∈ Ds) (hD : Regular (cfg ng ns) D) (hN : ∀ t, 1 < Nx t ↔ 1 < tot D t)
    (hR : ∀ t, dims w t = true → D.bcIn t ≠ .reflect ∧ D.bcOut t ≠ .reflect)
    (o : ℕ → Fin 3 → Coord → Bool) (J : ℕ → Coord → Works ℝ ns) (s : ℕ → Coord → Grid ℝ)
    (hs : IsRun (integ M K w) (fun n => ⟨dt n, dx 0, dx 1, dx 2⟩) ng (bufSize (cfg ng ns) Ds) D o J s) (Gi : Grid ℝ)
    (hst : Start (cfg ng ns) (bufSize (cfg ng ns) Ds) D Gi (s 0)) (n : ℕ) (C : Coord) (hC : D.Has C) (y : Idx)
    (hy : ∀ t, lo (cfg ng ns) (D.gnx C) t ≤ y t ∧ y t ≤ hi (cfg ng ns) (D.gnx C) t) :
    gdivB dx (s n C) y = gdivB dx (s 0 C) y :=
  divB_run (integ_lattice M hM K w) _ dx (fun n => integ_divB M K w (dt n) dx) hng Ds D hDs hD (init_hasDim hI hDs hD hN) hR o J s
    hs Gi hst n C hC y hy

/-- A Domain with more than one zone in some direction gets an integrator, provided `cour_no ≤ 0.5`. -/
theorem init_ok (K : Kind) {ng ns : ℕ} {D : Dom} {Ds : List Dom} (hDs : D ∈ Ds) (hD : Regular (cfg ng ns) D)
    {C : Coord} (hC : D.Has C) (h : ∃ t, 1 < tot D t) : ∃ w, integrateInit K (tot D) false = .ok (some w) := by
  have e := fun t => (gnx_tot (hD.ok hDs) hC t).1
  have n1 := (hD.dims C hC).nest 0 1 (by decide)
  have n2 := (hD.dims C hC).nest 1 2 (by decide)
  rw [e, e] at n1 n2
  unfold integrateInit
  dsimp only
  obtain ⟨t, ht⟩ := h
  by_cases h2 : 1 < tot D 2
  · have h1 := n2 h2
    have h0 := n1 h1
    exact ⟨.d3, by simp [h0, h1, h2]⟩
  by_cases h1 : 1 < tot D 1
  · have h0 := n1 h1
    exact ⟨.d2, by cases K <;> simp [h0, h1, h2]⟩
  have h0 : 1 < tot D 0 := by rcases three t with rfl | rfl | rfl <;> first | exact ht | exact absurd ht (by assumption)
  refine ⟨.d1, ?_⟩
  have h0' : ¬ tot D 0 ≤ 1 := by omega
  cases K <;> simp [h0, h1, h2]

end Athena.Gen
