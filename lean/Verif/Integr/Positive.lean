import Verif.Integr.CodeRuns
import Verif.Hydro.HllePos

/-!
# The first-order steps leave density and pressure positive

Newtonian hydrodynamics with `--with-flux=hlle`: the predictor of the van Leer integrators in one, two and three dimensions, and the step of the
one-dimensional CTU integrator with `--with-order=1`.
-/

namespace Athena.Gen
open Athena.Vl3
open Athena.Recon (Order)
open Athena.Hydro (Phys cons1DToPrim1D prim1DToCons1D hlle State SignalsIn frameE)

noncomputable section
variable {ns : ℕ}

/-! ## Specification -/

/-- Gas pressure of a zone without magnetic field: (γ-1)(E - |M|²/(2ρ)). -/
def gasP (p : Phys) (u : Cons ℝ ns) : ℝ := (p.gamma - 1) * (u.E - (u.M1 ^ 2 + u.M2 ^ 2 + u.M3 ^ 2) / (2 * u.d))
/-- Velocity of a zone in direction `t`. -/
def vel (u : Cons ℝ ns) (t : Fin 3) : ℝ := (if t = 0 then u.M1 else if t = 1 then u.M2 else u.M3) / u.d
/-- Speed of sound. -/
def sound (p : Phys) (u : Cons ℝ ns) : ℝ := Real.sqrt (if p.iso then p.cs2 else p.gamma * gasP p u / u.d)
/-- Speed of the flow. -/
def flow (u : Cons ℝ ns) : ℝ := Real.sqrt (vel u 0 ^ 2 + vel u 1 ^ 2 + vel u 2 ^ 2)

/-- The density and, unless the equation of state is isothermal, the pressure are positive. -/
structure Positive (p : Phys) (u : Cons ℝ ns) : Prop where
  d : 0 < u.d
  P : p.iso = false → 0 < gasP p u

/-- The zone is above the floors of the code: `TINY_NUMBER` for the pressure (convert_var.c:406) and for the enthalpy (esystem_roe.c:138). -/
structure OffFloor (p : Phys) (u : Cons ℝ ns) : Prop where
  d : 0 < u.d
  P : p.iso = false → p.tiny ≤ gasP p u
  h : p.iso = false → (p.gamma - 1) * p.tiny ≤ p.gamma * gasP p u / u.d

/-- Bound for the signals in direction `t`: with the isothermal equation of state `|V_t| + c`, with the adiabatic one 4/3 of `|V| + c`. -/
def reach (p : Phys) (u : Cons ℝ ns) (t : Fin 3) : ℝ := if p.iso then |vel u t| + sound p u else 4/3 * (flow u + sound p u)

/-- In a time `dt` the signals of the zone cross at most `C` zones, in each of the directions `A`. -/
def Courant (p : Phys) (A : Fin 3 → Bool) (q : Step ℝ) (C : ℝ) (u : Cons ℝ ns) : Prop := ∀ t, A t = true → q.dt * reach p u t ≤ C * q.dx t

/-- First and last active zone in direction `t`. -/
def loZ (g : Rng) (t : Fin 3) : ℤ := if t = 0 then g.is else if t = 1 then g.js else g.ks
def hiZ (g : Rng) (t : Fin 3) : ℤ := if t = 0 then g.ie else if t = 1 then g.je else g.ke
/-- The zones of the Grid with their ghost zones, along direction `t`. -/
def InGrid (g : Rng) (t : Fin 3) (m : ℤ) : Prop := loZ g t - g.ng ≤ m ∧ m ≤ hiZ g t + g.ng

/-! ## A zone loaded for one direction -/

/-- Gas pressure. -/
def gasP1 (p : Phys) (u : Cons1 ℝ ns) : ℝ := (p.gamma - 1) * (u.E - (u.Mx ^ 2 + u.My ^ 2 + u.Mz ^ 2) / (2 * u.d))

structure OffFloor1 (p : Phys) (u : Cons1 ℝ ns) : Prop where
  d : 0 < u.d
  P : p.iso = false → p.tiny ≤ gasP1 p u
  h : p.iso = false → (p.gamma - 1) * p.tiny ≤ p.gamma * gasP1 p u / u.d

/-- The primitive variables. -/
def canW (p : Phys) (u : Cons1 ℝ ns) : Hydro.Prim1D ns :=
  ⟨u.d, u.Mx / u.d, u.My / u.d, u.Mz / u.d, if p.iso then 0 else gasP1 p u, 0, 0, fun n => u.s n / u.d⟩
/-- The conserved variables, members not declared set to 0. -/
def canU (p : Phys) (u : Cons1 ℝ ns) : Hydro.Cons1D ns := ⟨u.d, u.Mx, u.My, u.Mz, if p.iso then 0 else u.E, 0, 0, u.s⟩

variable {p : Phys}

theorem can_state (hp : p.Ok) (hm : p.mhd = false) {u : Cons1 ℝ ns} (h : OffFloor1 p u) : State p 0 (canW p u) (canU p u) := by
  have hd := h.d
  refine ⟨⟨fun hi => by simp [canW, hi], fun _ => ⟨rfl, rfl⟩⟩, h.d, fun hi => ?_, ?_⟩
  · simp only [canW, hi, Bool.false_eq_true, if_false]; exact lt_of_lt_of_le hp.tiny (h.P hi)
  · rw [Hydro.p2c_eq p _ 0 (fun hi => (hp.gamma hi).ne')]
    have hne := hd.ne'
    simp only [canW, canU, hm, Bool.false_eq_true, if_false, Option.some.injEq, Hydro.Cons1D.mk.injEq, true_and]
    refine ⟨by field_simp, by field_simp, by field_simp, ?_, by funext n; field_simp⟩
    cases hi : p.iso
    · have : p.gamma - 1 ≠ 0 := by linarith [hp.gamma hi]
      simp only [Bool.false_eq_true, if_false, gasP1]
      field_simp; ring
    · simp

variable (ord : Order) (cf : Recon.Cfg) (dMin : ℝ)

theorem c2p1_same (hm : p.mhd = false) {u : Cons1 ℝ ns} (h : OffFloor1 p u) (b : ℝ) : SameW p ((codeFuns ns p ord cf dMin).c2p1 u b) (ofW (canW p u)) := by
  have hd := h.d.ne'
  have e := Hydro.c2p_eq p (toC u) b hd
  simp only [codeFuns]
  rw [e]
  refine ⟨rfl, rfl, rfl, rfl, rfl, fun hi => ?_, fun h => by simp [hm] at h⟩
  simp only [Option.map_some, Option.getD_some, fillW, ofW, canW, hi, Bool.false_eq_true, if_false]
  have e2 : Hydro.gasPressure p (toC u) b = gasP1 p u := by simp [Hydro.gasPressure, gasP1, toC, hm]
  rw [e2, max_eq_left (h.P hi)]

theorem can_same (hm : p.mhd = false) (u : Cons1 ℝ ns) : SameC p u (ofC (canU p u)) :=
  ⟨rfl, rfl, rfl, rfl, rfl, fun hi => by simp [ofC, canU, hi], fun h => by simp [hm] at h⟩

/-- The flux the code computes is that of the canonical states. -/
theorem flux_can (hp : p.Ok) (hm : p.mhd = false) {l r ul ur : Cons1 ℝ ns} (hl : OffFloor1 p l) (hr : OffFloor1 p r) {wl wr : Prim1 ℝ ns}
    (tl : SameC p ul (ofC (canU p l))) (tr : SameC p ur (ofC (canU p r))) (sl : SameW p wl (ofW (canW p l))) (sr : SameW p wr (ofW (canW p r))) (b : ℝ) :
    ∃ F, hlle p (canU p l) (canU p r) (canW p l) (canW p r) 0 = some F ∧
      SameC p ((codeFuns ns p ord cf dMin).flux ul ur wl wr b) (ofC F) := by
  obtain ⟨al, ar, F, -, hF, -⟩ := Hydro.hlle_formula hp (can_state hp hm hl) (can_state hp hm hr)
  refine ⟨F, hF, ?_⟩
  have e := hlle_decl tl tr sl sr b 0 (fun h => by simp [hm] at h)
  have e1 : ∀ u : Hydro.Cons1D ns, toC (ofC u) = u := fun _ => rfl
  have e2 : ∀ u : Hydro.Prim1D ns, toW (ofW u) = u := fun _ => rfl
  rw [e1, e1, e2, e2] at e
  simp only [codeFuns]
  rw [e, hF]
  exact ⟨rfl, rfl, rfl, rfl, rfl, fun hi => by simp [fillC, hi], fun h => by simp [hm] at h⟩

/-- What goes out of a zone through its two sides. -/
theorem out1 (hp : p.Ok) (hm : p.mhd = false) {l c r Fl Fr : Cons1 ℝ ns} (hl : OffFloor1 p l) (hc : OffFloor1 p c) (hr : OffFloor1 p r) {B : ℝ}
    (sl : SignalsIn p (canU p l) (canU p c) (canW p l) (canW p c) 0 B) (sr : SignalsIn p (canU p c) (canU p r) (canW p c) (canW p r) 0 B)
    (el : ∃ F, hlle p (canU p l) (canU p c) (canW p l) (canW p c) 0 = some F ∧ SameC p Fl (ofC F))
    (er : ∃ F, hlle p (canU p c) (canU p r) (canW p c) (canW p r) 0 = some F ∧ SameC p Fr (ofC F)) :
    Fr.d - Fl.d ≤ B * c.d ∧
    (p.iso = false → ∀ x y z, frameE x y z (toC Fr) - frameE x y z (toC Fl) ≤ B * frameE x y z (toC c)) ∧
    (∀ n lo hi, lo ≤ l.s n / l.d ∧ l.s n / l.d ≤ hi → lo ≤ c.s n / c.d ∧ c.s n / c.d ≤ hi → lo ≤ r.s n / r.d ∧ r.s n / r.d ≤ hi →
      lo * (B * c.d - (Fr.d - Fl.d)) ≤ B * c.s n - (Fr.s n - Fl.s n) ∧ B * c.s n - (Fr.s n - Fl.s n) ≤ hi * (B * c.d - (Fr.d - Fl.d))) := by
  obtain ⟨F, f1, f2⟩ := el
  obtain ⟨G, g1, g2⟩ := er
  have hl' := can_state hp hm hl
  have hc' := can_state hp hm hc
  have hr' := can_state hp hm hr
  obtain ⟨a1, a2, a3, a4, a5, a6, -⟩ := f2
  obtain ⟨b1, b2, b3, b4, b5, b6, -⟩ := g2
  refine ⟨?_, fun hi x y z => ?_, fun n lo hi x1 x2 x3 => ?_⟩
  · rw [a1, b1]; exact Hydro.out_mass hp hm hl' hc' hr' sl sr f1 g1
  · have k := Hydro.out_energy hp hi hm hl' hc' hr' sl sr f1 g1 x y z
    have e1 : frameE x y z (toC Fl) = frameE x y z F := by
      simp only [frameE, toC, a1, a2, a3, a4, a6 hi, ofC]
    have e2 : frameE x y z (toC Fr) = frameE x y z G := by
      simp only [frameE, toC, b1, b2, b3, b4, b6 hi, ofC]
    have e3 : frameE x y z (toC c) = frameE x y z (canU p c) := by
      simp [frameE, toC, canU, hi]
    rw [e1, e2, e3]; exact k
  · have k := Hydro.out_scalar hp hm hl' hc' hr' sl sr f1 g1 n x1 x2 x3
    have e1 : Fl.s n = F.s n := congrFun a5 n
    have e2 : Fr.s n = G.s n := congrFun b5 n
    rw [a1, b1, e1, e2]; exact k

/-! ## From the change in three directions -/

/-- `E - M·x + d|x|²/2` of a zone. -/
def frame (x y z : ℝ) (u : Cons ℝ ns) : ℝ := u.E - (u.M1 * x + u.M2 * y + u.M3 * z) + u.d * (x ^ 2 + y ^ 2 + z ^ 2) / 2

theorem frame_pos (hp : p.Ok) (hi : p.iso = false) {u : Cons ℝ ns} (h : Positive p u) (x y z : ℝ) : 0 < frame x y z u := by
  have hg := hp.gamma hi
  have hd := h.d
  have h1 : 0 < u.E - (u.M1 ^ 2 + u.M2 ^ 2 + u.M3 ^ 2) / (2 * u.d) := by
    have := h.P hi
    unfold gasP at this
    exact (pos_iff_pos_of_mul_pos this).1 (by linarith)
  have e : frame x y z u = (u.E - (u.M1 ^ 2 + u.M2 ^ 2 + u.M3 ^ 2) / (2 * u.d)) +
      u.d * ((u.M1 / u.d - x) ^ 2 + (u.M2 / u.d - y) ^ 2 + (u.M3 / u.d - z) ^ 2) / 2 := by
    unfold frame; field_simp; ring
  rw [e]
  positivity

theorem positive_of_frame (hp : p.Ok) {u : Cons ℝ ns} (hd : 0 < u.d) (h : p.iso = false → ∀ x y z, 0 < frame x y z u) : Positive p u := by
  refine ⟨hd, fun hi => ?_⟩
  have k := h hi (u.M1 / u.d) (u.M2 / u.d) (u.M3 / u.d)
  have e : frame (u.M1 / u.d) (u.M2 / u.d) (u.M3 / u.d) u = u.E - (u.M1 ^ 2 + u.M2 ^ 2 + u.M3 ^ 2) / (2 * u.d) := by
    unfold frame; field_simp; ring
  rw [e] at k
  exact mul_pos (by linarith [hp.gamma hi]) k

theorem OffFloor.pos (hp : p.Ok) {u : Cons ℝ ns} (h : OffFloor p u) : Positive p u := ⟨h.d, fun hi => lt_of_lt_of_le hp.tiny (h.P hi)⟩

/-- The zone as loaded for direction `t`. -/
def loadT (t : Fin 3) (u : Cons ℝ ns) : Cons1 ℝ ns := if t = 0 then load1 u else if t = 1 then load2 u else load3 u

theorem above1 {u : Cons ℝ ns} (h : OffFloor p u) (t : Fin 3) : OffFloor1 p (loadT t u) := by
  have e : gasP1 p (loadT t u) = gasP p u := by
    fin_cases t <;> simp [loadT, gasP1, gasP, load1, load2, load3] <;> left <;> ring
  have e2 : (loadT t u).d = u.d := by fin_cases t <;> simp [loadT, load1, load2, load3]
  exact ⟨by rw [e2]; exact h.d, fun hi => by rw [e]; exact h.P hi, fun hi => by rw [e, e2]; exact h.h hi⟩

/-- The signals at an interface are bounded by those of the zones at its sides. -/
theorem reach_in (hp : p.Ok) (hm : p.mhd = false) (hg : p.iso = false → p.gamma ≤ 5/3) {u v : Cons ℝ ns} (hu : OffFloor p u) (hv : OffFloor p v) (t : Fin 3) {B : ℝ}
    (bu : reach p u t ≤ B) (bv : reach p v t ≤ B) :
    SignalsIn p (canU p (loadT t u)) (canU p (loadT t v)) (canW p (loadT t u)) (canW p (loadT t v)) 0 B := by
  have su := can_state hp hm (above1 hu t)
  have sv := can_state hp hm (above1 hv t)
  have e1 : ∀ u : Cons ℝ ns, (canW p (loadT t u)).Vx = vel u t := by
    intro u; fin_cases t <;> simp [canW, loadT, vel, load1, load2, load3]
  have e2 : ∀ u : Cons ℝ ns, gasP1 p (loadT t u) = gasP p u := by
    intro u; fin_cases t <;> simp [loadT, gasP1, gasP, load1, load2, load3] <;> left <;> ring
  have e3 : ∀ u : Cons ℝ ns, (canW p (loadT t u)).d = u.d := by intro u; fin_cases t <;> simp [canW, loadT, load1, load2, load3]
  have e4 : ∀ u : Cons ℝ ns, Real.sqrt ((canW p (loadT t u)).Vx ^ 2 + (canW p (loadT t u)).Vy ^ 2 + (canW p (loadT t u)).Vz ^ 2) = flow u := by
    intro u; unfold flow; congr 1
    fin_cases t <;> simp [canW, loadT, vel, load1, load2, load3] <;> ring
  cases hi : p.iso
  · have e5 : ∀ u : Cons ℝ ns, Real.sqrt (Hydro.soundSq p (canW p (loadT t u))) = sound p u := by
      intro u
      unfold Hydro.soundSq sound
      simp only [hi, Bool.false_eq_true, if_false]
      rw [e3]
      simp only [canW, hi, Bool.false_eq_true, if_false]
      rw [e2]
    have e6 : ∀ u : Cons ℝ ns, (canW p (loadT t u)).P = gasP p u := by intro u; simp only [canW, hi, Bool.false_eq_true, if_false]; exact e2 u
    have hB : B = 4/3 * (3/4 * B) := by ring
    simp only [reach, hi, Bool.false_eq_true, if_false] at bu bv
    rw [hB]
    refine Hydro.signals_adb hp hi hm (hg hi) su sv ?_ ?_ ?_ ?_
    · rw [e3, e6]; exact hu.h hi
    · rw [e3, e6]; exact hv.h hi
    · rw [e4, e5]; linarith
    · rw [e4, e5]; linarith
  · simp only [reach, hi, if_true] at bu bv
    have e7 : ∀ u : Cons ℝ ns, sound p u = p.cs := by intro u; simp [sound, Phys.cs, hi]
    rw [e7] at bu bv
    refine Hydro.signals_iso hp hi hm su sv ?_ ?_ <;> rw [e1] <;> assumption

/-- `M.flux` of two zones, as the predictors and the first-order CTU step call it. -/
def zoneFlux (M : Funs ℝ ns) (t : Fin 3) (l r : Cons ℝ ns) (bl br bi : ℝ) : Cons1 ℝ ns :=
  M.flux (loadT t l) (loadT t r) (M.c2p1 (loadT t l) bl) (M.c2p1 (loadT t r) br) bi

/-- One direction of the change of a zone in a step. -/
theorem outT (hp : p.Ok) (hm : p.mhd = false) (hg : p.iso = false → p.gamma ≤ 5/3) (t : Fin 3) {l c r : Cons ℝ ns} (hl : OffFloor p l) (hc : OffFloor p c) (hr : OffFloor p r)
    {B : ℝ} (ql : reach p l t ≤ B) (qc : reach p c t ≤ B) (qr : reach p r t ≤ B) (b1 b2 b3 b4 b5 b6 : ℝ) :
    let M := codeFuns ns p ord cf dMin
    let Fl := zoneFlux M t l c b1 b2 b3
    let Fr := zoneFlux M t c r b4 b5 b6
    Fr.d - Fl.d ≤ B * c.d ∧
    (p.iso = false → ∀ x y z, frameE x y z (toC Fr) - frameE x y z (toC Fl) ≤ B * frameE x y z (toC (loadT t c))) ∧
    (∀ n lo hi, lo ≤ l.s n / l.d ∧ l.s n / l.d ≤ hi → lo ≤ c.s n / c.d ∧ c.s n / c.d ≤ hi → lo ≤ r.s n / r.d ∧ r.s n / r.d ≤ hi →
      lo * (B * c.d - (Fr.d - Fl.d)) ≤ B * c.s n - (Fr.s n - Fl.s n) ∧ B * c.s n - (Fr.s n - Fl.s n) ≤ hi * (B * c.d - (Fr.d - Fl.d))) := by
  intro M Fl Fr
  have ed : ∀ u : Cons ℝ ns, (loadT t u).d = u.d := by intro u; fin_cases t <;> simp [loadT, load1, load2, load3]
  have es : ∀ u : Cons ℝ ns, (loadT t u).s = u.s := by intro u; fin_cases t <;> simp [loadT, load1, load2, load3]
  have k := out1 hp hm (above1 hl t) (above1 hc t) (above1 hr t) (reach_in hp hm hg hl hc t ql qc) (reach_in hp hm hg hc hr t qc qr)
    (flux_can ord cf dMin hp hm (above1 hl t) (above1 hc t) (can_same hm _) (can_same hm _) (c2p1_same ord cf dMin hm (above1 hl t) b1) (c2p1_same ord cf dMin hm (above1 hc t) b2) b3)
    (flux_can ord cf dMin hp hm (above1 hc t) (above1 hr t) (can_same hm _) (can_same hm _) (c2p1_same ord cf dMin hm (above1 hc t) b4) (c2p1_same ord cf dMin hm (above1 hr t) b5) b6)
  simp only [ed, es] at k
  exact k

/-- The concentration of scalar `n` is between `lo` and `hi`. -/
def Within (n : Fin ns) (lo hi : ℝ) (u : Cons ℝ ns) : Prop := lo ≤ u.s n / u.d ∧ u.s n / u.d ≤ hi

/-- What `q` times the difference of the fluxes takes from zone `c` is at most a part `κ` of its contents. -/
structure Takes (p : Phys) (t : Fin 3) (κ q : ℝ) (l c r : Cons ℝ ns) (Fl Fr : Cons1 ℝ ns) : Prop where
  d : q * (Fr.d - Fl.d) ≤ κ * c.d
  e : p.iso = false → ∀ x y z, q * (frameE x y z (toC Fr) - frameE x y z (toC Fl)) ≤ κ * frameE x y z (toC (loadT t c))
  s : ∀ n lo hi, Within n lo hi l → Within n lo hi c → Within n lo hi r →
    lo * (κ * c.d - q * (Fr.d - Fl.d)) ≤ κ * c.s n - q * (Fr.s n - Fl.s n) ∧ κ * c.s n - q * (Fr.s n - Fl.s n) ≤ hi * (κ * c.d - q * (Fr.d - Fl.d))

theorem takes_zero (t : Fin 3) (l c r : Cons ℝ ns) (Fl Fr : Cons1 ℝ ns) : Takes p t 0 0 l c r Fl Fr :=
  ⟨by simp, fun _ _ _ _ => by simp, fun _ _ _ _ _ _ => by simp⟩

theorem takes (hp : p.Ok) (hm : p.mhd = false) (hg : p.iso = false → p.gamma ≤ 5/3) (t : Fin 3) {A : Fin 3 → Bool} {q : Step ℝ} {C : ℝ} {l c r : Cons ℝ ns}
    (hl : OffFloor p l) (hc : OffFloor p c) (hr : OffFloor p r) (hA : A t = true) (ht : 0 < q.dt) (hx : 0 < q.dx t)
    (ql : Courant p A q C l) (qc : Courant p A q C c) (qr : Courant p A q C r) {f : ℝ} (hf : 0 ≤ f) (b1 b2 b3 b4 b5 b6 : ℝ) :
    Takes p t (f * C) (f * (q.dt / q.dx t)) l c r (zoneFlux (codeFuns ns p ord cf dMin) t l c b1 b2 b3) (zoneFlux (codeFuns ns p ord cf dMin) t c r b4 b5 b6) := by
  have hB : ∀ u : Cons ℝ ns, Courant p A q C u → reach p u t ≤ C * q.dx t / q.dt := fun u h => by
    rw [le_div_iff₀ ht]; have := h t hA; linarith
  obtain ⟨k1, k2, k3⟩ := outT ord cf dMin hp hm hg t hl hc hr (hB l ql) (hB c qc) (hB r qr) b1 b2 b3 b4 b5 b6
  set Fl := zoneFlux (codeFuns ns p ord cf dMin) t l c b1 b2 b3
  set Fr := zoneFlux (codeFuns ns p ord cf dMin) t c r b4 b5 b6
  have hq : 0 ≤ f * (q.dt / q.dx t) := mul_nonneg hf (div_pos ht hx).le
  have e : ∀ X, f * C * X = f * (q.dt / q.dx t) * (C * q.dx t / q.dt * X) := by intro X; field_simp
  refine ⟨?_, fun hi x y z => ?_, fun n lo hi x1 x2 x3 => ?_⟩
  · rw [e]; exact mul_le_mul_of_nonneg_left k1 hq
  · rw [e]; exact mul_le_mul_of_nonneg_left (k2 hi x y z) hq
  · obtain ⟨y1, y2⟩ := k3 n lo hi x1 x2 x3
    rw [e, e, ← mul_sub, ← mul_sub]
    refine ⟨?_, ?_⟩
    · calc _ = f * (q.dt / q.dx t) * (lo * (C * q.dx t / q.dt * c.d - (Fr.d - Fl.d))) := by ring
        _ ≤ _ := mul_le_mul_of_nonneg_left y1 hq
    · calc _ ≤ f * (q.dt / q.dx t) * (hi * (C * q.dx t / q.dt * c.d - (Fr.d - Fl.d))) := mul_le_mul_of_nonneg_left y2 hq
        _ = _ := by ring

theorem frame_upd (x y z q1 q2 q3 : ℝ) (c : Cons ℝ ns) (F1 G1 F2 G2 F3 G3 : Cons1 ℝ ns) :
    frame x y z (upd3 q3 G3 F3 (upd2 q2 G2 F2 (upd1 q1 G1 F1 c))) = frame x y z c
      - q1 * (frameE x y z (toC G1) - frameE x y z (toC F1)) - q2 * (frameE y z x (toC G2) - frameE y z x (toC F2))
      - q3 * (frameE z x y (toC G3) - frameE z x y (toC F3)) := by
  simp only [frame, frameE, upd1, upd2, upd3, toC]; ring

/-- The sum over the directions. -/
theorem step_positive (hp : p.Ok) {l1 r1 l2 r2 l3 r3 c : Cons ℝ ns} (hc : OffFloor p c) {κ1 κ2 κ3 q1 q2 q3 : ℝ} (hk : κ1 + κ2 + κ3 < 1)
    {F1 G1 F2 G2 F3 G3 : Cons1 ℝ ns} (t1 : Takes p 0 κ1 q1 l1 c r1 F1 G1) (t2 : Takes p 1 κ2 q2 l2 c r2 F2 G2) (t3 : Takes p 2 κ3 q3 l3 c r3 F3 G3) :
    let u := upd3 q3 G3 F3 (upd2 q2 G2 F2 (upd1 q1 G1 F1 c))
    Positive p u ∧ ∀ n lo hi, (∀ v ∈ [l1, r1, l2, r2, l3, r3, c], Within n lo hi v) → Within n lo hi u := by
  intro u
  have hcp := hc.pos hp
  have hd : 0 < u.d := by
    have e : u.d = c.d - q1 * (G1.d - F1.d) - q2 * (G2.d - F2.d) - q3 * (G3.d - F3.d) := rfl
    have := t1.d; have := t2.d; have := t3.d
    have := mul_pos (sub_pos.2 hk) hc.d
    rw [e]; nlinarith
  refine ⟨positive_of_frame hp hd fun hi x y z => ?_, fun n lo hi h => ?_⟩
  · have k := frame_pos hp hi hcp x y z
    have k1 := t1.e hi x y z
    have k2 := t2.e hi y z x
    have k3 := t3.e hi z x y
    have e1 : frameE x y z (toC (loadT 0 c)) = frame x y z c := by simp [frameE, frame, loadT, load1, toC]
    have e2 : frameE y z x (toC (loadT 1 c)) = frame x y z c := by simp [frameE, frame, loadT, load2, toC]; ring
    have e3 : frameE z x y (toC (loadT 2 c)) = frame x y z c := by simp [frameE, frame, loadT, load3, toC]; ring
    rw [e1] at k1; rw [e2] at k2; rw [e3] at k3
    have := mul_pos (sub_pos.2 hk) k
    show 0 < frame x y z (upd3 q3 G3 F3 (upd2 q2 G2 F2 (upd1 q1 G1 F1 c)))
    rw [frame_upd]; nlinarith
  · have hcn := h c (by simp)
    obtain ⟨a1, a2⟩ := t1.s n lo hi (h _ (by simp)) hcn (h _ (by simp))
    obtain ⟨b1, b2⟩ := t2.s n lo hi (h _ (by simp)) hcn (h _ (by simp))
    obtain ⟨c1, c2⟩ := t3.s n lo hi (h _ (by simp)) hcn (h _ (by simp))
    have e : u.d = c.d - q1 * (G1.d - F1.d) - q2 * (G2.d - F2.d) - q3 * (G3.d - F3.d) := rfl
    have es : u.s n = c.s n - q1 * (G1.s n - F1.s n) - q2 * (G2.s n - F2.s n) - q3 * (G3.s n - F3.s n) := rfl
    have d1 : lo * c.d ≤ c.s n := by have := hcn.1; rwa [le_div_iff₀ hc.d] at this
    have d2 : c.s n ≤ hi * c.d := by have := hcn.2; rwa [div_le_iff₀ hc.d] at this
    have m1 := mul_le_mul_of_nonneg_left d1 (sub_pos.2 hk).le
    have m2 := mul_le_mul_of_nonneg_left d2 (sub_pos.2 hk).le
    refine ⟨?_, ?_⟩
    · rw [le_div_iff₀ hd, e, es]; linarith
    · rw [div_le_iff₀ hd, e, es]; linarith

theorem back_zone (hp : p.Ok) (hm : p.mhd = false) {u : Cons ℝ ns} (h : OffFloor p u) (t : Fin 3) (b : ℝ) :
    (codeFuns ns p ord cf dMin).p2c1 ((codeFuns ns p ord cf dMin).c2p1 (loadT t u) b) b = loadT t u := by
  have a := above1 h t
  refine code_back ord cf dMin _ b a.d.ne' fun hi => ⟨(hp.gamma hi).ne', ?_⟩
  have := a.P hi
  simp only [hm, Bool.false_eq_true, if_false, sub_zero]
  exact this

theorem positive_congr {u v : Cons ℝ ns} (h : u.d = v.d ∧ u.M1 = v.M1 ∧ u.M2 = v.M2 ∧ u.M3 = v.M3 ∧ u.E = v.E ∧ u.s = v.s) :
    (Positive p u → Positive p v) ∧ ∀ n lo hi, Within n lo hi u → Within n lo hi v := by
  obtain ⟨h1, h2, h3, h4, h5, h6⟩ := h
  refine ⟨fun k => ⟨h1 ▸ k.d, fun hi => ?_⟩, fun n lo hi k => ?_⟩
  · have := k.P hi
    unfold gasP at this ⊢
    rwa [h1, h2, h3, h4, h5] at this
  · unfold Within at k ⊢
    rwa [h1, h6] at k

theorem sameC_refl (u : Cons1 ℝ ns) : SameC p u u := ⟨rfl, rfl, rfl, rfl, rfl, fun _ => rfl, fun _ => ⟨rfl, rfl⟩⟩

/-- Without magnetic field the longitudinal field does not matter. -/
theorem p2c1_any (hm : p.mhd = false) (w : Prim1 ℝ ns) (b b' : ℝ) : (codeFuns ns p ord cf dMin).p2c1 w b = (codeFuns ns p ord cf dMin).p2c1 w b' := by
  simp only [codeFuns, prim1DToCons1D, hm, Bool.false_eq_true, if_false]

/-- First-order reconstruction returns the zones at the sides. -/
theorem lr_first (hm : p.mhd = false) (dt dx : ℝ) (t : Fin 3) (w : ℤ → Prim1 ℝ ns) (b : ℤ → ℝ) :
    (codeFuns ns p .dc cf dMin).lr dt dx t w b = (w (-1), w 0) := by
  have e : ∀ (k : ℕ) (es : Recon.Vec k ns → ℝ → Recon.Eig k) (W : ℤ → Recon.Vec k ns), Recon.lrAt .dc cf es dt dx W b = (W (-1), W 0) := by
    intro k es W
    simp only [Recon.lrAt]
    rw [(Recon.lrDc_eq W 0 0 _ 0).1, (Recon.lrDc_eq W 0 0 _ 0).2]
    simp
  simp only [codeFuns, lrCode, hm]
  cases hi : p.iso
  · simp only [e, Prod.map]
    simp [fillW, hi, hm, dec1, enc1]
  · simp only [e, Prod.map]
    simp [fillW, hi, hm, dec0, enc0]

/-- The first fluxes of the 1D van Leer integrator. -/
theorem v1Flux_zone {g : Rng} {S : St ℝ ns} (J : Work1 ℝ ns) {i : ℤ} (h1 : g.is - g.ng < i) (h2 : i ≤ g.ie + g.ng) :
    v1Flux (codeFuns ns p ord cf dMin) g S J i =
      zoneFlux (codeFuns ns p ord cf dMin) 0 (S.U g.ks g.js (i-1)) (S.U g.ks g.js i) (S.U g.ks g.js (i-1)).B1c (S.U g.ks g.js i).B1c (S.B1i g.ks g.js i) := by
  rw [v1Flux, loop1_in _ _ (by omega) (by omega)]
  simp (disch := omega) only [v1U1d, v1W, v1Bxc, v1Bxi, loop1_in]
  simp only [zoneFlux, loadT, if_true]

/-- The fluxes of the 1D CTU integrator with first-order reconstruction. -/
theorem c1Flux_zone (hp : p.Ok) (hm : p.mhd = false) {q : Step ℝ} {g : Rng} {S : St ℝ ns} (J : Work1 ℝ ns) {i : ℤ} (h1 : g.is ≤ i) (h2 : i ≤ g.ie + 1)
    (hU : ∀ m, i - 1 ≤ m → m ≤ i → OffFloor p (S.U g.ks g.js m)) (hM : ∀ m, i - 1 ≤ m → m ≤ i → dMin ≤ (S.U g.ks g.js m).d) (hn : 1 ≤ g.ng) :
    c1Flux (codeFuns ns p .dc cf dMin) q g S J i =
      zoneFlux (codeFuns ns p .dc cf dMin) 0 (S.U g.ks g.js (i-1)) (S.U g.ks g.js i) (S.U g.ks g.js (i-1)).B1c (S.U g.ks g.js i).B1c (S.B1i g.ks g.js i) := by
  have w : ∀ m, i - 1 ≤ m → m ≤ i → floorW (codeFuns ns p .dc cf dMin) (v1W (codeFuns ns p .dc cf dMin) g S J m) =
      (codeFuns ns p .dc cf dMin).c2p1 (loadT 0 (S.U g.ks g.js m)) (S.U g.ks g.js m).B1c := by
    intro m m1 m2
    have e : v1W (codeFuns ns p .dc cf dMin) g S J m = (codeFuns ns p .dc cf dMin).c2p1 (loadT 0 (S.U g.ks g.js m)) (S.U g.ks g.js m).B1c := by
      simp (disch := omega) only [v1W, v1U1d, v1Bxc, loop1_in]
      simp only [loadT, if_true]
    rw [e, floorW]
    have ed : ((codeFuns ns p .dc cf dMin).c2p1 (loadT 0 (S.U g.ks g.js m)) (S.U g.ks g.js m).B1c).d = (S.U g.ks g.js m).d :=
      (c2p1_same .dc cf dMin hm (above1 (hU m m1 m2) 0) _).1
    rw [ed]
    have : NumC.lt (S.U g.ks g.js m).d (codeFuns ns p .dc cf dMin).dMin = false := by
      show decide ((S.U g.ks g.js m).d < dMin) = false
      simp [hM m m1 m2]
    rw [this]; rfl
  have e : c1LR (codeFuns ns p .dc cf dMin) q g S J i = ((codeFuns ns p .dc cf dMin).c2p1 (loadT 0 (S.U g.ks g.js (i-1))) (S.U g.ks g.js (i-1)).B1c,
      (codeFuns ns p .dc cf dMin).c2p1 (loadT 0 (S.U g.ks g.js i)) (S.U g.ks g.js i).B1c) := by
    simp only [c1LR]
    rw [lr_first cf dMin hm]
    have e0 : i + 0 = i := add_zero _
    have e1 : i + -1 = i - 1 := rfl
    simp only [e0, e1]
    rw [w (i-1) (by omega) (by omega), w i (by omega) (by omega)]
  rw [c1Flux, loop1_in _ _ (by omega) (by omega), e]
  have eb : v1Bxi g S J i = S.B1i g.ks g.js i := by simp (disch := omega) only [v1Bxi, loop1_in]
  simp only [eb]
  rw [p2c1_any .dc cf dMin hm _ _ (S.U g.ks g.js (i-1)).B1c, back_zone .dc cf dMin hp hm (hU _ (by omega) (by omega)),
    p2c1_any .dc cf dMin hm _ _ (S.U g.ks g.js i).B1c, back_zone .dc cf dMin hp hm (hU _ (by omega) (by omega))]
  rfl

/-! ## The theorems -/

section Main
variable (hp : p.Ok) (hm : p.mhd = false) (hg : p.iso = false → p.gamma ≤ 5/3) {q : Step ℝ} {C : ℝ} {g : Rng} {S : St ℝ ns}
include hp hm hg

/-- **C124.** The predictor of the 3D van Leer integrator. -/
theorem vl3_predictor_positive_partial (J : Work ℝ (Prim1 ℝ ns) ns) (hC : 3 / 2 * C < 1) (ht : 0 < q.dt) (hx : ∀ t, 0 < q.dx t)
    (hU : ∀ k j i, InGrid g 2 k → InGrid g 1 j → InGrid g 0 i → OffFloor p (S.U k j i) ∧ Courant p A3 q C (S.U k j i))
    {k j i : ℤ} (h1 : g.ks - g.ng < k) (h2 : k < g.ke + g.ng) (h3 : g.js - g.ng < j) (h4 : j < g.je + g.ng) (h5 : g.is - g.ng < i) (h6 : i < g.ie + g.ng) :
    let u := xUhalf ((codeFuns ns p ord cf dMin).vl q) (coef q) g S J k j i
    Positive p u ∧ ∀ n lo hi, (∀ k j i, InGrid g 2 k → InGrid g 1 j → InGrid g 0 i → Within n lo hi (S.U k j i)) → Within n lo hi u := by
  intro u
  have hU : ∀ k j i, g.ks - g.ng ≤ k → k ≤ g.ke + g.ng → g.js - g.ng ≤ j → j ≤ g.je + g.ng → g.is - g.ng ≤ i → i ≤ g.ie + g.ng →
      OffFloor p (S.U k j i) ∧ Courant p A3 q C (S.U k j i) := fun k j i a b c d e f => hU k j i ⟨a, b⟩ ⟨c, d⟩ ⟨e, f⟩
  have f1 : ∀ i', i ≤ i' → i' ≤ i + 1 → xFlux1 ((codeFuns ns p ord cf dMin).vl q) g S J k j i' =
      zoneFlux (codeFuns ns p ord cf dMin) 0 (S.U k j (i'-1)) (S.U k j i') (S.U k j (i'-1)).B1c (S.U k j i').B1c (S.B1i k j i') := by
    intro i' a b
    rw [xFlux1, loop3_in _ _ (by omega) (by omega) (by omega) (by omega) (by omega) (by omega)]
    have k1 := back_zone ord cf dMin hp hm (hU k j (i'-1) (by omega) (by omega) (by omega) (by omega) (by omega) (by omega)).1 0 (S.U k j (i'-1)).B1c
    have k2 := back_zone ord cf dMin hp hm (hU k j i' (by omega) (by omega) (by omega) (by omega) (by omega) (by omega)).1 0 (S.U k j i').B1c
    simp only [loadT, if_true] at k1 k2
    simp only [flux1st, Funs.vl, zoneFlux, loadT, if_true, k1, k2]
  have f2 : ∀ j', j ≤ j' → j' ≤ j + 1 → xFlux2 ((codeFuns ns p ord cf dMin).vl q) g S J k j' i =
      zoneFlux (codeFuns ns p ord cf dMin) 1 (S.U k (j'-1) i) (S.U k j' i) (S.U k (j'-1) i).B2c (S.U k j' i).B2c (S.B2i k j' i) := by
    intro i' a b
    rw [xFlux2, loop3_in _ _ (by omega) (by omega) (by omega) (by omega) (by omega) (by omega)]
    have k1 := back_zone ord cf dMin hp hm (hU k (i'-1) i (by omega) (by omega) (by omega) (by omega) (by omega) (by omega)).1 1 (S.U k (i'-1) i).B2c
    have k2 := back_zone ord cf dMin hp hm (hU k i' i (by omega) (by omega) (by omega) (by omega) (by omega) (by omega)).1 1 (S.U k i' i).B2c
    simp only [loadT, one_ne_zero, if_false, if_true] at k1 k2
    simp only [flux1st, Funs.vl, zoneFlux, loadT, one_ne_zero, if_false, if_true, k1, k2]
  have f3 : ∀ k', k ≤ k' → k' ≤ k + 1 → xFlux3 ((codeFuns ns p ord cf dMin).vl q) g S J k' j i =
      zoneFlux (codeFuns ns p ord cf dMin) 2 (S.U (k'-1) j i) (S.U k' j i) (S.U (k'-1) j i).B3c (S.U k' j i).B3c (S.B3i k' j i) := by
    intro i' a b
    rw [xFlux3, loop3_in _ _ (by omega) (by omega) (by omega) (by omega) (by omega) (by omega)]
    have k1 := back_zone ord cf dMin hp hm (hU (i'-1) j i (by omega) (by omega) (by omega) (by omega) (by omega) (by omega)).1 2 (S.U (i'-1) j i).B3c
    have k2 := back_zone ord cf dMin hp hm (hU i' j i (by omega) (by omega) (by omega) (by omega) (by omega) (by omega)).1 2 (S.U i' j i).B3c
    have n1 : (2 : Fin 3) ≠ 0 := by decide
    have n2 : (2 : Fin 3) ≠ 1 := by decide
    simp only [loadT, n1, n2, if_false] at k1 k2
    simp only [flux1st, Funs.vl, zoneFlux, loadT, n1, n2, if_false, k1, k2]
  have hz := fun k' j' i' (a1 : k - 1 ≤ k') (a2 : k' ≤ k + 1) (a3 : j - 1 ≤ j') (a4 : j' ≤ j + 1) (a5 : i - 1 ≤ i') (a6 : i' ≤ i + 1) =>
    hU k' j' i' (by omega) (by omega) (by omega) (by omega) (by omega) (by omega)
  have c0 := hz k j i (by omega) (by omega) (by omega) (by omega) (by omega) (by omega)
  have c1 := hz k j (i-1) (by omega) (by omega) (by omega) (by omega) (by omega) (by omega)
  have c2 := hz k j (i+1) (by omega) (by omega) (by omega) (by omega) (by omega) (by omega)
  have c3 := hz k (j-1) i (by omega) (by omega) (by omega) (by omega) (by omega) (by omega)
  have c4 := hz k (j+1) i (by omega) (by omega) (by omega) (by omega) (by omega) (by omega)
  have c5 := hz (k-1) j i (by omega) (by omega) (by omega) (by omega) (by omega) (by omega)
  have c6 := hz (k+1) j i (by omega) (by omega) (by omega) (by omega) (by omega) (by omega)
  have t1 := takes ord cf dMin hp hm hg 0 c1.1 c0.1 c2.1 rfl ht (hx 0) c1.2 c0.2 c2.2 (f := 1/2) (by norm_num)
    (S.U k j (i-1)).B1c (S.U k j i).B1c (S.B1i k j i) (S.U k j i).B1c (S.U k j (i+1)).B1c (S.B1i k j (i+1))
  have t2 := takes ord cf dMin hp hm hg 1 c3.1 c0.1 c4.1 rfl ht (hx 1) c3.2 c0.2 c4.2 (f := 1/2) (by norm_num)
    (S.U k (j-1) i).B2c (S.U k j i).B2c (S.B2i k j i) (S.U k j i).B2c (S.U k (j+1) i).B2c (S.B2i k (j+1) i)
  have t3 := takes ord cf dMin hp hm hg 2 c5.1 c0.1 c6.1 rfl ht (hx 2) c5.2 c0.2 c6.2 (f := 1/2) (by norm_num)
    (S.U (k-1) j i).B3c (S.U k j i).B3c (S.B3i k j i) (S.U k j i).B3c (S.U (k+1) j i).B3c (S.B3i (k+1) j i)
  have key := step_positive hp c0.1 (by linarith) t1 t2 t3
  have pc := positive_congr (p := p) (v := u) (u := upd3 (1/2 * (q.dt / q.dx 2)) _ _ (upd2 (1/2 * (q.dt / q.dx 1)) _ _ (upd1 (1/2 * (q.dt / q.dx 0)) _ _ (S.U k j i))))
    (by
      have e : u = upd3 (1/2 * (q.dt / q.dx 2)) (xFlux3 ((codeFuns ns p ord cf dMin).vl q) g S J (k+1) j i) (xFlux3 ((codeFuns ns p ord cf dMin).vl q) g S J k j i)
          (upd2 (1/2 * (q.dt / q.dx 1)) (xFlux2 ((codeFuns ns p ord cf dMin).vl q) g S J k (j+1) i) (xFlux2 ((codeFuns ns p ord cf dMin).vl q) g S J k j i)
          (upd1 (1/2 * (q.dt / q.dx 0)) (xFlux1 ((codeFuns ns p ord cf dMin).vl q) g S J k j (i+1)) (xFlux1 ((codeFuns ns p ord cf dMin).vl q) g S J k j i)
          (avgB (xB1F ((codeFuns ns p ord cf dMin).vl q) (coef q) g S J) (xB2F ((codeFuns ns p ord cf dMin).vl q) (coef q) g S J)
            (xB3F ((codeFuns ns p ord cf dMin).vl q) (coef q) g S J) k j i (S.U k j i)))) := by
        show xUhalf ((codeFuns ns p ord cf dMin).vl q) (coef q) g S J k j i = _
        simp only [xUhalf]
        rw [halfLoop_in _ _ (by omega) (by omega) (by omega) (by omega) (by omega) (by omega),
          halfLoop_in _ _ (by omega) (by omega) (by omega) (by omega) (by omega) (by omega),
          halfLoop_in _ _ (by omega) (by omega) (by omega) (by omega) (by omega) (by omega),
          halfLoop_in _ _ (by omega) (by omega) (by omega) (by omega) (by omega) (by omega),
          copyIn, loop3_in _ _ (by omega) (by omega) (by omega) (by omega) (by omega) (by omega)]
        rfl
      rw [f1 i (by omega) (by omega), f1 (i+1) (by omega) (by omega), f2 j (by omega) (by omega), f2 (j+1) (by omega) (by omega),
        f3 k (by omega) (by omega), f3 (k+1) (by omega) (by omega), add_sub_cancel_right, add_sub_cancel_right, add_sub_cancel_right] at e
      rw [e]
      exact ⟨rfl, rfl, rfl, rfl, rfl, rfl⟩)
  refine ⟨pc.1 key.1, fun n lo hi h => pc.2 n lo hi (key.2 n lo hi fun v hv => ?_)⟩
  simp only [List.mem_cons, List.not_mem_nil, or_false] at hv
  rcases hv with rfl | rfl | rfl | rfl | rfl | rfl | rfl <;> exact h _ _ _ ⟨by simp [loZ]; omega, by simp [hiZ]; omega⟩ ⟨by simp [loZ]; omega, by simp [hiZ]; omega⟩ ⟨by simp [loZ]; omega, by simp [hiZ]; omega⟩

/-- **C124.** The predictor of the 2D van Leer integrator. -/
theorem vl2_predictor_positive_partial (J : WorkV2 ℝ ns) (hC : C < 1) (ht : 0 < q.dt) (hx : ∀ t, 0 < q.dx t)
    (hU : ∀ j i, InGrid g 1 j → InGrid g 0 i → OffFloor p (S.U g.ks j i) ∧ Courant p A2 q C (S.U g.ks j i))
    {j i : ℤ} (h3 : g.js - g.ng < j) (h4 : j < g.je + g.ng) (h5 : g.is - g.ng < i) (h6 : i < g.ie + g.ng) :
    let u := p2Uh (codeFuns ns p ord cf dMin) q g (plane S g.ks) J j i
    Positive p u ∧ ∀ n lo hi, (∀ j i, InGrid g 1 j → InGrid g 0 i → Within n lo hi (S.U g.ks j i)) → Within n lo hi u := by
  intro u
  have hU : ∀ j i, g.js - g.ng ≤ j → j ≤ g.je + g.ng → g.is - g.ng ≤ i → i ≤ g.ie + g.ng →
      OffFloor p (S.U g.ks j i) ∧ Courant p A2 q C (S.U g.ks j i) := fun j i c d e f => hU j i ⟨c, d⟩ ⟨e, f⟩
  have f1 : ∀ i', i ≤ i' → i' ≤ i + 1 → p2F1 (codeFuns ns p ord cf dMin) g (plane S g.ks) J j i' =
      zoneFlux (codeFuns ns p ord cf dMin) 0 (S.U g.ks j (i'-1)) (S.U g.ks j i') (S.U g.ks j (i'-1)).B1c (S.U g.ks j i').B1c (S.B1i g.ks j i') := by
    intro i' a b
    rw [p2F1, loop2_in _ _ (by omega) (by omega) (by omega) (by omega)]
    have k1 := back_zone ord cf dMin hp hm (hU j (i'-1) (by omega) (by omega) (by omega) (by omega)).1 0 (S.U g.ks j (i'-1)).B1c
    have k2 := back_zone ord cf dMin hp hm (hU j i' (by omega) (by omega) (by omega) (by omega)).1 0 (S.U g.ks j i').B1c
    simp only [loadT, if_true] at k1 k2
    simp only [fluxA, plane, zoneFlux, loadT, if_true, k1, k2]
  have f2 : ∀ j', j ≤ j' → j' ≤ j + 1 → p2F2 (codeFuns ns p ord cf dMin) g (plane S g.ks) J j' i =
      zoneFlux (codeFuns ns p ord cf dMin) 1 (S.U g.ks (j'-1) i) (S.U g.ks j' i) (S.U g.ks (j'-1) i).B2c (S.U g.ks j' i).B2c (S.B2i g.ks j' i) := by
    intro i' a b
    rw [p2F2, loop2_in _ _ (by omega) (by omega) (by omega) (by omega)]
    have k1 := back_zone ord cf dMin hp hm (hU (i'-1) i (by omega) (by omega) (by omega) (by omega)).1 1 (S.U g.ks (i'-1) i).B2c
    have k2 := back_zone ord cf dMin hp hm (hU i' i (by omega) (by omega) (by omega) (by omega)).1 1 (S.U g.ks i' i).B2c
    simp only [loadT, one_ne_zero, if_false, if_true] at k1 k2
    simp only [fluxA, plane, zoneFlux, loadT, one_ne_zero, if_false, if_true, k1, k2]
  have c0 := hU j i (by omega) (by omega) (by omega) (by omega)
  have c1 := hU j (i-1) (by omega) (by omega) (by omega) (by omega)
  have c2 := hU j (i+1) (by omega) (by omega) (by omega) (by omega)
  have c3 := hU (j-1) i (by omega) (by omega) (by omega) (by omega)
  have c4 := hU (j+1) i (by omega) (by omega) (by omega) (by omega)
  have t1 := takes ord cf dMin hp hm hg 0 c1.1 c0.1 c2.1 rfl ht (hx 0) c1.2 c0.2 c2.2 (f := 1/2) (by norm_num)
    (S.U g.ks j (i-1)).B1c (S.U g.ks j i).B1c (S.B1i g.ks j i) (S.U g.ks j i).B1c (S.U g.ks j (i+1)).B1c (S.B1i g.ks j (i+1))
  have t2 := takes ord cf dMin hp hm hg 1 c3.1 c0.1 c4.1 rfl ht (hx 1) c3.2 c0.2 c4.2 (f := 1/2) (by norm_num)
    (S.U g.ks (j-1) i).B2c (S.U g.ks j i).B2c (S.B2i g.ks j i) (S.U g.ks j i).B2c (S.U g.ks (j+1) i).B2c (S.B2i g.ks (j+1) i)
  have t3 := takes_zero (p := p) 2 (S.U g.ks j i) (S.U g.ks j i) (S.U g.ks j i) (load1 (S.U g.ks j i)) (load1 (S.U g.ks j i))
  have key := step_positive hp c0.1 (by linarith) t1 t2 t3
  have e : u = updB2 (1/2 * (q.dt / q.dx 1)) (p2F2 (codeFuns ns p ord cf dMin) g (plane S g.ks) J (j+1) i) (p2F2 (codeFuns ns p ord cf dMin) g (plane S g.ks) J j i)
      (updB1 (1/2 * (q.dt / q.dx 0)) (p2F1 (codeFuns ns p ord cf dMin) g (plane S g.ks) J j (i+1)) (p2F1 (codeFuns ns p ord cf dMin) g (plane S g.ks) J j i)
      (avg2 (p2B1F (codeFuns ns p ord cf dMin) q g (plane S g.ks) J) (p2B2F (codeFuns ns p ord cf dMin) q g (plane S g.ks) J) j i (S.U g.ks j i))) := by
    show p2Uh (codeFuns ns p ord cf dMin) q g (plane S g.ks) J j i = _
    simp only [p2Uh, halfV]
    rw [mod2_in _ _ (by omega) (by omega) (by omega) (by omega), mod2_in _ _ (by omega) (by omega) (by omega) (by omega),
      mod2_in _ _ (by omega) (by omega) (by omega) (by omega), loop2_in _ _ (by omega) (by omega) (by omega) (by omega)]
    rfl
  rw [f1 i (by omega) (by omega), f1 (i+1) (by omega) (by omega), f2 j (by omega) (by omega), f2 (j+1) (by omega) (by omega),
    add_sub_cancel_right, add_sub_cancel_right] at e
  have pc := positive_congr (p := p) (v := u) (u := upd3 0 (load1 (S.U g.ks j i)) (load1 (S.U g.ks j i)) (upd2 (1/2 * (q.dt / q.dx 1)) _ _ (upd1 (1/2 * (q.dt / q.dx 0)) _ _ (S.U g.ks j i))))
    (by
      rw [e]
      simp only [upd3, updB2, updB1, avg2, upd2, upd1, zero_mul, sub_zero]
      exact ⟨rfl, rfl, rfl, rfl, rfl, rfl⟩)
  refine ⟨pc.1 key.1, fun n lo hi h => pc.2 n lo hi (key.2 n lo hi fun v hv => ?_)⟩
  simp only [List.mem_cons, List.not_mem_nil, or_false] at hv
  rcases hv with rfl | rfl | rfl | rfl | rfl | rfl | rfl <;> exact h _ _ ⟨by simp [loZ]; omega, by simp [hiZ]; omega⟩ ⟨by simp [loZ]; omega, by simp [hiZ]; omega⟩

/-- The change of a zone by its x1-fluxes, as both 1D integrators make it. -/
theorem upd_positive {j k i : ℤ} {f : ℝ} (hf : 0 ≤ f) (hC : f * C < 1) (ht : 0 < q.dt) (hx : 0 < q.dx 0) {Fl Fr : Cons1 ℝ ns}
    (c1 : OffFloor p (S.U k j (i-1)) ∧ Courant p A1 q C (S.U k j (i-1)))
    (c0 : OffFloor p (S.U k j i) ∧ Courant p A1 q C (S.U k j i))
    (c2 : OffFloor p (S.U k j (i+1)) ∧ Courant p A1 q C (S.U k j (i+1)))
    {b1 b2 b3 b4 b5 b6 : ℝ} (e1 : SameC p Fl (zoneFlux (codeFuns ns p ord cf dMin) 0 (S.U k j (i-1)) (S.U k j i) b1 b2 b3))
    (e2 : SameC p Fr (zoneFlux (codeFuns ns p ord cf dMin) 0 (S.U k j i) (S.U k j (i+1)) b4 b5 b6)) :
    Positive p (updA1 (f * (q.dt / q.dx 0)) Fr Fl (S.U k j i)) ∧ ∀ n lo hi, Within n lo hi (S.U k j (i-1)) → Within n lo hi (S.U k j i) → Within n lo hi (S.U k j (i+1)) →
      Within n lo hi (updA1 (f * (q.dt / q.dx 0)) Fr Fl (S.U k j i)) := by
  have t1 := takes ord cf dMin hp hm hg 0 c1.1 c0.1 c2.1 rfl ht hx c1.2 c0.2 c2.2 hf b1 b2 b3 b4 b5 b6
  have t2 := takes_zero (p := p) 1 (S.U k j i) (S.U k j i) (S.U k j i) (load1 (S.U k j i)) (load1 (S.U k j i))
  have t3 := takes_zero (p := p) 2 (S.U k j i) (S.U k j i) (S.U k j i) (load1 (S.U k j i)) (load1 (S.U k j i))
  have key := step_positive hp c0.1 (by linarith) t1 t2 t3
  obtain ⟨x1, x2, x3, x4, x5, x6, -⟩ := e1
  obtain ⟨y1, y2, y3, y4, y5, y6, -⟩ := e2
  have ed : (updA1 (f * (q.dt / q.dx 0)) Fr Fl (S.U k j i)).d = _ := congrArg₂ (fun a b : ℝ => (S.U k j i).d - f * (q.dt / q.dx 0) * (a - b)) y1 x1
  refine ⟨⟨?_, fun hi => ?_⟩, fun n lo hi w1 w2 w3 => ?_⟩
  · have := key.1.d
    simp only [upd3, upd2, upd1, zero_mul, sub_zero] at this
    rw [ed]; exact this
  · have := key.1.P hi
    simp only [gasP, upd3, upd2, upd1, zero_mul, sub_zero] at this
    simp only [gasP, updA1, upd1, x1, x2, x3, x4, y1, y2, y3, y4, x6 hi, y6 hi]
    exact this
  · have := key.2 n lo hi (by
      intro v hv
      simp only [List.mem_cons, List.not_mem_nil, or_false] at hv
      rcases hv with rfl | rfl | rfl | rfl | rfl | rfl | rfl <;> assumption)
    simp only [Within, upd3, upd2, upd1, zero_mul, sub_zero] at this
    simp only [Within, updA1, upd1, x1, x5, y1, y5]
    exact this

/-- **C124.** The predictor of the 1D van Leer integrator. -/
theorem vl1_predictor_positive_partial (J : Work1 ℝ ns) (hC : C / 2 < 1) (ht : 0 < q.dt) (hx : 0 < q.dx 0)
    (hU : ∀ i, InGrid g 0 i → OffFloor p (S.U g.ks g.js i) ∧ Courant p A1 q C (S.U g.ks g.js i))
    {i : ℤ} (h5 : g.is - g.ng < i) (h6 : i < g.ie + g.ng) :
    let u := v1Uhalf (codeFuns ns p ord cf dMin) q g S J i
    Positive p u ∧ ∀ n lo hi, (∀ i, InGrid g 0 i → Within n lo hi (S.U g.ks g.js i)) → Within n lo hi u := by
  intro u
  have al : ∀ i', i - 1 ≤ i' → i' ≤ i + 1 → InGrid g 0 i' := fun i' a b => ⟨by simp [loZ]; omega, by simp [hiZ]; omega⟩
  have f1 := fun i' (a : i ≤ i') (b : i' ≤ i + 1) => v1Flux_zone (p := p) ord cf dMin (g := g) (S := S) J (i := i') (by omega) (by omega)
  have e : u = updA1 (1/2 * (q.dt / q.dx 0)) (v1Flux (codeFuns ns p ord cf dMin) g S J (i+1)) (v1Flux (codeFuns ns p ord cf dMin) g S J i) (S.U g.ks g.js i) := by
    show v1Uhalf (codeFuns ns p ord cf dMin) q g S J i = _
    rw [v1Uhalf, mod1, loop1_in _ _ (by omega) (by omega), loop1_in _ _ (by omega) (by omega)]
    have : Num.half * q.dt / q.dx1 = 1/2 * (q.dt / q.dx 0) := by
      show 1/2 * q.dt / q.dx1 = _
      simp [Step.dx]; ring
    rw [this]
  have k := upd_positive ord cf dMin hp hm hg (k := g.ks) (j := g.js) (i := i) (f := 1/2) (by norm_num) (by linarith) ht hx
    (hU _ (al _ (by omega) (by omega))) (hU _ (al _ (by omega) (by omega))) (hU _ (al _ (by omega) (by omega)))
    (Fl := v1Flux (codeFuns ns p ord cf dMin) g S J i) (Fr := v1Flux (codeFuns ns p ord cf dMin) g S J (i+1))
    (by rw [f1 i (by omega) (by omega)]; exact sameC_refl _) (by rw [f1 (i+1) (by omega) (by omega), add_sub_cancel_right]; exact sameC_refl _)
  rw [← e] at k
  exact ⟨k.1, fun n lo hi h => k.2 n lo hi (h _ (al _ (by omega) (by omega))) (h _ (al _ (by omega) (by omega))) (h _ (al _ (by omega) (by omega)))⟩

/-- **C124.** The whole step of the 1D CTU integrator with first-order reconstruction, for densities not below `d_MIN`. -/
theorem ctu1_positive_partial (J : Work1 ℝ ns) (hC : C < 1) (ht : 0 < q.dt) (hx : 0 < q.dx 0) (hn : 1 ≤ g.ng)
    (hU : ∀ i, InGrid g 0 i → OffFloor p (S.U g.ks g.js i) ∧ Courant p A1 q C (S.U g.ks g.js i)) (hM : ∀ i, InGrid g 0 i → dMin ≤ (S.U g.ks g.js i).d)
    {i : ℤ} (h5 : g.is ≤ i) (h6 : i ≤ g.ie) :
    let u := (ctu1 (codeFuns ns p .dc cf dMin) q g S J).U g.ks g.js i
    Positive p u ∧ ∀ n lo hi, (∀ i, InGrid g 0 i → Within n lo hi (S.U g.ks g.js i)) → Within n lo hi u := by
  intro u
  have al : ∀ i', i - 1 ≤ i' → i' ≤ i + 1 → InGrid g 0 i' := fun i' a b => ⟨by simp [loZ]; omega, by simp [hiZ]; omega⟩
  have f1 := fun i' (a : i ≤ i') (b : i' ≤ i + 1) => c1Flux_zone cf dMin hp hm (q := q) (g := g) (S := S) J (i := i') (by omega) (by omega)
    (fun m m1 m2 => (hU m (al m (by omega) (by omega))).1) (fun m m1 m2 => hM m (al m (by omega) (by omega))) hn
  have e : u = updA1 (1 * (q.dt / q.dx 0)) (c1Flux (codeFuns ns p .dc cf dMin) q g S J (i+1)) (c1Flux (codeFuns ns p .dc cf dMin) q g S J i) (S.U g.ks g.js i) := by
    show (update1 q g S (c1Flux (codeFuns ns p .dc cf dMin) q g S J)).U g.ks g.js i = _
    simp only [update1]
    rw [loop3_in _ _ le_rfl le_rfl le_rfl le_rfl h5 h6, one_mul]
    rfl
  have k := upd_positive .dc cf dMin hp hm hg (k := g.ks) (j := g.js) (i := i) (f := 1) (by norm_num) (by linarith) ht hx
    (hU _ (al _ (by omega) (by omega))) (hU _ (al _ (by omega) (by omega))) (hU _ (al _ (by omega) (by omega)))
    (Fl := c1Flux (codeFuns ns p .dc cf dMin) q g S J i) (Fr := c1Flux (codeFuns ns p .dc cf dMin) q g S J (i+1))
    (by rw [f1 i (by omega) (by omega)]; exact sameC_refl _) (by rw [f1 (i+1) (by omega) (by omega), add_sub_cancel_right]; exact sameC_refl _)
  rw [← e] at k
  exact ⟨k.1, fun n lo hi h => k.2 n lo hi (h _ (al _ (by omega) (by omega))) (h _ (al _ (by omega) (by omega))) (h _ (al _ (by omega) (by omega)))⟩

end Main

/-! ## Examples -/

/-- Gas at rest, of density and pressure 1, adiabatic index 5/3; scalars 0. -/
def calm : Cons ℝ ns := ⟨1, 0, 0, 0, 3/2, 0, 0, 0, fun _ => 0⟩
def exStep : Step ℝ := ⟨1/10, 1, 1, 1⟩
/-- Gas of density 2 and pressure 1 that moves. -/
def wind : Cons ℝ ns := ⟨2, 1/2, -1/2, 0, 13/8, 0, 0, 0, fun _ => 1⟩
/-- Gas at rest beside gas that moves. -/
def exState (b : Arr ℝ) : St ℝ ns := ⟨fun k j i => if 0 < i + j + k then wind else calm, b, b, b⟩
theorem exStep_dx (t : Fin 3) : exStep.dx t = 1 := by fin_cases t <;> rfl
theorem exStep_dt : exStep.dt = 1/10 := rfl
def exGas : Phys := ⟨false, false, 5/3, 1, 1/10^20⟩
theorem exGas_ok : exGas.Ok := ⟨fun h => by simp [exGas] at h, fun _ => by norm_num [exGas], fun _ h => by simp [exGas] at h, by norm_num [exGas]⟩
theorem calm_gasP : gasP exGas (calm : Cons ℝ ns) = 1 := by norm_num [gasP, exGas, calm]
theorem calm_off : OffFloor exGas (calm : Cons ℝ ns) :=
  ⟨by norm_num [calm], fun _ => by rw [calm_gasP]; norm_num [exGas], fun _ => by rw [calm_gasP]; norm_num [exGas, calm]⟩
theorem calm_courant (A : Fin 3 → Bool) : Courant exGas A exStep (1/2) (calm : Cons ℝ ns) := by
  intro t _
  have h1 : reach exGas (calm : Cons ℝ ns) t ≤ 4/3 * 2 := by
    have e : flow (calm : Cons ℝ ns) = 0 := by simp [flow, vel, calm]
    have : sound exGas (calm : Cons ℝ ns) ≤ 2 := by
      unfold sound
      rw [calm_gasP]
      apply Real.sqrt_le_iff.2
      norm_num [exGas, calm]
    simp only [reach, exGas, Bool.false_eq_true, if_false] at this ⊢
    rw [e]; linarith
  rw [exStep_dx, exStep_dt]; linarith

theorem wind_gasP : gasP exGas (wind : Cons ℝ ns) = 1 := by norm_num [gasP, exGas, wind]
theorem wind_off : OffFloor exGas (wind : Cons ℝ ns) :=
  ⟨by norm_num [wind], fun _ => by rw [wind_gasP]; norm_num [exGas], fun _ => by rw [wind_gasP]; norm_num [exGas, wind]⟩
theorem wind_courant (A : Fin 3 → Bool) : Courant exGas A exStep (1/2) (wind : Cons ℝ ns) := by
  intro t _
  have h1 : reach exGas (wind : Cons ℝ ns) t ≤ 4/3 * (1 + 2) := by
    have e : flow (wind : Cons ℝ ns) ≤ 1 := by
      have n1 : (2 : Fin 3) ≠ 0 := by decide
      have n2 : (2 : Fin 3) ≠ 1 := by decide
      apply Real.sqrt_le_iff.2; simp only [vel, wind, n1, n2, if_false]; norm_num
    have : sound exGas (wind : Cons ℝ ns) ≤ 2 := by
      unfold sound
      rw [wind_gasP]
      apply Real.sqrt_le_iff.2
      norm_num [exGas, wind]
    simp only [reach, exGas, Bool.false_eq_true, if_false] at this ⊢
    linarith
  rw [exStep_dx, exStep_dt]; linarith

theorem exState_ok (A : Fin 3 → Bool) (b : Arr ℝ) (k j i : ℤ) : OffFloor exGas ((exState b : St ℝ ns).U k j i) ∧ Courant exGas A exStep (1/2) ((exState b : St ℝ ns).U k j i) :=
  by
  simp only [exState]; split_ifs
  · exact ⟨wind_off, wind_courant A⟩
  · exact ⟨calm_off, calm_courant A⟩

/-- The hypotheses of the theorems are met. -/
example (g : Rng) (J : Work ℝ (Prim1 ℝ 2) 2) (b : Arr ℝ) {k j i : ℤ} (h1 : g.ks - g.ng < k) (h2 : k < g.ke + g.ng) (h3 : g.js - g.ng < j) (h4 : j < g.je + g.ng)
    (h5 : g.is - g.ng < i) (h6 : i < g.ie + g.ng) :
    Positive exGas (xUhalf ((codeFuns 2 exGas .plm cf dMin).vl exStep) (coef exStep) g (exState b) J k j i) :=
  (vl3_predictor_positive_partial .plm cf dMin exGas_ok rfl (fun _ => by norm_num [exGas]) J (C := 1/2) (q := exStep) (S := exState b) (by norm_num) (by rw [exStep_dt]; norm_num)
    (fun t => by rw [exStep_dx]; norm_num) (fun _ _ _ _ _ _ => exState_ok _ b _ _ _) h1 h2 h3 h4 h5 h6).1
example (g : Rng) (J : WorkV2 ℝ 2) (b : Arr ℝ) {j i : ℤ} (h3 : g.js - g.ng < j) (h4 : j < g.je + g.ng) (h5 : g.is - g.ng < i) (h6 : i < g.ie + g.ng) :
    Positive exGas (p2Uh (codeFuns 2 exGas .plm cf dMin) exStep g (plane (exState b) g.ks) J j i) :=
  (vl2_predictor_positive_partial .plm cf dMin exGas_ok rfl (fun _ => by norm_num [exGas]) J (C := 1/2) (q := exStep) (S := exState b) (by norm_num) (by rw [exStep_dt]; norm_num)
    (fun t => by rw [exStep_dx]; norm_num) (fun _ _ _ _ => exState_ok _ b _ _ _) h3 h4 h5 h6).1
example (g : Rng) (J : Work1 ℝ 2) (b : Arr ℝ) {i : ℤ} (h5 : g.is - g.ng < i) (h6 : i < g.ie + g.ng) :
    Positive exGas (v1Uhalf (codeFuns 2 exGas .plm cf dMin) exStep g (exState b) J i) :=
  (vl1_predictor_positive_partial .plm cf dMin exGas_ok rfl (fun _ => by norm_num [exGas]) J (C := 1/2) (q := exStep) (S := exState b) (by norm_num) (by rw [exStep_dt]; norm_num)
    (by rw [exStep_dx]; norm_num) (fun _ _ => exState_ok _ b _ _ _) h5 h6).1
example (g : Rng) (hn : 1 ≤ g.ng) (J : Work1 ℝ 2) (b : Arr ℝ) {i : ℤ} (h5 : g.is ≤ i) (h6 : i ≤ g.ie) :
    Positive exGas ((ctu1 (codeFuns 2 exGas .dc cf (1/2)) exStep g (exState b) J).U g.ks g.js i) :=
  (ctu1_positive_partial cf (1/2) exGas_ok rfl (fun _ => by norm_num [exGas]) J (C := 1/2) (q := exStep) (S := exState b) (by norm_num) (by rw [exStep_dt]; norm_num)
    (by rw [exStep_dx]; norm_num) hn (fun _ _ => exState_ok _ b _ _ _) (fun _ _ => by simp only [exState]; split_ifs <;> norm_num [calm, wind]) h5 h6).1

/-! ## A layer of shear -/

def shGas : Phys := ⟨false, false, 3/2, 1, 1/10^20⟩
theorem shGas_ok : shGas.Ok := ⟨fun h => by simp [shGas] at h, fun _ => by norm_num [shGas], fun _ h => by simp [shGas] at h, by norm_num [shGas]⟩
/-- Density 1 at rest, speed of sound 1. -/
def heavy : Cons ℝ ns := ⟨1, 0, 0, 0, 4/3, 0, 0, 0, fun _ => 0⟩
/-- Density 1/4, moving at 72 times the speed of sound along x2, speed of sound 1. -/
def light : Cons ℝ ns := ⟨1/4, 0, 18, 0, 1/3 + 648, 0, 0, 0, fun _ => 0⟩
def shear (ns : ℕ) : St ℝ ns := ⟨fun _ _ i => if i = 0 then heavy else light, fun _ _ _ => 0, fun _ _ _ => 0, fun _ _ _ => 0⟩

theorem heavy_off : OffFloor shGas (heavy : Cons ℝ ns) := by
  have e : gasP shGas (heavy : Cons ℝ ns) = 2/3 := by norm_num [gasP, shGas, heavy]
  exact ⟨by norm_num [heavy], fun _ => by rw [e]; norm_num [shGas], fun _ => by rw [e]; norm_num [shGas, heavy]⟩
theorem light_off : OffFloor shGas (light : Cons ℝ ns) := by
  have e : gasP shGas (light : Cons ℝ ns) = 1/6 := by norm_num [gasP, shGas, light]
  exact ⟨by norm_num [light], fun _ => by rw [e]; norm_num [shGas], fun _ => by rw [e]; norm_num [shGas, light]⟩
theorem shear_off (k j i : ℤ) : OffFloor shGas ((shear ns).U k j i) := by
  simp only [shear]; split_ifs
  · exact heavy_off
  · exact light_off
theorem shear_speed (k j i : ℤ) : |vel ((shear ns).U k j i) 0| + sound shGas ((shear ns).U k j i) = 1 := by
  simp only [shear]; split_ifs
  · norm_num [vel, sound, gasP, shGas, heavy]
  · norm_num [vel, sound, gasP, shGas, light]

theorem fsqrt_of {x y : ℝ} (hy : 0 ≤ y) (h : x = y * y) : Hydro.fsqrt x = some y := by
  rw [h, Hydro.fsqrt_nonneg (mul_nonneg hy hy), Real.sqrt_mul_self hy]

theorem side_sound {u : Cons ℝ ns} (hd : 0 < u.d) (hg : shGas.gamma * gasP1 shGas (load1 u) = u.d) :
    Hydro.sideC shGas (canU shGas (load1 u)) (canW shGas (load1 u)) 0 = some 1 := by
  have e : shGas.gamma * (canW shGas (load1 u)).P = u.d := hg
  have e2 : (canW shGas (load1 u)).d = u.d := rfl
  have i1 : shGas.iso = false := rfl
  have i2 : shGas.mhd = false := rfl
  simp only [Hydro.sideC, i1, i2, Bool.false_eq_true, if_false, e, e2]
  rw [Hydro.fdiv_pos hd, div_self hd.ne']
  simp only [Option.bind_eq_bind, Option.bind_some]
  rw [fsqrt_of (y := 1) (by norm_num) (by norm_num)]
  simp only [Option.bind_some]
  exact fsqrt_of (by norm_num) (by norm_num)

theorem speeds_lh : Hydro.speeds shGas (canU shGas (load1 (light : Cons ℝ ns))) (canU shGas (load1 heavy)) (canW shGas (load1 light)) (canW shGas (load1 heavy)) 0 = some (-17, 17) := by
  have i1 : shGas.iso = false := rfl
  have i2 : shGas.mhd = false := rfl
  have a1 : (canW shGas (load1 (light : Cons ℝ ns))).d = 1/4 := rfl
  have a2 : (canW shGas (load1 (heavy : Cons ℝ ns))).d = 1 := rfl
  have r : Hydro.roeAvg shGas (canU shGas (load1 (light : Cons ℝ ns))) (canU shGas (load1 heavy)) (canW shGas (load1 light)) (canW shGas (load1 heavy)) 0
      = some ⟨1/2, 0, 24, 0, 866, 0, 0, 0, 0⟩ := by
    unfold Hydro.roeAvg
    rw [a1, a2, fsqrt_of (y := 1/2) (by norm_num) (by norm_num), fsqrt_of (y := 1) (by norm_num) (by norm_num)]
    simp only [Option.bind_eq_bind, Option.bind_some, i1, i2, Bool.false_eq_true, if_false]
    rw [Hydro.fdiv_pos (by norm_num), Hydro.fdiv_pos (by norm_num), Hydro.fdiv_pos (by norm_num)]
    simp only [Option.bind_some, Option.pure_def]
    norm_num [canW, canU, load1, light, heavy, gasP1, shGas, Hydro.magP]
  have c : Hydro.roeC shGas ⟨1/2, 0, 24, 0, 866, 0, 0, 0, 0⟩ 0 = some 17 := by
    simp only [Hydro.roeC, i1, i2, Bool.false_eq_true, if_false]
    rw [Hydro.fmax_eq, max_eq_left (by norm_num [shGas])]
    exact fsqrt_of (by norm_num) (by norm_num [shGas, Phys.gamma1])
  unfold Hydro.speeds
  rw [r]
  simp only [Option.bind_eq_bind, Option.bind_some]
  rw [c, side_sound (by norm_num [light]) (by norm_num [gasP1, shGas, load1, light]), side_sound (by norm_num [heavy]) (by norm_num [gasP1, shGas, load1, heavy])]
  simp only [Option.bind_some]
  norm_num [canW, load1, light, heavy, Hydro.fmin, Hydro.fmax]

theorem speeds_hl : Hydro.speeds shGas (canU shGas (load1 (heavy : Cons ℝ ns))) (canU shGas (load1 light)) (canW shGas (load1 heavy)) (canW shGas (load1 light)) 0 = some (-17, 17) := by
  have i1 : shGas.iso = false := rfl
  have i2 : shGas.mhd = false := rfl
  have a1 : (canW shGas (load1 (light : Cons ℝ ns))).d = 1/4 := rfl
  have a2 : (canW shGas (load1 (heavy : Cons ℝ ns))).d = 1 := rfl
  have r : Hydro.roeAvg shGas (canU shGas (load1 (heavy : Cons ℝ ns))) (canU shGas (load1 light)) (canW shGas (load1 heavy)) (canW shGas (load1 light)) 0
      = some ⟨1/2, 0, 24, 0, 866, 0, 0, 0, 0⟩ := by
    unfold Hydro.roeAvg
    rw [a1, a2, fsqrt_of (x := 1) (y := 1) (by norm_num) (by norm_num), fsqrt_of (x := 1/4) (y := 1/2) (by norm_num) (by norm_num)]
    simp only [Option.bind_eq_bind, Option.bind_some, i1, i2, Bool.false_eq_true, if_false]
    rw [Hydro.fdiv_pos (by norm_num), Hydro.fdiv_pos (by norm_num), Hydro.fdiv_pos (by norm_num)]
    simp only [Option.bind_some, Option.pure_def]
    norm_num [canW, canU, load1, light, heavy, gasP1, shGas, Hydro.magP]
  have c : Hydro.roeC shGas ⟨1/2, 0, 24, 0, 866, 0, 0, 0, 0⟩ 0 = some 17 := by
    simp only [Hydro.roeC, i1, i2, Bool.false_eq_true, if_false]
    rw [Hydro.fmax_eq, max_eq_left (by norm_num [shGas])]
    exact fsqrt_of (by norm_num) (by norm_num [shGas, Phys.gamma1])
  unfold Hydro.speeds
  rw [r]
  simp only [Option.bind_eq_bind, Option.bind_some]
  rw [c, side_sound (by norm_num [heavy]) (by norm_num [gasP1, shGas, load1, heavy]), side_sound (by norm_num [light]) (by norm_num [gasP1, shGas, load1, light])]
  simp only [Option.bind_some]
  norm_num [canW, load1, light, heavy, Hydro.fmin, Hydro.fmax]

/-- The mass flux between the layers, from `l` to `r`. -/
theorem shear_flux (l r : Cons ℝ ns) (hl : OffFloor shGas l) (hr : OffFloor shGas r) (ml : l.M1 = 0) (mr : r.M1 = 0)
    (hs : Hydro.speeds shGas (canU shGas (load1 l)) (canU shGas (load1 r)) (canW shGas (load1 l)) (canW shGas (load1 r)) 0 = some (-17, 17)) (b1 b2 b3 : ℝ) :
    (zoneFlux (codeFuns ns shGas ord cf dMin) 0 l r b1 b2 b3).d = 17/2 * (l.d - r.d) := by
  have al := above1 hl 0
  have ar := above1 hr 0
  obtain ⟨F, e1, e2⟩ := flux_can ord cf dMin shGas_ok rfl al ar (can_same rfl _) (can_same rfl _) (c2p1_same ord cf dMin rfl al b1) (c2p1_same ord cf dMin rfl ar b2) b3
  obtain ⟨x, y, G, g1, g2, g3⟩ := Hydro.hlle_formula shGas_ok (can_state shGas_ok rfl al) (can_state shGas_ok rfl ar)
  have hs' : Hydro.speeds shGas (canU shGas (loadT 0 l)) (canU shGas (loadT 0 r)) (canW shGas (loadT 0 l)) (canW shGas (loadT 0 r)) 0 = some (-17, 17) := hs
  rw [hs', Option.some.injEq, Prod.mk.injEq] at g1
  obtain ⟨rfl, rfl⟩ := g1
  rw [e1] at g2
  obtain rfl := Option.some.inj g2
  have := g3.2.1
  unfold zoneFlux
  rw [e2.1]
  show F.d = _
  rw [this]
  have p1 : (Hydro.physFlux shGas (canW shGas (loadT 0 l)) 0).d = 0 := by simp [Hydro.physFlux, canW, loadT, load1, ml]
  have p2 : (Hydro.physFlux shGas (canW shGas (loadT 0 r)) 0).d = 0 := by simp [Hydro.physFlux, canW, loadT, load1, mr]
  have u1 : (canU shGas (loadT 0 l)).d = l.d := rfl
  have u2 : (canU shGas (loadT 0 r)).d = r.d := rfl
  rw [p1, p2, u1, u2]
  norm_num
  ring

/-- **C124, refuted.** The time step is limited by `|V_t| + c` of the zones (new_dt.c:120-190), here with a Courant number 0.4.  Between layers that move along each other
the signals of the solver are faster; the density becomes negative in the predictor of the van Leer integrator. -/
theorem vl1_predictor_positive_false : ¬ ∀ (p : Phys), p.Ok → p.mhd = false → (p.iso = false → p.gamma ≤ 5/3) → ∀ (q : Step ℝ) (g : Rng) (S : St ℝ ns) (J : Work1 ℝ ns),
    0 < q.dt → 0 < q.dx 0 → 1 ≤ g.ng → (∀ k j i, OffFloor p (S.U k j i) ∧ q.dt * (|vel (S.U k j i) 0| + sound p (S.U k j i)) ≤ 2/5 * q.dx 0) →
    ∀ i, g.is ≤ i → i ≤ g.ie → 0 < (v1Uhalf (codeFuns ns p ord cf dMin) q g S J i).d := by
  intro h
  have k := h shGas shGas_ok rfl (fun _ => by norm_num [shGas]) ⟨2/5, 1, 1, 1⟩ ⟨0, 0, 0, 0, 0, 0, 4⟩ (shear ns) ⟨fun _ => heavy, fun _ => load1 heavy, fun _ => load1 heavy, fun _ => nanW (load1 heavy), fun _ => 0, fun _ => 0⟩
    (by norm_num) (by norm_num [Step.dx]) (by norm_num) (fun k j i => ⟨shear_off k j i, by rw [shear_speed]; norm_num [Step.dx]⟩) 0 le_rfl le_rfl
  rw [v1Uhalf, mod1, loop1_in _ _ (by norm_num) (by norm_num), loop1_in _ _ (by norm_num) (by norm_num)] at k
  rw [v1Flux_zone ord cf dMin _ (by norm_num) (by norm_num), v1Flux_zone ord cf dMin _ (by norm_num) (by norm_num)] at k
  have e0 : ∀ k j : ℤ, (shear ns).U k j 0 = heavy := fun _ _ => rfl
  have e1 : ∀ k j : ℤ, (shear ns).U k j (0 + 1) = light := fun _ _ => rfl
  have e2 : ∀ k j : ℤ, (shear ns).U k j (0 - 1) = light := fun _ _ => rfl
  have e3 : ∀ k j : ℤ, (shear ns).U k j (0 + 1 - 1) = heavy := fun _ _ => rfl
  simp only [updA1, upd1, e0, e1, e2, e3] at k
  rw [shear_flux ord cf dMin heavy light heavy_off light_off rfl rfl speeds_hl, shear_flux ord cf dMin light heavy light_off heavy_off rfl rfl speeds_lh] at k
  have : (Num.half : ℝ) = 1/2 := rfl
  rw [this] at k
  norm_num [heavy, light] at k

/-- **C124, refuted.** The same in a whole step of the CTU integrator with first-order reconstruction. -/
theorem ctu1_positive_false : ¬ ∀ (p : Phys), p.Ok → p.mhd = false → (p.iso = false → p.gamma ≤ 5/3) → ∀ (q : Step ℝ) (g : Rng) (S : St ℝ ns) (J : Work1 ℝ ns),
    0 < q.dt → 0 < q.dx 0 → 1 ≤ g.ng → (∀ k j i, 1/10 ≤ (S.U k j i).d ∧ OffFloor p (S.U k j i) ∧ q.dt * (|vel (S.U k j i) 0| + sound p (S.U k j i)) ≤ 2/5 * q.dx 0) →
    ∀ i, g.is ≤ i → i ≤ g.ie → 0 < ((ctu1 (codeFuns ns p .dc cf (1/10)) q g S J).U g.ks g.js i).d := by
  intro h
  have k := h shGas shGas_ok rfl (fun _ => by norm_num [shGas]) ⟨2/5, 1, 1, 1⟩ ⟨0, 0, 0, 0, 0, 0, 4⟩ (shear ns) ⟨fun _ => heavy, fun _ => load1 heavy, fun _ => load1 heavy, fun _ => nanW (load1 heavy), fun _ => 0, fun _ => 0⟩
    (by norm_num) (by norm_num [Step.dx]) (by norm_num)
    (fun k j i => ⟨by simp only [shear]; split_ifs <;> norm_num [heavy, light], shear_off k j i, by rw [shear_speed]; norm_num [Step.dx]⟩) 0 le_rfl le_rfl
  rw [ctu1] at k
  simp only [update1] at k
  rw [loop3_in _ _ le_rfl le_rfl le_rfl le_rfl le_rfl le_rfl] at k
  have hM : ∀ k j i : ℤ, (1/10 : ℝ) ≤ ((shear ns).U k j i).d := by intro k j i; simp only [shear]; split_ifs <;> norm_num [heavy, light]
  rw [c1Flux_zone cf (1/10) shGas_ok rfl _ (by norm_num) (by norm_num) (fun _ _ _ => shear_off _ _ _) (fun _ _ _ => hM _ _ _) (by norm_num),
    c1Flux_zone cf (1/10) shGas_ok rfl _ (by norm_num) (by norm_num) (fun _ _ _ => shear_off _ _ _) (fun _ _ _ => hM _ _ _) (by norm_num)] at k
  have e0 : ∀ k j : ℤ, (shear ns).U k j 0 = heavy := fun _ _ => rfl
  have e1 : ∀ k j : ℤ, (shear ns).U k j (0 + 1) = light := fun _ _ => rfl
  have e2 : ∀ k j : ℤ, (shear ns).U k j (0 - 1) = light := fun _ _ => rfl
  have e3 : ∀ k j : ℤ, (shear ns).U k j (0 + 1 - 1) = heavy := fun _ _ => rfl
  simp only [updA1, upd1, e0, e1, e2, e3] at k
  rw [shear_flux .dc cf (1/10) heavy light heavy_off light_off rfl rfl speeds_hl, shear_flux .dc cf (1/10) light heavy light_off heavy_off rfl rfl speeds_lh] at k
  norm_num [heavy, light] at k

end
end Athena.Gen
