import Verif.Hydro.RsolveProps
import Mathlib.Tactic.Positivity
import Mathlib.Tactic.FieldSimp
import Mathlib.Tactic.LinearCombination

/-!
# The HLLE flux leaves density and pressure positive

Newtonian hydrodynamics.  In a time in which the signals of the solver cross at most one zone, the fluxes through the two sides of a zone take out of it
no more than leaves a state of positive density and, with the adiabatic equation of state, positive pressure.
-/

namespace Athena.Hydro
variable {ns : ℕ} {p : Phys}

/-! ## The two sides of a zone -/

theorem side_bound {P m B w : ℝ} (h1 : 0 ≤ P) (h2 : P ≤ B) (h3 : 0 ≤ m) (h4 : m ≤ B) (h0 : 0 < P + m) (h5 : -B ≤ w) (h6 : w ≤ B) :
    P / (P + m) * (m + w) ≤ (B + w) / 2 := by
  rw [div_mul_eq_mul_div, div_le_iff₀ h0]
  rcases le_total P m with h | h
  · nlinarith [mul_nonneg h1 (sub_nonneg.2 h4), mul_nonneg (sub_nonneg.2 h) (sub_nonneg.2 h5)]
  · nlinarith [mul_nonneg h3 (sub_nonneg.2 h2), mul_nonneg (sub_nonneg.2 h) (sub_nonneg.2 h6)]

/-- One linear function of the conserved variables: `u`, `f` its values on the state of the zone and its flux, `uR`, `fR` and `uL`, `fL` on those of the
zones to its right and left; `pr`, `-mr` and `pl`, `-ml` the signals of the two interfaces. -/
theorem out_le {pr mr pl ml B v c u f uR fR uL fL : ℝ} (r1 : 0 ≤ pr) (r2 : pr ≤ B) (r3 : 0 ≤ mr) (r4 : mr ≤ B) (r0 : 0 < pr + mr)
    (l1 : 0 ≤ pl) (l2 : pl ≤ B) (l3 : 0 ≤ ml) (l4 : ml ≤ B) (l0 : 0 < pl + ml) (hc : 0 ≤ c) (hv : |v| + c ≤ B)
    (H : ∀ a b, |b| * c ≤ a - b * v → 0 ≤ a * u - b * f) (HR : 0 ≤ pr * uR - fR) (HL : 0 ≤ fL + ml * uL) :
    (pr * f + mr * fR - pr * mr * (uR - u)) / (pr + mr) - (pl * fL + ml * f - pl * ml * (u - uL)) / (pl + ml) ≤ B * u := by
  obtain ⟨v1, v2⟩ := abs_le.1 (show |v| ≤ B - c by linarith)
  have e1 : (pr * f + mr * fR - pr * mr * (uR - u)) / (pr + mr) = pr / (pr + mr) * (f + mr * u) - mr / (pr + mr) * (pr * uR - fR) := by
    field_simp; ring
  have e2 : (pl * fL + ml * f - pl * ml * (u - uL)) / (pl + ml) = pl / (pl + ml) * (fL + ml * uL) - ml / (pl + ml) * (pl * u - f) := by
    field_simp; ring
  have k1 : 0 ≤ mr / (pr + mr) * (pr * uR - fR) := mul_nonneg (div_nonneg r3 r0.le) HR
  have k2 : 0 ≤ pl / (pl + ml) * (fL + ml * uL) := mul_nonneg (div_nonneg l1 l0.le) HL
  have s : ∀ w, -B ≤ w → w ≤ B → pr / (pr + mr) * (mr + w) + ml / (pl + ml) * (pl - w) ≤ B := by
    intro w h1 h2
    have a1 := side_bound r1 r2 r3 r4 r0 h1 h2
    have a2 := side_bound (w := -w) l3 l4 l1 l2 (by linarith) (by linarith) (by linarith)
    rw [add_comm ml pl] at a2
    have e : pl + -w = pl - w := by ring
    rw [e] at a2
    linarith
  have s1 := s (v + c) (by linarith) (by linarith)
  have s2 := s (v - c) (by linarith) (by linarith)
  have k := H (B - pr / (pr + mr) * mr - ml / (pl + ml) * pl) (pr / (pr + mr) - ml / (pl + ml)) (by
    rcases abs_cases (pr / (pr + mr) - ml / (pl + ml)) with ⟨h, _⟩ | ⟨h, _⟩ <;> rw [h] <;> nlinarith)
  rw [e1, e2]
  nlinarith

/-! ## States -/

/-- `E - M·u + d|u|²/2`: energy in the frame moving with `u`. -/
noncomputable def frameE (x y z : ℝ) (U : Cons1D ns) : ℝ := U.E - (U.Mx * x + U.My * y + U.Mz * z) + U.d * (x ^ 2 + y ^ 2 + z ^ 2) / 2

theorem frameE_flux (hp : p.Ok) (hi : p.iso = false) (hm : p.mhd = false) {Bx : ℝ} {W : Prim1D ns} {U : Cons1D ns} (h : State p Bx W U) {c : ℝ}
    (h0 : 0 ≤ c) (hc : c ^ 2 = p.gamma * W.P / W.d) (x y z a b : ℝ) (hab : |b| * c ≤ a - b * W.Vx) :
    0 ≤ a * frameE x y z U - b * frameE x y z (physFlux p W Bx) := by
  have hd := h.d
  have hP := h.P hi
  have hg := hp.gamma hi
  have hg1 : 0 < p.gamma - 1 := by linarith
  obtain ⟨hy, hz⟩ := h.wf.2 hm
  have hw : 0 ≤ a - b * W.Vx := le_trans (mul_nonneg (abs_nonneg b) h0) hab
  have e : a * frameE x y z U - b * frameE x y z (physFlux p W Bx) =
      (a - b * W.Vx) * (W.P / (p.gamma - 1) + W.d * ((W.Vx - x) ^ 2 + (W.Vy - y) ^ 2 + (W.Vz - z) ^ 2) / 2) - b * W.P * (W.Vx - x) := by
    rw [h.eq hp]
    simp only [frameE, physFlux, energy, press, hi, hm, hy, hz, Bool.false_eq_true, if_false]
    ring
  rw [e]
  have key : b * W.P * (W.Vx - x) ≤ (a - b * W.Vx) * (W.P / (p.gamma - 1) + W.d * (W.Vx - x) ^ 2 / 2) := by
    rcases eq_or_lt_of_le hw with h1 | h1
    · rw [← h1] at hab ⊢
      have hc0 : 0 < c := by
        rcases eq_or_lt_of_le h0 with h2 | h2
        · rw [← h2] at hc
          have : 0 < p.gamma * W.P / W.d := div_pos (mul_pos (by linarith) hP) hd
          norm_num at hc; linarith
        · exact h2
      have hb : b = 0 := by
        have h3 : |b| ≤ 0 := by by_contra h4; push Not at h4; nlinarith [mul_pos h4 hc0]
        exact abs_eq_zero.1 (le_antisymm h3 (abs_nonneg b))
      rw [hb]; simp
    · have hsq : b ^ 2 * c ^ 2 ≤ (a - b * W.Vx) ^ 2 := by
        have := mul_self_le_mul_self (mul_nonneg (abs_nonneg b) h0) hab
        have e2 : |b| * c * (|b| * c) = b ^ 2 * c ^ 2 := by rw [← sq_abs b]; ring
        rw [e2] at this; nlinarith
      rw [hc] at hsq
      have hcd : b ^ 2 * (p.gamma * W.P) ≤ (a - b * W.Vx) ^ 2 * W.d := by
        rw [← mul_div_assoc, div_le_iff₀ hd] at hsq; exact hsq
      generalize hwq : a - b * W.Vx = w at *
      generalize W.Vx - x = q
      have hgoal : 0 ≤ 2 * (p.gamma - 1) * w * (w * (W.P / (p.gamma - 1) + W.d * q ^ 2 / 2) - b * W.P * q) := by
        have e3 : 2 * (p.gamma - 1) * w * (w * (W.P / (p.gamma - 1) + W.d * q ^ 2 / 2) - b * W.P * q) =
            W.P * (w * 1 - (p.gamma - 1) * b * q) ^ 2 + W.P * w ^ 2 + (p.gamma - 1) * q ^ 2 * (w ^ 2 * W.d - (p.gamma - 1) * b ^ 2 * W.P) := by
          field_simp; ring
        rw [e3]
        have : 0 ≤ w ^ 2 * W.d - (p.gamma - 1) * b ^ 2 * W.P := by nlinarith [mul_nonneg (sq_nonneg b) hP.le]
        positivity
      have hpos : 0 < 2 * (p.gamma - 1) * w := by positivity
      have := nonneg_of_mul_nonneg_right hgoal hpos
      linarith
  have : 0 ≤ (a - b * W.Vx) * (W.d * ((W.Vy - y) ^ 2 + (W.Vz - z) ^ 2) / 2) := by positivity
  nlinarith

theorem d_flux (hp : p.Ok) {Bx : ℝ} {W : Prim1D ns} {U : Cons1D ns} (h : State p Bx W U) {c : ℝ} (h0 : 0 ≤ c) (a b : ℝ) (hab : |b| * c ≤ a - b * W.Vx) :
    0 ≤ a * U.d - b * (physFlux p W Bx).d := by
  have e : a * U.d - b * (physFlux p W Bx).d = (a - b * W.Vx) * W.d := by rw [h.eq hp]; simp only [physFlux]; ring
  rw [e]
  exact mul_nonneg (le_trans (mul_nonneg (abs_nonneg b) h0) hab) h.d.le

/-! ## The fluxes through the two sides -/

/-- The signal speeds the solver computes for this interface are at most `B`. -/
def SignalsIn (p : Phys) (Ul Ur : Cons1D ns) (Wl Wr : Prim1D ns) (Bx B : ℝ) : Prop :=
  ∃ al ar, speeds p Ul Ur Wl Wr Bx = some (al, ar) ∧ -B ≤ al ∧ ar ≤ B

variable {Bx B : ℝ} {Wl W Wr : Prim1D ns} {Ul U Ur Fl Fr : Cons1D ns}

theorem sound_eq (hp : p.Ok) (hm : p.mhd = false) (h : State p Bx W U) : ∃ c, cfastPrim p W Bx = some c ∧ 0 < c ∧ c ^ 2 = soundSq p W := by
  obtain ⟨c, -, h1, -, h2, h3⟩ := sideC_pos hp h
  refine ⟨c, h3, h1, ?_⟩
  have : 0 ≤ soundSq p W := by
    unfold soundSq; cases hi : p.iso
    · simpa using (div_pos (mul_pos (by linarith [hp.gamma hi]) (h.P hi)) h.d).le
    · simpa using (hp.cs hi).le
  rw [h2 hm, Real.sq_sqrt this]

/-- What the interfaces of a zone have in common: signals `pr`, `mr`, `pl`, `ml`. -/
theorem faces (hp : p.Ok) (hm : p.mhd = false) (hl : State p Bx Wl Ul) (h : State p Bx W U) (hr : State p Bx Wr Ur)
    (sl : SignalsIn p Ul U Wl W Bx B) (sr : SignalsIn p U Ur W Wr Bx B)
    (el : hlle p Ul U Wl W Bx = some Fl) (er : hlle p U Ur W Wr Bx = some Fr) :
    ∃ pr mr pl ml c cl cr : ℝ, 0 ≤ pr ∧ pr ≤ B ∧ 0 ≤ mr ∧ mr ≤ B ∧ 0 < pr + mr ∧ 0 ≤ pl ∧ pl ≤ B ∧ 0 ≤ ml ∧ ml ≤ B ∧ 0 < pl + ml ∧
      0 ≤ c ∧ c ^ 2 = soundSq p W ∧ 0 ≤ cl ∧ cl ^ 2 = soundSq p Wl ∧ 0 ≤ cr ∧ cr ^ 2 = soundSq p Wr ∧
      |W.Vx| + c ≤ B ∧ cr ≤ pr - Wr.Vx ∧ cl ≤ ml + Wl.Vx ∧
      (∀ n, Fr.s n = Fr.d * if Fr.d ≥ 0 then W.r n else Wr.r n) ∧ (∀ n, Fl.s n = Fl.d * if Fl.d ≥ 0 then Wl.r n else W.r n) ∧
      (let f := fun (fl fr ul ur : ℝ) => (pr * fl + mr * fr - pr * mr * (ur - ul)) / (pr + mr)
       let L := physFlux p W Bx; let R := physFlux p Wr Bx
       Fr.d = f L.d R.d U.d Ur.d ∧ Fr.Mx = f L.Mx R.Mx U.Mx Ur.Mx ∧ Fr.My = f L.My R.My U.My Ur.My ∧ Fr.Mz = f L.Mz R.Mz U.Mz Ur.Mz ∧
       Fr.E = f L.E R.E U.E Ur.E) ∧
      (let f := fun (fl fr ul ur : ℝ) => (pl * fl + ml * fr - pl * ml * (ur - ul)) / (pl + ml)
       let L := physFlux p Wl Bx; let R := physFlux p W Bx
       Fl.d = f L.d R.d Ul.d U.d ∧ Fl.Mx = f L.Mx R.Mx Ul.Mx U.Mx ∧ Fl.My = f L.My R.My Ul.My U.My ∧ Fl.Mz = f L.Mz R.Mz Ul.Mz U.Mz ∧
       Fl.E = f L.E R.E Ul.E U.E) := by
  obtain ⟨c, c0, c1, c2⟩ := sound_eq hp hm h
  obtain ⟨cl, cl0, cl1, cl2⟩ := sound_eq hp hm hl
  obtain ⟨cr, cr0, cr1, cr2⟩ := sound_eq hp hm hr
  obtain ⟨al, ar, s1, s2, s3⟩ := sl
  obtain ⟨al', ar', t1, t2, t3⟩ := sr
  obtain ⟨_, _, x, y, f1, f2, f3, f4, f5, f6⟩ := fan_speeds hp hl h
  obtain ⟨_, _, x', y', g1, g2, g3, g4, g5, g6⟩ := fan_speeds hp h hr
  obtain ⟨_, _, _, i1, i2, i3, i4, i5, i6, i7, i8, -, -, i9⟩ := hlle_formula hp hl h
  obtain ⟨_, _, _, j1, j2, j3, j4, j5, j6, j7, j8, -, -, j9⟩ := hlle_formula hp h hr
  rw [s1] at f1 i1; rw [t1] at g1 j1
  obtain ⟨rfl, rfl⟩ := Prod.mk.inj (Option.some.inj f1)
  obtain ⟨rfl, rfl⟩ := Prod.mk.inj (Option.some.inj g1)
  obtain ⟨rfl, rfl⟩ := Prod.mk.inj (Option.some.inj i1)
  obtain ⟨rfl, rfl⟩ := Prod.mk.inj (Option.some.inj j1)
  rw [el] at i2; rw [er] at j2
  obtain rfl := Option.some.inj i2
  obtain rfl := Option.some.inj j2
  rw [cl0] at f2; rw [c0] at f3 g2; rw [cr0] at g3
  obtain rfl := Option.some.inj f2
  obtain rfl := Option.some.inj f3
  obtain rfl := Option.some.inj g2
  obtain rfl := Option.some.inj g3
  have hB : 0 ≤ B := by linarith
  have e : ∀ bp bm fl fr ul ur : ℝ, (bp * fl - bm * fr + bp * bm * (ur - ul)) / (bp - bm) = (bp * fl + -bm * fr - bp * -bm * (ur - ul)) / (bp + -bm) := by
    intro bp bm fl fr ul ur
    rw [← sub_eq_add_neg]; congr 1; ring
  refine ⟨max ar' 0, -min al' 0, max ar 0, -min al 0, c, cl, cr, le_max_right _ _, max_le t3 hB, by linarith [min_le_right al' 0], ?_, by linarith,
    le_max_right _ _, max_le s3 hB, by linarith [min_le_right al 0], ?_, by linarith, c1.le, c2, cl1.le, cl2, cr1.le, cr2, ?_, ?_, ?_, j9, i9, ?_, ?_⟩
  · have := le_min t2 (by linarith : -B ≤ 0); linarith
  · have := le_min s2 (by linarith : -B ≤ 0); linarith
  · rcases abs_cases W.Vx with ⟨h1, _⟩ | ⟨h1, _⟩ <;> rw [h1] <;> linarith
  · have := le_max_left ar' 0; linarith
  · have := min_le_left al 0; linarith
  · simp only [← e]; exact ⟨j4, j5, j6, j7, j8⟩
  · simp only [← e]; exact ⟨i4, i5, i6, i7, i8⟩

/-- What leaves a zone through its sides, in the time in which the fastest signal crosses the zone, is no more than it holds: mass. -/
theorem out_mass (hp : p.Ok) (hm : p.mhd = false) (hl : State p Bx Wl Ul) (h : State p Bx W U) (hr : State p Bx Wr Ur)
    (sl : SignalsIn p Ul U Wl W Bx B) (sr : SignalsIn p U Ur W Wr Bx B)
    (el : hlle p Ul U Wl W Bx = some Fl) (er : hlle p U Ur W Wr Bx = some Fr) : Fr.d - Fl.d ≤ B * U.d := by
  obtain ⟨pr, mr, pl, ml, c, cl, cr, r1, r2, r3, r4, r0, l1, l2, l3, l4, l0, c1, c2, cl1, cl2, cr1, cr2, v, vr, vl, -, -, fr, fl⟩ :=
    faces hp hm hl h hr sl sr el er
  rw [fr.1, fl.1]
  refine out_le r1 r2 r3 r4 r0 l1 l2 l3 l4 l0 c1 v (d_flux hp h c1) ?_ ?_
  · have := d_flux hp hr cr1 pr 1 (by simpa using vr); linarith
  · have := d_flux hp hl cl1 ml (-1) (by simpa using vl); linarith

/-- The same for the energy in any frame. -/
theorem out_energy (hp : p.Ok) (hi : p.iso = false) (hm : p.mhd = false) (hl : State p Bx Wl Ul) (h : State p Bx W U) (hr : State p Bx Wr Ur)
    (sl : SignalsIn p Ul U Wl W Bx B) (sr : SignalsIn p U Ur W Wr Bx B)
    (el : hlle p Ul U Wl W Bx = some Fl) (er : hlle p U Ur W Wr Bx = some Fr) (x y z : ℝ) :
    frameE x y z Fr - frameE x y z Fl ≤ B * frameE x y z U := by
  obtain ⟨pr, mr, pl, ml, c, cl, cr, r1, r2, r3, r4, r0, l1, l2, l3, l4, l0, c1, c2, cl1, cl2, cr1, cr2, v, vr, vl, -, -, fr, fl⟩ :=
    faces hp hm hl h hr sl sr el er
  obtain ⟨a1, a2, a3, a4, a5⟩ := fr
  obtain ⟨b1, b2, b3, b4, b5⟩ := fl
  simp only [soundSq, hi, Bool.false_eq_true, if_false] at c2 cl2 cr2
  have k := out_le r1 r2 r3 r4 r0 l1 l2 l3 l4 l0 c1 v (frameE_flux hp hi hm h c1 c2 x y z) (uR := frameE x y z Ur) (fR := frameE x y z (physFlux p Wr Bx))
    (uL := frameE x y z Ul) (fL := frameE x y z (physFlux p Wl Bx))
    (by have := frameE_flux hp hi hm hr cr1 cr2 x y z pr 1 (by simpa using vr); linarith)
    (by have := frameE_flux hp hi hm hl cl1 cl2 x y z ml (-1) (by simpa using vl); linarith)
  refine le_trans (le_of_eq ?_) k
  have e : ∀ P m : ℝ, ∀ A A' V V' : Cons1D ns, 
      (P * frameE x y z A + m * frameE x y z A' - P * m * (frameE x y z V' - frameE x y z V)) / (P + m) =
      (P * A.E + m * A'.E - P * m * (V'.E - V.E)) / (P + m) - ((P * A.Mx + m * A'.Mx - P * m * (V'.Mx - V.Mx)) / (P + m) * x +
        (P * A.My + m * A'.My - P * m * (V'.My - V.My)) / (P + m) * y + (P * A.Mz + m * A'.Mz - P * m * (V'.Mz - V.Mz)) / (P + m) * z) +
        (P * A.d + m * A'.d - P * m * (V'.d - V.d)) / (P + m) * (x ^ 2 + y ^ 2 + z ^ 2) / 2 := by
    intro P m A A' V V'
    simp only [frameE, div_eq_mul_inv]
    ring
  rw [e, e]
  unfold frameE
  rw [a1, a2, a3, a4, a5, b1, b2, b3, b4, b5]

theorem scalar_key {B d v l c r G H : ℝ} (kr : G ≤ (B + v) / 2 * d) (kl : -H ≤ (B - v) / 2 * d) (p1 : 0 ≤ (B + v) / 2 * d) (p2 : 0 ≤ (B - v) / 2 * d)
    (hl : 0 ≤ l) (hc : 0 ≤ c) (hr : 0 ≤ r) : 0 ≤ B * (c * d) - (G * (if G ≥ 0 then c else r) - H * (if H ≥ 0 then l else c)) := by
  have q : B * (c * d) = c * ((B + v) / 2 * d) + c * ((B - v) / 2 * d) := by ring
  rw [q]
  have a1 : G * (if G ≥ 0 then c else r) ≤ c * ((B + v) / 2 * d) := by
    split_ifs with h1
    · rw [mul_comm]; exact mul_le_mul_of_nonneg_left kr hc
    · exact le_trans (mul_nonpos_of_nonpos_of_nonneg (not_le.1 h1).le hr) (mul_nonneg hc p1)
  have a2 : -(c * ((B - v) / 2 * d)) ≤ H * (if H ≥ 0 then l else c) := by
    split_ifs with h1
    · exact le_trans (neg_nonpos.2 (mul_nonneg hc p2)) (mul_nonneg h1 hl)
    · have := mul_le_mul_of_nonneg_left kl hc; linarith
  linarith

theorem scalar_shift {B d l c r lo hi G H : ℝ}
    (x1 : 0 ≤ B * ((c - lo) * d) - (G * (if G ≥ 0 then c - lo else r - lo) - H * (if H ≥ 0 then l - lo else c - lo)))
    (x2 : 0 ≤ B * ((hi - c) * d) - (G * (if G ≥ 0 then hi - c else hi - r) - H * (if H ≥ 0 then hi - l else hi - c))) :
    lo * (B * d - (G - H)) ≤ B * (c * d) - (G * (if G ≥ 0 then c else r) - H * (if H ≥ 0 then l else c)) ∧
      B * (c * d) - (G * (if G ≥ 0 then c else r) - H * (if H ≥ 0 then l else c)) ≤ hi * (B * d - (G - H)) := by
  constructor
  · split_ifs at x1 ⊢ <;> linarith
  · split_ifs at x2 ⊢ <;> linarith

/-- The same for a dissolved substance of positive concentration. -/
theorem out_scalar (hp : p.Ok) (hm : p.mhd = false) (hl : State p Bx Wl Ul) (h : State p Bx W U) (hr : State p Bx Wr Ur)
    (sl : SignalsIn p Ul U Wl W Bx B) (sr : SignalsIn p U Ur W Wr Bx B)
    (el : hlle p Ul U Wl W Bx = some Fl) (er : hlle p U Ur W Wr Bx = some Fr) (n : Fin ns) {lo hi : ℝ}
    (bl : lo ≤ Wl.r n ∧ Wl.r n ≤ hi) (bc : lo ≤ W.r n ∧ W.r n ≤ hi) (br : lo ≤ Wr.r n ∧ Wr.r n ≤ hi) :
    lo * (B * U.d - (Fr.d - Fl.d)) ≤ B * U.s n - (Fr.s n - Fl.s n) ∧ B * U.s n - (Fr.s n - Fl.s n) ≤ hi * (B * U.d - (Fr.d - Fl.d)) := by
  obtain ⟨pr, mr, pl, ml, c, cl, cr, r1, r2, r3, r4, r0, l1, l2, l3, l4, l0, c1, c2, cl1, cl2, cr1, cr2, v, vr, vl, hs, ht, fr, fl⟩ :=
    faces hp hm hl h hr sl sr el er
  obtain ⟨v1, v2⟩ := abs_le.1 (show |W.Vx| ≤ B by linarith)
  have hd := h.d
  have eU : U.d = W.d ∧ U.s n = W.r n * W.d := by rw [h.eq hp]; exact ⟨rfl, rfl⟩
  have kr : Fr.d ≤ (B + W.Vx) / 2 * W.d := by
    rw [fr.1]
    show (pr * (physFlux p W Bx).d + mr * (physFlux p Wr Bx).d - pr * mr * (Ur.d - U.d)) / (pr + mr) ≤ _
    have e1 : (pr * (physFlux p W Bx).d + mr * (physFlux p Wr Bx).d - pr * mr * (Ur.d - U.d)) / (pr + mr) =
        pr / (pr + mr) * (mr + W.Vx) * W.d - mr / (pr + mr) * ((pr - Wr.Vx) * Wr.d) := by
      rw [h.eq hp, hr.eq hp]; simp only [physFlux]; field_simp; ring
    rw [e1]
    have : 0 ≤ mr / (pr + mr) * ((pr - Wr.Vx) * Wr.d) := mul_nonneg (div_nonneg r3 r0.le) (mul_nonneg (by linarith) hr.d.le)
    have := mul_le_mul_of_nonneg_right (side_bound r1 r2 r3 r4 r0 v1 v2) hd.le
    linarith
  have kl : -Fl.d ≤ (B - W.Vx) / 2 * W.d := by
    rw [fl.1]
    show -((pl * (physFlux p Wl Bx).d + ml * (physFlux p W Bx).d - pl * ml * (U.d - Ul.d)) / (pl + ml)) ≤ _
    have e1 : (pl * (physFlux p Wl Bx).d + ml * (physFlux p W Bx).d - pl * ml * (U.d - Ul.d)) / (pl + ml) =
        -(ml / (ml + pl) * (pl + -W.Vx) * W.d) + pl / (pl + ml) * ((ml + Wl.Vx) * Wl.d) := by
      rw [h.eq hp, hl.eq hp]; simp only [physFlux]; rw [add_comm ml pl]; field_simp; ring
    rw [e1]
    have : 0 ≤ pl / (pl + ml) * ((ml + Wl.Vx) * Wl.d) := mul_nonneg (div_nonneg l1 l0.le) (mul_nonneg (by linarith) hl.d.le)
    have := mul_le_mul_of_nonneg_right (side_bound (w := -W.Vx) l3 l4 l1 l2 (by linarith) (by linarith) (by linarith)) hd.le
    have e2 : (B + -W.Vx) / 2 = (B - W.Vx) / 2 := by ring
    rw [e2] at this
    linarith
  have pr0 : 0 ≤ (B + W.Vx) / 2 * W.d := mul_nonneg (by linarith) hd.le
  have pl0 : 0 ≤ (B - W.Vx) / 2 * W.d := mul_nonneg (by linarith) hd.le
  rw [hs n, ht n, eU.1, eU.2]
  have key := fun l c r => scalar_key (l := l) (c := c) (r := r) kr kl pr0 pl0
  have x1 := key (Wl.r n - lo) (W.r n - lo) (Wr.r n - lo) (by linarith [bl.1]) (by linarith [bc.1]) (by linarith [br.1])
  have x2 := key (hi - Wl.r n) (hi - W.r n) (hi - Wr.r n) (by linarith [bl.2]) (by linarith [bc.2]) (by linarith [br.2])
  exact scalar_shift x1 x2

/-! ## Signal speeds of the solver and of the zones -/

/-- Isothermal: the signals of the solver are no faster than those of the zones. -/
theorem signals_iso (hp : p.Ok) (hi : p.iso = true) (hm : p.mhd = false) (hl : State p Bx Wl Ul) (hr : State p Bx Wr Ur)
    (bl : |Wl.Vx| + p.cs ≤ B) (br : |Wr.Vx| + p.cs ≤ B) : SignalsIn p Ul Ur Wl Wr Bx B := by
  obtain ⟨r, c, cl, cr, h1, h2, h3, h4, -, -, -, h5⟩ := speeds_spec hp hl hr
  rw [roeAvg_eq Ul Ur Bx hl.d hr.d] at h1
  have ha := Real.sqrt_pos.mpr hl.d
  have hb := Real.sqrt_pos.mpr hr.d
  have e1 : r.v1 = (Real.sqrt Wl.d * Wl.Vx + Real.sqrt Wr.d * Wr.Vx) / (Real.sqrt Wl.d + Real.sqrt Wr.d) := by rw [← Option.some.inj h1]
  have e2 : c = p.cs := by simp only [roeC, hm, hi, Bool.false_eq_true, if_false, if_true, Option.pure_def, Option.some.injEq] at h2; exact h2.symm
  have e3 : ∀ {W : Prim1D ns} {x : ℝ}, cfastPrim p W Bx = some x → x = p.cs := by
    intro W x h
    simp only [cfastPrim, fastSpeed, hm, hi, Bool.false_eq_true, if_false, if_true, Option.pure_def, Option.bind_eq_bind, Option.bind_some] at h
    rw [fsqrt_nonneg (hp.cs hi).le] at h
    exact (Option.some.inj h).symm
  rw [e2, e3 h3, e3 h4, e1] at h5
  obtain ⟨l1, l2⟩ := abs_le.1 (show |Wl.Vx| ≤ B - p.cs by linarith)
  obtain ⟨r1, r2⟩ := abs_le.1 (show |Wr.Vx| ≤ B - p.cs by linarith)
  refine ⟨_, _, h5, le_min ?_ (by linarith), max_le ?_ (by linarith)⟩
  · rw [le_sub_iff_add_le, le_div_iff₀ (by positivity)]
    nlinarith [mul_nonneg ha.le (sub_nonneg.2 l1), mul_nonneg hb.le (sub_nonneg.2 r1)]
  · rw [← le_sub_iff_add_le, div_le_iff₀ (by positivity)]
    nlinarith [mul_nonneg ha.le (sub_nonneg.2 l2), mul_nonneg hb.le (sub_nonneg.2 r2)]

theorem roe_sq {t g S cl cr A C y : ℝ} (ht : 0 ≤ t) (hs : 0 ≤ 1 - t) (g0 : 0 ≤ g) (g1 : g ≤ 1/3)
    (cl0 : 0 ≤ cl) (cr0 : 0 ≤ cr) (cl1 : cl ≤ S) (cr1 : cr ≤ S) (hl : A ≤ (S - cl) ^ 2) (hr : C ≤ (S - cr) ^ 2) (hS : 0 ≤ S)
    (hyu : y ≤ t * (S - cl) + (1 - t) * (S - cr)) :
    t * cl ^ 2 + (1 - t) * cr ^ 2 + g * (t * A + (1 - t) * C - y ^ 2) ≤ (4/3 * S - y) ^ 2 := by
  have a1 : t * A ≤ t * (S - cl) ^ 2 := mul_le_mul_of_nonneg_left hl ht
  have a2 : (1 - t) * C ≤ (1 - t) * (S - cr) ^ 2 := mul_le_mul_of_nonneg_left hr hs
  have a5 : t * cl ^ 2 + (1 - t) * cr ^ 2 = S ^ 2 - 2 * S * (t * (S - cl) + (1 - t) * (S - cr)) + (t * (S - cl) ^ 2 + (1 - t) * (S - cr) ^ 2) := by ring
  have a4 : t * (S - cl) ^ 2 + (1 - t) * (S - cr) ^ 2 ≤ S * (t * (S - cl) + (1 - t) * (S - cr)) := by
    have e : S * (t * (S - cl) + (1 - t) * (S - cr)) - (t * (S - cl) ^ 2 + (1 - t) * (S - cr) ^ 2) =
      t * (cl * (S - cl)) + (1 - t) * (cr * (S - cr)) := by ring
    have := mul_nonneg ht (mul_nonneg cl0 (sub_nonneg.2 cl1))
    have := mul_nonneg hs (mul_nonneg cr0 (sub_nonneg.2 cr1))
    linarith
  rw [a5]
  generalize t * (S - cl) + (1 - t) * (S - cr) = u at *
  generalize t * (S - cl) ^ 2 = m1 at *
  generalize (1 - t) * (S - cr) ^ 2 = m2 at *
  have a3 : g * (t * A + (1 - t) * C - y ^ 2) ≤ g * (S * u - y ^ 2) := mul_le_mul_of_nonneg_left (by linarith) g0
  have a7 : (1 - g) * S * y ≤ (1 - g) * S * u := mul_le_mul_of_nonneg_left hyu (mul_nonneg (by linarith) hS)
  have a8 : 0 ≤ 7/9 * S ^ 2 - (5/3 + g) * (S * y) + (1 + g) * y ^ 2 := by
    have q0 : 0 ≤ g * (1/3 - g) := mul_nonneg g0 (by linarith)
    have q1 : (5/3 + g) ^ 2 ≤ 4 * (7/9) * (1 + g) := by
      have e : 4 * (7/9) * (1 + g) - (5/3 + g) ^ 2 = g * (1/3 - g) + (1/3 - 5/9 * g) := by ring
      linarith
    have b1 : 0 ≤ (2 * (1 + g) * y - (5/3 + g) * S) ^ 2 := sq_nonneg _
    have b2 : 0 ≤ (4 * (7/9) * (1 + g) - (5/3 + g) ^ 2) * S ^ 2 := mul_nonneg (by linarith) (sq_nonneg S)
    have e : 4 * (1 + g) * (7/9 * S ^ 2 - (5/3 + g) * (S * y) + (1 + g) * y ^ 2) =
        (2 * (1 + g) * y - (5/3 + g) * S) ^ 2 + (4 * (7/9) * (1 + g) - (5/3 + g) ^ 2) * S ^ 2 := by ring
    have b3 : 0 ≤ 4 * (1 + g) * (7/9 * S ^ 2 - (5/3 + g) * (S * y) + (1 + g) * y ^ 2) := by linarith
    exact nonneg_of_mul_nonneg_right b3 (by linarith)
  have e1 : (4/3 * S - y) ^ 2 = S ^ 2 - (1 - g) * S * y - g * y ^ 2 + (7/9 * S ^ 2 - (5/3 + g) * (S * y) + (1 + g) * y ^ 2) := by ring
  have e2 : g * (S * u - y ^ 2) = g * S * u - g * y ^ 2 := by ring
  have e3 : (1 - g) * S * u = S * u - g * S * u := by ring
  linarith

/-- Speed of the Roe average: `t`, `s` the weights, `S` at least speed of flow plus speed of sound on either side. -/
theorem roe_speed {t s g S cl cr x1 y1 z1 x2 y2 z2 : ℝ} (ht : 0 ≤ t) (hs : 0 ≤ s) (h1 : t + s = 1) (g0 : 0 ≤ g) (g1 : g ≤ 1/3)
    (cl0 : 0 ≤ cl) (cr0 : 0 ≤ cr) (cl1 : cl ≤ S) (cr1 : cr ≤ S)
    (hl : x1 ^ 2 + y1 ^ 2 + z1 ^ 2 ≤ (S - cl) ^ 2) (hr : x2 ^ 2 + y2 ^ 2 + z2 ^ 2 ≤ (S - cr) ^ 2) :
    |t * x1 + s * x2| + Real.sqrt (t * cl ^ 2 + s * cr ^ 2 + g * (t * s * ((x1 - x2) ^ 2 + (y1 - y2) ^ 2 + (z1 - z2) ^ 2))) ≤ 4/3 * S := by
  obtain rfl : s = 1 - t := by linarith
  set V2 := (t * x1 + (1 - t) * x2) ^ 2 + (t * y1 + (1 - t) * y2) ^ 2 + (t * z1 + (1 - t) * z2) ^ 2 with hV
  have hV0 : 0 ≤ V2 := by positivity
  set y := Real.sqrt V2 with hy
  have y0 : 0 ≤ y := Real.sqrt_nonneg _
  have yy : y ^ 2 = V2 := Real.sq_sqrt hV0
  have hx : |t * x1 + (1 - t) * x2| ≤ y := by
    apply Real.abs_le_sqrt
    rw [hV]; nlinarith [sq_nonneg (t * y1 + (1 - t) * y2), sq_nonneg (t * z1 + (1 - t) * z2)]
  have hdot : x1 * x2 + y1 * y2 + z1 * z2 ≤ (S - cl) * (S - cr) := by
    refine (abs_le_of_sq_le_sq' ?_ (mul_nonneg (by linarith) (by linarith))).2
    nlinarith [sq_nonneg (x1 * y2 - y1 * x2), sq_nonneg (x1 * z2 - z1 * x2), sq_nonneg (y1 * z2 - z1 * y2),
        mul_le_mul hl hr (by positivity) (sq_nonneg _)]
  have hyu : y ≤ t * (S - cl) + (1 - t) * (S - cr) := by
    refine (abs_le_of_sq_le_sq' ?_ ?_).2
    · rw [yy, hV]
      nlinarith [mul_nonneg (mul_nonneg ht hs) (sub_nonneg.2 hdot), mul_nonneg (sq_nonneg t) (sub_nonneg.2 hl), mul_nonneg (sq_nonneg (1 - t)) (sub_nonneg.2 hr)]
    · exact add_nonneg (mul_nonneg ht (by linarith)) (mul_nonneg hs (by linarith))
  have hyS : y ≤ S := by nlinarith [mul_nonneg ht cl0, mul_nonneg hs cr0]
  have hS : 0 ≤ S := by linarith
  have hc : Real.sqrt (t * cl ^ 2 + (1 - t) * cr ^ 2 + g * (t * (1 - t) * ((x1 - x2) ^ 2 + (y1 - y2) ^ 2 + (z1 - z2) ^ 2))) ≤ 4/3 * S - y := by
    rw [Real.sqrt_le_left (by linarith)]
    have e : t * (1 - t) * ((x1 - x2) ^ 2 + (y1 - y2) ^ 2 + (z1 - z2) ^ 2) =
        t * (x1 ^ 2 + y1 ^ 2 + z1 ^ 2) + (1 - t) * (x2 ^ 2 + y2 ^ 2 + z2 ^ 2) - y ^ 2 := by rw [yy, hV]; ring
    rw [e]
    exact roe_sq ht hs g0 g1 cl0 cr0 cl1 cr1 hl hr hS hyu
  linarith

theorem abs_vx {x y z c S : ℝ} (h : Real.sqrt (x ^ 2 + y ^ 2 + z ^ 2) + c ≤ S) : |x| ≤ S - c := by
  have q : |x| ≤ Real.sqrt (x ^ 2 + y ^ 2 + z ^ 2) := Real.abs_le_sqrt (by nlinarith [sq_nonneg y, sq_nonneg z])
  linarith

theorem two_speeds {v c a cl b cr S T : ℝ} (v1 : -(T - c) ≤ v) (v2 : v ≤ T - c) (h1 : 0 < cl) (h2 : 0 < cr) (kl : |a| ≤ S - cl) (kr : |b| ≤ S - cr)
    (h : S ≤ T) : -T ≤ min (v - c) (a - cl) ∧ max (v + c) (b + cr) ≤ T := by
  obtain ⟨k1, k2⟩ := abs_le.1 kl
  obtain ⟨k3, k4⟩ := abs_le.1 kr
  exact ⟨le_min (by linarith) (by linarith), max_le (by linarith) (by linarith)⟩

/-- Adiabatic, `Gamma` at most 5/3: the signals of the solver are no faster than 4/3 of the greatest sum of speed of flow (in all directions) and of sound. -/
theorem signals_adb (hp : p.Ok) (hi : p.iso = false) (hm : p.mhd = false) (hg : p.gamma ≤ 5/3) (hl : State p Bx Wl Ul) (hr : State p Bx Wr Ur)
    (fl : (p.gamma - 1) * p.tiny ≤ p.gamma * Wl.P / Wl.d) (fr : (p.gamma - 1) * p.tiny ≤ p.gamma * Wr.P / Wr.d) {S : ℝ}
    (bl : Real.sqrt (Wl.Vx ^ 2 + Wl.Vy ^ 2 + Wl.Vz ^ 2) + Real.sqrt (soundSq p Wl) ≤ S)
    (br : Real.sqrt (Wr.Vx ^ 2 + Wr.Vy ^ 2 + Wr.Vz ^ 2) + Real.sqrt (soundSq p Wr) ≤ S) : SignalsIn p Ul Ur Wl Wr Bx (4/3 * S) := by
  obtain ⟨r, c, cl, cr, h1, h2, h3, h4, hc0, hcl0, hcr0, h5⟩ := speeds_spec hp hl hr
  rw [roeAvg_eq Ul Ur Bx hl.d hr.d] at h1
  have hgam := hp.gamma hi
  have e3 : ∀ {W : Prim1D ns} {U : Cons1D ns} {x : ℝ}, State p Bx W U → cfastPrim p W Bx = some x → x = Real.sqrt (soundSq p W) ∧ x ^ 2 = soundSq p W := by
    intro W U x hW h
    obtain ⟨c, c1, c2, c3⟩ := sound_eq hp hm hW
    rw [h] at c1
    obtain rfl := Option.some.inj c1
    exact ⟨by rw [← c3, Real.sqrt_sq c2.le], c3⟩
  obtain ⟨l1, l2⟩ := e3 hl h3
  obtain ⟨r1, r2⟩ := e3 hr h4
  rw [← l1] at bl; rw [← r1] at br
  have ha := Real.sqrt_pos.mpr hl.d
  have hb := Real.sqrt_pos.mpr hr.d
  have eal : Real.sqrt Wl.d ^ 2 = Wl.d := Real.sq_sqrt hl.d.le
  have ebr : Real.sqrt Wr.d ^ 2 = Wr.d := Real.sq_sqrt hr.d.le
  simp only [soundSq, hi, Bool.false_eq_true, if_false] at l2 r2
  generalize Real.sqrt Wl.d = a at *
  generalize Real.sqrt Wr.d = b at *
  have hab : 0 < a + b := by linarith
  have ev1 : r.v1 = a / (a + b) * Wl.Vx + b / (a + b) * Wr.Vx := by rw [← Option.some.inj h1]; field_simp
  have key : r.h - 1/2 * (r.v1 * r.v1 + r.v2 * r.v2 + r.v3 * r.v3) = (a / (a + b) * cl ^ 2 + b / (a + b) * cr ^ 2) / (p.gamma - 1) +
      1/2 * (a / (a + b) * (b / (a + b)) * ((Wl.Vx - Wr.Vx) ^ 2 + (Wl.Vy - Wr.Vy) ^ 2 + (Wl.Vz - Wr.Vz) ^ 2)) := by
    rw [← Option.some.inj h1, hl.eq hp, hr.eq hp]
    simp only [hi, hm, magP, energy, Bool.false_eq_true, if_false]
    rw [l2, r2, ← eal, ← ebr]
    have : p.gamma - 1 ≠ 0 := by linarith
    field_simp
    ring
  have hfl : p.tiny ≤ r.h - 1/2 * (r.v1 * r.v1 + r.v2 * r.v2 + r.v3 * r.v3) := by
    rw [key]
    have g1 : 0 < p.gamma - 1 := by linarith
    have q : p.tiny ≤ (a / (a + b) * cl ^ 2 + b / (a + b) * cr ^ 2) / (p.gamma - 1) := by
      rw [le_div_iff₀ g1, l2, r2]
      have w1 : a / (a + b) + b / (a + b) = 1 := by field_simp
      have w2 := mul_le_mul_of_nonneg_left fl (div_nonneg ha.le hab.le)
      have w3 := mul_le_mul_of_nonneg_left fr (div_nonneg hb.le hab.le)
      have w4 : p.tiny * (p.gamma - 1) = a / (a + b) * ((p.gamma - 1) * p.tiny) + b / (a + b) * ((p.gamma - 1) * p.tiny) := by
        rw [← add_mul, w1]; ring
      linarith
    have : 0 ≤ a / (a + b) * (b / (a + b)) * ((Wl.Vx - Wr.Vx) ^ 2 + (Wl.Vy - Wr.Vy) ^ 2 + (Wl.Vz - Wr.Vz) ^ 2) := by positivity
    linarith
  have ec : c = Real.sqrt (a / (a + b) * cl ^ 2 + b / (a + b) * cr ^ 2 + (p.gamma - 1) / 2 *
      (a / (a + b) * (b / (a + b)) * ((Wl.Vx - Wr.Vx) ^ 2 + (Wl.Vy - Wr.Vy) ^ 2 + (Wl.Vz - Wr.Vz) ^ 2))) := by
    simp only [roeC, hm, hi, Bool.false_eq_true, if_false] at h2
    rw [fsqrt_some h2, fmax_eq, max_eq_left hfl, key]
    congr 1
    have : p.gamma - 1 ≠ 0 := by linarith
    unfold Phys.gamma1
    field_simp
  have nl := Real.sqrt_nonneg (Wl.Vx ^ 2 + Wl.Vy ^ 2 + Wl.Vz ^ 2)
  have nr := Real.sqrt_nonneg (Wr.Vx ^ 2 + Wr.Vy ^ 2 + Wr.Vz ^ 2)
  have b1 : Wl.Vx ^ 2 + Wl.Vy ^ 2 + Wl.Vz ^ 2 ≤ (S - cl) ^ 2 := (Real.sqrt_le_iff.1 (by linarith)).2
  have b2 : Wr.Vx ^ 2 + Wr.Vy ^ 2 + Wr.Vz ^ 2 ≤ (S - cr) ^ 2 := (Real.sqrt_le_iff.1 (by linarith)).2
  have R := roe_speed (t := a / (a + b)) (s := b / (a + b)) (g := (p.gamma - 1) / 2) (by positivity) (by positivity) (by field_simp) (by linarith) (by linarith)
    hcl0.le hcr0.le (by linarith) (by linarith) b1 b2
  rw [← ec, ← ev1] at R
  obtain ⟨v1, v2⟩ := abs_le.1 (show |r.v1| ≤ 4/3 * S - c by linarith)
  have kl := abs_vx bl
  have kr := abs_vx br
  exact ⟨_, _, h5, two_speeds v1 v2 hcl0 hcr0 kl kr (by linarith)⟩

end Athena.Hydro
