import Verif.Hydro.RsolveProps

/-!
# C34, C35: the HLLC flux (hydrodynamics)
-/

namespace Athena.Hydro
noncomputable section
variable {ns : ℕ} {p : Phys} {Wl Wr W : Prim1D ns} {Ul Ur U : Cons1D ns}

/-! ## The contact lies inside the fan -/

/-- `fan_ineq` for approaching states. -/
theorem fan_ineq_comp (s t c cr D X Y : ℝ) (hs : 0 < s) (ht : 0 < t) (hst : s + t = 1) (hc : 0 < c) (hcr : 0 < cr)
    (hcc : t * cr ^ 2 ≤ c ^ 2) (hX : c - t * D ≤ X) (hY : Y = max (c - s * D) cr) (hD : D < 0) :
    4/5 * (t ^ 2 * cr ^ 2) ≤ s ^ 2 * X ^ 2 + t ^ 2 * (Y * (X + D)) := by
  have hs1 : s = 1 - t := by linarith
  set m := -D with hm
  have hm0 : 0 < m := by linarith
  have hDm : D = -m := by linarith
  rw [hDm] at hX hY ⊢
  have hX' : c + t * m ≤ X := by linarith
  have hY' : Y = max (c + s * m) cr := by rw [hY]; congr 1; ring
  have hpoly : 4/5 * t ≤ s ^ 2 + t ^ 2 := by rw [hs1]; nlinarith [sq_nonneg (t - 7/10)]
  have key : ∀ y, 0 < y → s ^ 2 * (c + t * m) ^ 2 + t ^ 2 * (y * (c - s * m)) ≤ s ^ 2 * X ^ 2 + t ^ 2 * (y * (X + -m)) := by
    intro y hy
    have h1 : (c + t * m) ^ 2 ≤ X ^ 2 := by
      have : 0 < c + t * m := by positivity
      nlinarith
    have h2 : y * (c - s * m) ≤ y * (X + -m) := by
      apply mul_le_mul_of_nonneg_left _ hy.le
      rw [hs1]; linarith
    have h3 := mul_le_mul_of_nonneg_left h1 (sq_nonneg s)
    have h4 := mul_le_mul_of_nonneg_left h2 (sq_nonneg t)
    linarith
  have main : 4/5 * (t ^ 2 * cr ^ 2) ≤ s ^ 2 * (c + t * m) ^ 2 + t ^ 2 * ((c + s * m) * (c - s * m)) := by
    have e : s ^ 2 * (c + t * m) ^ 2 + t ^ 2 * ((c + s * m) * (c - s * m)) = (s ^ 2 + t ^ 2) * c ^ 2 + 2 * s ^ 2 * t * c * m := by ring
    have h1 : (4/5 * t) * (t * cr ^ 2) ≤ (s ^ 2 + t ^ 2) * c ^ 2 := mul_le_mul hpoly hcc (by positivity) (by positivity)
    have h2 : 0 ≤ 2 * s ^ 2 * t * c * m := by positivity
    rw [e]; nlinarith
  rcases le_total cr (c + s * m) with h | h
  · rw [hY', max_eq_left h]
    exact main.trans (key _ (by positivity))
  · rcases le_or_gt 0 (X + -m) with h0 | h0
    · have h1 : (c + s * m) * (X + -m) ≤ Y * (X + -m) := by
        apply mul_le_mul_of_nonneg_right _ h0
        rw [hY']; exact le_max_left _ _
      have h2 := mul_le_mul_of_nonneg_left h1 (sq_nonneg t)
      have := key (c + s * m) (by positivity)
      linarith
    · rw [hY', max_eq_right h]
      have h1 : c < s * m := by rw [hs1]; linarith
      have h2 : 2 * c < cr := by linarith
      have h3 : t < 1/4 := by
        have h3 : 4 * c ^ 2 < cr ^ 2 := by
          have := pow_lt_pow_left₀ h2 (by positivity) (n := 2) (by norm_num)
          linarith
        by_contra hh
        push Not at hh
        have := mul_le_mul_of_nonneg_right hh (sq_nonneg cr)
        linarith
      have h4 : 3/4 < s := by linarith
      refine le_trans ?_ (key cr hcr)
      have h5 : -(cr * cr) ≤ cr * (c - s * m) := by
        have : s * m ≤ cr + c := by linarith
        have := mul_le_mul_of_nonneg_left this hcr.le
        linarith
      have h6 := mul_le_mul_of_nonneg_left h5 (sq_nonneg t)
      have h7 : c ^ 2 ≤ (c + t * m) ^ 2 := pow_le_pow_left₀ hc.le (by linarith [mul_pos ht hm0]) 2
      have h8 := mul_le_mul_of_nonneg_left h7 (sq_nonneg s)
      have h9 : s ^ 2 * (t * cr ^ 2) ≤ s ^ 2 * c ^ 2 := mul_le_mul_of_nonneg_left hcc (sq_nonneg s)
      have h10 : 9/16 ≤ s ^ 2 := by nlinarith
      have h11 : 9/16 * (t * cr ^ 2) ≤ s ^ 2 * (t * cr ^ 2) := mul_le_mul_of_nonneg_right h10 (by positivity)
      have h12 : t * (t * cr ^ 2) ≤ 1/4 * (t * cr ^ 2) := mul_le_mul_of_nonneg_right h3.le (by positivity)
      have h13 : 0 < t * cr ^ 2 := by positivity
      linarith

/-- Real inequality behind `al < am`; `s`, `t` are the Roe weights, `X = Vl - al`, `Y = ar - Vr`, `D = Vr - Vl`. -/
theorem fan_ineq (s t c cr D X Y : ℝ) (hs : 0 < s) (ht : 0 < t) (hst : s + t = 1) (hc : 0 < c) (hcr : 0 < cr)
    (hcc : t * cr ^ 2 ≤ c ^ 2) (hX : c - t * D ≤ X) (hX0 : 0 < X) (hY : Y = max (c - s * D) cr) :
    4/5 * (t ^ 2 * cr ^ 2) ≤ s ^ 2 * X ^ 2 + t ^ 2 * (Y * (X + D)) := by
  have ht1 : t < 1 := by linarith
  have hs1 : s = 1 - t := by linarith
  rcases le_or_gt 0 D with hD | hD
  · -- expansion
    have hYc : cr ≤ Y := by rw [hY]; exact le_max_right _ _
    have hXD : 0 < X + D := by linarith
    have h1 : t ^ 2 * (cr * (X + D)) ≤ t ^ 2 * (Y * (X + D)) :=
      mul_le_mul_of_nonneg_left (mul_le_mul_of_nonneg_right hYc hXD.le) (sq_nonneg _)
    obtain ⟨u, hu, hut⟩ : ∃ u, 0 < u ∧ u * u = t := ⟨Real.sqrt t, Real.sqrt_pos.mpr ht, Real.mul_self_sqrt ht.le⟩
    have hu1 : u < 1 := by nlinarith
    have hcu : u * cr ≤ c := by
      apply abs_le_of_sq_le_sq' _ hc.le |>.2
      rw [mul_pow]; rw [← hut] at hcc; nlinarith
    rcases le_or_gt (4/5) u with h5 | h5
    · have hz : c + s * D ≤ X + D := by rw [hs1]; linarith
      have : 4/5 * cr ≤ X + D := by nlinarith [mul_nonneg hs.le hD]
      have h2 : cr * (4/5 * cr) ≤ cr * (X + D) := mul_le_mul_of_nonneg_left this hcr.le
      have h3 : t ^ 2 * (cr * (4/5 * cr)) ≤ t ^ 2 * (cr * (X + D)) := mul_le_mul_of_nonneg_left h2 (sq_nonneg _)
      have := mul_nonneg (sq_nonneg s) (sq_nonneg X)
      nlinarith
    · set Z := u * cr - t * D with hZ
      have hZX : Z ≤ X := by rw [hZ]; linarith
      rcases lt_or_ge Z 0 with hz | hz
      · have h6 : u * cr < t * D := by linarith
        have h7 : cr < D := by
          by_contra hh
          push Not at hh
          have : t * D ≤ t * cr := mul_le_mul_of_nonneg_left hh ht.le
          have h8 : t < u := by nlinarith
          have := mul_lt_mul_of_pos_right h8 hcr
          linarith
        have h3 : t ^ 2 * (cr * cr) ≤ t ^ 2 * (cr * (X + D)) :=
          mul_le_mul_of_nonneg_left (mul_le_mul_of_nonneg_left (by linarith) hcr.le) (sq_nonneg _)
        have := mul_nonneg (sq_nonneg s) (sq_nonneg X)
        nlinarith [mul_nonneg (sq_nonneg t) (sq_nonneg cr)]
      · have h8 : Z ^ 2 ≤ X ^ 2 := by nlinarith
        have h9 : s ^ 2 * Z ^ 2 ≤ s ^ 2 * X ^ 2 := mul_le_mul_of_nonneg_left h8 (sq_nonneg _)
        have h10 : t ^ 2 * (cr * (Z + D)) ≤ t ^ 2 * (cr * (X + D)) :=
          mul_le_mul_of_nonneg_left (mul_le_mul_of_nonneg_left (by linarith) hcr.le) (sq_nonneg _)
        have h11 : s ^ 2 * Z ^ 2 + t ^ 2 * (cr * (Z + D)) = (s * Z - t * cr / 2) ^ 2 + t * cr ^ 2 * (u - t / 4) := by
          rw [hs1, hZ]; ring
        have h12 : 4/5 * t ≤ u - t / 4 := by rw [← hut]; nlinarith
        have h13 : t * cr ^ 2 * (4/5 * t) ≤ t * cr ^ 2 * (u - t / 4) :=
          mul_le_mul_of_nonneg_left h12 (by positivity)
        nlinarith [sq_nonneg (s * Z - t * cr / 2)]
  · exact fan_ineq_comp s t c cr D X Y hs ht hst hc hcr hcc hX hY hD

/-- The same for isothermal flow. -/
theorem fan_ineq_iso (s t c D X Y : ℝ) (hs : 0 < s) (ht : 0 < t) (hc : 0 < c)
    (hX : X = max (c - t * D) c) (hY : Y = max (c - s * D) c) (hst : s + t = 1) :
    t ^ 2 * c ^ 2 < s ^ 2 * c ^ 2 + s ^ 2 * X ^ 2 + t ^ 2 * (Y * (X + D)) := by
  have hs1 : s = 1 - t := by linarith
  rcases le_or_gt 0 D with hD | hD
  · rw [hX, hY, max_eq_right (by nlinarith), max_eq_right (by nlinarith)]
    have : 0 < s ^ 2 * c ^ 2 := by positivity
    have : 0 ≤ t ^ 2 * (c * D) := by positivity
    nlinarith
  · rw [hX, hY, max_eq_left (by nlinarith), max_eq_left (by nlinarith)]
    have h1 : 0 < s ^ 2 * c ^ 2 := by positivity
    have h2 : 0 < s ^ 2 * t * c * (-D) := by have : 0 < -D := by linarith
                                             positivity
    have e : s ^ 2 * (c - t * D) ^ 2 + t ^ 2 * ((c - s * D) * (c - t * D + D)) =
        (s ^ 2 + t ^ 2) * c ^ 2 + 2 * (s ^ 2 * t * c * (-D)) := by rw [hs1]; ring
    linarith

/-- Hydrodynamics for which the solver's contact is inside its fan: isothermal, or adiabatic with γ ≥ 5/4. -/
structure HllcOk (p : Phys) : Prop where
  ok : p.Ok
  hydro : p.mhd = false
  gamma : p.iso = false → 5/4 ≤ p.gamma

/-- The Roe sound speed is not smaller than the weighted root mean square of the two sound speeds. -/
theorem roe_sound (hp : p.Ok) (hm : p.mhd = false) (hl : State p 0 Wl Ul) (hr : State p 0 Wr Ur) {r : Roe} {c : ℝ}
    (h1 : roeAvg p Ul Ur Wl Wr 0 = some r) (h2 : roeC p r 0 = some c) :
    r.v1 = (Real.sqrt Wl.d * Wl.Vx + Real.sqrt Wr.d * Wr.Vx) / (Real.sqrt Wl.d + Real.sqrt Wr.d) ∧
    (Real.sqrt Wl.d * soundSq p Wl + Real.sqrt Wr.d * soundSq p Wr) / (Real.sqrt Wl.d + Real.sqrt Wr.d) ≤ c ^ 2 ∧
    (p.iso = true → c = p.cs) := by
  have ha := Real.sqrt_pos.mpr hl.d
  have hb := Real.sqrt_pos.mpr hr.d
  have ea := Real.mul_self_sqrt hl.d.le
  have eb := Real.mul_self_sqrt hr.d.le
  rw [roeAvg_eq _ _ _ hl.d hr.d] at h1
  have h1 := Option.some.inj h1
  set a := Real.sqrt Wl.d
  set b := Real.sqrt Wr.d
  have hab : 0 < a + b := by positivity
  unfold roeC at h2
  simp only [hm, Bool.false_eq_true, if_false] at h1 h2
  cases hi : p.iso
  · simp only [hi, Bool.false_eq_true, if_false] at h1 h2
    have hg := hp.gamma hi
    have hg1 : 0 < p.gamma1 := by unfold Phys.gamma1; linarith
    refine ⟨by rw [← h1], ?_, by simp⟩
    have hc := fsqrt_some h2
    rw [fmax_eq] at hc
    have hle : p.gamma1 * (r.h - 1/2 * (r.v1 * r.v1 + r.v2 * r.v2 + r.v3 * r.v3)) ≤ c ^ 2 := by
      rw [hc, Real.sq_sqrt]
      · exact mul_le_mul_of_nonneg_left (le_max_left _ _) hg1.le
      · exact mul_nonneg hg1.le (hp.tiny.le.trans (le_max_right _ _))
    refine le_trans ?_ hle
    rw [← h1]
    dsimp only
    rw [hl.eq hp, hr.eq hp]
    simp only [hi, Bool.false_eq_true, if_false, magP, hm, soundSq, energy]
    rw [← ea, ← eb]
    unfold Phys.gamma1
    have hg2 : p.gamma - 1 ≠ 0 := by linarith
    have var : ∀ x y : ℝ, 0 ≤ (a * x ^ 2 + b * y ^ 2) / (a + b) - ((a * x + b * y) / (a + b)) ^ 2 := by
      intro x y
      have : (a * x ^ 2 + b * y ^ 2) / (a + b) - ((a * x + b * y) / (a + b)) ^ 2 = a * b * (x - y) ^ 2 / (a + b) ^ 2 := by
        field_simp; ring
      rw [this]; positivity
    have v1 := var Wl.Vx Wr.Vx
    have v2 := var Wl.Vy Wr.Vy
    have v3 := var Wl.Vz Wr.Vz
    have e : (p.gamma - 1) * (((Wl.P / (p.gamma - 1) + a * a * (Wl.Vx ^ 2 + Wl.Vy ^ 2 + Wl.Vz ^ 2) / 2 + 0 + Wl.P + 0) / a +
        (Wr.P / (p.gamma - 1) + b * b * (Wr.Vx ^ 2 + Wr.Vy ^ 2 + Wr.Vz ^ 2) / 2 + 0 + Wr.P + 0) / b) / (a + b)) =
        (a * (p.gamma * Wl.P / (a * a)) + b * (p.gamma * Wr.P / (b * b))) / (a + b) + (p.gamma - 1) / 2 *
        ((a * Wl.Vx ^ 2 + b * Wr.Vx ^ 2) / (a + b) + (a * Wl.Vy ^ 2 + b * Wr.Vy ^ 2) / (a + b) +
          (a * Wl.Vz ^ 2 + b * Wr.Vz ^ 2) / (a + b)) := by
      field_simp; ring
    rw [mul_sub, e]
    have hg3 : 0 ≤ (p.gamma - 1) / 2 := by linarith
    have := mul_nonneg hg3 v1
    have := mul_nonneg hg3 v2
    have := mul_nonneg hg3 v3
    nlinarith
  · simp only [hi, if_true] at h1 h2
    have hc : c = p.cs := (Option.some.inj h2).symm
    refine ⟨by rw [← h1], ?_, fun _ => hc⟩
    simp only [soundSq, hi, if_true]
    rw [hc, ← add_mul, mul_div_assoc, mul_div_cancel₀ _ hab.ne']
    unfold Phys.cs
    rw [Real.sq_sqrt (hp.cs hi).le]

/-- `al < am` for the contact speed `am` of hllc.c, stated without division. -/
theorem contact_left (hp : HllcOk p) (hl : State p 0 Wl Ul) (hr : State p 0 Wr Ur) {al ar : ℝ}
    (hs : speeds p Ul Ur Wl Wr 0 = some (al, ar)) :
    0 < press p Wl + Wl.d * (Wl.Vx - al) ^ 2 + Wr.d * ((ar - Wr.Vx) * (Wr.Vx - al)) - press p Wr := by
  obtain ⟨r, c, cl, cr, h1, h2, h3, h4, hc, hcl, hcr, h5⟩ := speeds_spec hp.ok hl hr
  rw [hs] at h5
  obtain ⟨e1, e2⟩ := Prod.mk.inj (Option.some.inj h5)
  obtain ⟨hv, hcc, hciso⟩ := roe_sound hp.ok hp.hydro hl hr h1 h2
  have ha := Real.sqrt_pos.mpr hl.d
  have hb := Real.sqrt_pos.mpr hr.d
  have ea := Real.mul_self_sqrt hl.d.le
  have eb := Real.mul_self_sqrt hr.d.le
  set a := Real.sqrt Wl.d
  set b := Real.sqrt Wr.d
  have hab : 0 < a + b := by positivity
  obtain ⟨cl', -, -, -, g1, g2⟩ := sideC_pos hp.ok hl
  rw [h3] at g2; obtain rfl := Option.some.inj g2
  obtain ⟨cr', -, -, -, g3, g4⟩ := sideC_pos hp.ok hr
  rw [h4] at g4; obtain rfl := Option.some.inj g4
  have hcl2 := g1 hp.hydro
  have hcr2 := g3 hp.hydro
  have sl0 : 0 < soundSq p Wl := Real.sqrt_pos.mp (hcl2 ▸ hcl)
  have sr0 : 0 < soundSq p Wr := Real.sqrt_pos.mp (hcr2 ▸ hcr)
  set s := a / (a + b) with hsd
  set t := b / (a + b) with htd
  have hs0 : 0 < s := by positivity
  have ht0 : 0 < t := by positivity
  have hst : s + t = 1 := by rw [hsd, htd]; field_simp
  have hv' : r.v1 = s * Wl.Vx + t * Wr.Vx := by rw [hv, hsd, htd]; ring
  set D := Wr.Vx - Wl.Vx with hD
  have hX : Wl.Vx - al = max (c - t * D) cl := by
    have e : c - t * D = Wl.Vx - (r.v1 - c) := by rw [hv', hD]; linear_combination (Wl.Vx) * hst
    rw [e1, e]
    rcases le_total (r.v1 - c) (Wl.Vx - cl) with h | h
    · rw [min_eq_left h, max_eq_left (by linarith)]
    · rw [min_eq_right h, max_eq_right (by linarith)]; ring
  have hY : ar - Wr.Vx = max (c - s * D) cr := by
    have e : c - s * D = r.v1 + c - Wr.Vx := by rw [hv', hD]; linear_combination -(Wr.Vx) * hst
    rw [e2, e]
    rcases le_total (r.v1 + c) (Wr.Vx + cr) with h | h
    · rw [max_eq_right h, max_eq_right (by linarith)]; ring
    · rw [max_eq_left h, max_eq_left (by linarith)]
  have hXD : Wr.Vx - al = (Wl.Vx - al) + D := by rw [hD]; ring
  have hX0 : 0 < Wl.Vx - al := by rw [hX]; exact lt_of_lt_of_le hcl (le_max_right _ _)
  have scale : ∀ x y : ℝ, Wl.d * x + Wr.d * y = (a + b) ^ 2 * (s ^ 2 * x + t ^ 2 * y) := by
    intro x y; rw [← ea, ← eb, hsd, htd]; field_simp
  have htw : Wr.d = (a + b) ^ 2 * t ^ 2 := by rw [← eb, htd]; field_simp
  have hsw : Wl.d = (a + b) ^ 2 * s ^ 2 := by rw [← ea, hsd]; field_simp
  rw [hXD]
  set X := Wl.Vx - al
  set Y := ar - Wr.Vx
  have hab2 : 0 < (a + b) ^ 2 := by positivity
  cases hi : p.iso
  · have hcr' : t * cr ^ 2 ≤ c ^ 2 := by
      refine le_trans ?_ hcc
      rw [hcr2, Real.sq_sqrt sr0.le, htd, div_mul_eq_mul_div]
      apply div_le_div_of_nonneg_right _ hab.le
      have := mul_pos ha sl0
      linarith
    have hf := fan_ineq s t c cr D X Y hs0 ht0 hst hc hcr hcr' (by rw [hX]; exact le_max_left _ _) hX0 hY
    have hpr : press p Wr = Wr.d * cr ^ 2 / p.gamma := by
      rw [hcr2, Real.sq_sqrt sr0.le]
      have := hp.ok.gamma hi
      have := hr.d
      simp only [press, soundSq, hi, Bool.false_eq_true, if_false]
      field_simp
    have hpl := press_pos hp.ok hl
    have hle : press p Wr ≤ 4/5 * (Wr.d * cr ^ 2) := by
      have hg := hp.gamma hi
      rw [hpr, div_le_iff₀ (by linarith)]
      have : 0 < Wr.d * cr ^ 2 := by have := hr.d; positivity
      nlinarith
    have := mul_le_mul_of_nonneg_left hf hab2.le
    rw [← scale] at this
    rw [htw] at hle this ⊢
    linarith
  · have ecs : ∀ V : Prim1D ns, soundSq p V = p.cs2 := fun V => by simp [soundSq, hi]
    have hcs : p.cs ^ 2 = p.cs2 := Real.sq_sqrt (hp.ok.cs hi).le
    have hcl3 : cl = c := by rw [hciso hi, hcl2, ecs]; rfl
    have hcr3 : cr = c := by rw [hciso hi, hcr2, ecs]; rfl
    rw [hcl3] at hX
    rw [hcr3] at hY
    have hf := fan_ineq_iso s t c D X Y hs0 ht0 hc hX hY hst
    have := mul_lt_mul_of_pos_left hf hab2
    simp only [press, hi, if_true]
    rw [← hcs, ← hciso hi, hsw, htw]
    linarith

theorem clip_nonneg (x : ℝ) : 0 ≤ if x > 0 then x else 0 := by
  split_ifs with h
  · exact h.le
  · exact le_rfl

/-- C34: for isothermal flow and for γ ≥ 5/4 the contact found by the HLLC solver lies strictly inside its fan. -/
theorem contact_inside (hp : HllcOk p) (hl : State p 0 Wl Ul) (hr : State p 0 Wr Ur) :
    ∃ al ar am cp, speeds p Ul Ur Wl Wr 0 = some (al, ar) ∧ contact p Ul Ur Wl Wr al ar = some (am, cp) ∧ al < am ∧ am < ar ∧ 0 ≤ cp := by
  obtain ⟨al, ar, h, hlt, h1, h2⟩ := speeds_bounds hp.ok hl hr
  have k1 := contact_left hp hl hr h
  have hm := speeds_mirror hp.ok hl hr h
  rw [neg_zero] at hm
  have k2 := contact_left hp (by simpa using hr.mirror) (by simpa using hl.mirror) hm
  have hdl := hl.d
  have hdr := hr.d
  have hden : 0 < Wl.d * Wl.Vx - Wl.d * al + -(Wr.d * Wr.Vx - Wr.d * ar) := by
    have := mul_pos hdl (sub_pos.mpr h1)
    have := mul_pos hdr (sub_pos.mpr h2)
    nlinarith
  have hpl : (if p.iso = true then Wl.d * p.cs2 else Wl.P) = press p Wl := by
    unfold press; split_ifs <;> ring
  have hpr : (if p.iso = true then Wr.d * p.cs2 else Wr.P) = press p Wr := by
    unfold press; split_ifs <;> ring
  have e1 : press p Wr.mirror = press p Wr := rfl
  have e2 : press p Wl.mirror = press p Wl := rfl
  have e3 : Wr.mirror.d = Wr.d := rfl
  have e4 : Wl.mirror.d = Wl.d := rfl
  have e5 : Wr.mirror.Vx = -Wr.Vx := rfl
  have e6 : Wl.mirror.Vx = -Wl.Vx := rfl
  rw [e1, e2, e3, e4, e5, e6] at k2
  refine ⟨al, ar, _, _, h, by
    unfold contact
    rw [hl.eq hp.ok, hr.eq hp.ok]
    dsimp only
    rw [fdiv_pos hden]
    rfl, ?_, ?_, ?_⟩
  · rw [mul_one_div, lt_div_iff₀ hden, hpl, hpr]
    nlinarith
  · rw [mul_one_div, div_lt_iff₀ hden, hpl, hpr]
    nlinarith
  · exact clip_nonneg _

/-! ## The flux -/

/-- C34: for isothermal flow and for γ ≥ 5/4 the HLLC flux of a fan moving to the right (left) is the physical flux of the left (right)
state. -/
theorem hllc_upwind (hp : HllcOk p) (hl : State p 0 Wl Ul) (hr : State p 0 Wr Ur) :
    ∃ al ar, speeds p Ul Ur Wl Wr 0 = some (al, ar) ∧
      (0 ≤ al → hllc p Ul Ur Wl Wr = some (physFlux p Wl 0)) ∧
      (ar ≤ 0 → hllc p Ul Ur Wl Wr = some (physFlux p Wr 0)) := by
  obtain ⟨al, ar, am, cp, h, hc, h1, h2, -⟩ := contact_inside hp hl hr
  obtain ⟨al', ar', h', -, h3, h4⟩ := speeds_bounds hp.ok hl hr
  rw [h] at h'; obtain ⟨rfl, rfl⟩ := Prod.mk.inj (Option.some.inj h')
  refine ⟨al, ar, h, fun h0 => ?_, fun h0 => ?_⟩
  · unfold hllc
    rw [h]
    simp only [Option.bind_eq_bind, Option.bind_some]
    rw [hc]
    simp only [Option.bind_some]
    have hb : (if al < 0 then al else 0) = (0:ℝ) := if_neg (by linarith)
    rw [if_pos (by linarith : am ≥ 0), hb, sideFlux_zero hp.ok hl, sub_zero, fdiv_pos (by linarith : 0 < am),
      fdiv_pos (by linarith : 0 < am), div_self (by linarith : am ≠ 0)]
    simp only [Option.bind_some, Option.pure_def, Option.some.injEq, neg_zero, zero_div, zero_mul, add_zero]
    rw [comb_left (physFlux_zeros hl.wf) _ (fun x y => by ring)]
    have e : (if p.iso = true then (0:ℝ) else (physFlux p Wl 0).E) = (physFlux p Wl 0).E := by
      split_ifs with hi
      · exact ((physFlux_zeros hl.wf).1 hi).symm
      · rfl
    dsimp only
    rw [e]
    exact scalars_left (mul_pos hl.d (by linarith)).le (fun n => rfl)
  · unfold hllc
    rw [h]
    simp only [Option.bind_eq_bind, Option.bind_some]
    rw [hc]
    simp only [Option.bind_some]
    have hb : (if ar > 0 then ar else 0) = (0:ℝ) := if_neg (by linarith)
    rw [if_neg (by linarith : ¬ am ≥ 0), hb, sideFlux_zero hp.ok hr, zero_sub, fdiv_pos (by linarith : 0 < -am),
      fdiv_pos (by linarith : 0 < -am), div_self (by linarith : -am ≠ 0)]
    simp only [Option.bind_some, Option.pure_def, Option.some.injEq, zero_div, zero_mul, add_zero]
    rw [comb_right (physFlux_zeros hr.wf) _ (fun x y => by ring)]
    have e : (if p.iso = true then (0:ℝ) else (physFlux p Wr 0).E) = (physFlux p Wr 0).E := by
      split_ifs with hi
      · exact ((physFlux_zeros hr.wf).1 hi).symm
      · rfl
    dsimp only
    rw [e]
    exact scalars_right (mul_neg_of_pos_of_neg hr.d (by linarith)) (fun n => rfl)

/-- Speed and pressure of the contact when the velocities and the pressures of the two states agree. -/
theorem contact_steady (hp : p.Ok) (hl : State p 0 Wl Ul) (hr : State p 0 Wr Ur) (hV : Wl.Vx = Wr.Vx) (hP : press p Wl = press p Wr)
    {al ar : ℝ} (h1 : al < Wl.Vx) (h2 : Wr.Vx < ar) : contact p Ul Ur Wl Wr al ar = some (Wl.Vx, press p Wl) := by
  have hdl := mul_pos hl.d (sub_pos.mpr h1)
  have hdr := mul_pos hr.d (sub_pos.mpr h2)
  have hden : 0 < Wl.d * Wl.Vx - Wl.d * al + -(Wr.d * Wr.Vx - Wr.d * ar) := by linarith
  have hpl : (if p.iso = true then Wl.d * p.cs2 else Wl.P) = press p Wl := by unfold press; split_ifs <;> ring
  have hpr : (if p.iso = true then Wr.d * p.cs2 else Wr.P) = press p Wl := by rw [hP]; unfold press; split_ifs <;> ring
  unfold contact
  rw [hl.eq hp, hr.eq hp]
  dsimp only
  rw [fdiv_pos hden, hpl, hpr]
  simp only [Option.bind_eq_bind, Option.bind_some, Option.pure_def, Option.some.injEq, Prod.mk.injEq, mul_one_div]
  have e1 : (press p Wl + (Wl.Vx - al) * (Wl.d * Wl.Vx) - (press p Wl + (Wr.Vx - ar) * (Wr.d * Wr.Vx))) /
      (Wl.d * Wl.Vx - Wl.d * al + -(Wr.d * Wr.Vx - Wr.d * ar)) = Wl.Vx := by
    rw [div_eq_iff hden.ne', ← hV]; ring
  have e2 : ((Wl.d * Wl.Vx - Wl.d * al) * (press p Wl + (Wr.Vx - ar) * (Wr.d * Wr.Vx)) +
      -(Wr.d * Wr.Vx - Wr.d * ar) * (press p Wl + (Wl.Vx - al) * (Wl.d * Wl.Vx))) /
      (Wl.d * Wl.Vx - Wl.d * al + -(Wr.d * Wr.Vx - Wr.d * ar)) = press p Wl := by
    rw [div_eq_iff hden.ne', ← hV]; ring
  rw [e1, e2, if_pos (press_pos hp hl)]
  exact ⟨rfl, rfl⟩

/-- C34: the HLLC solver keeps contacts and shear layers: if velocity and pressure are the same on both sides (density, transverse velocity
and scalars may differ) the flux is the physical flux of the upwind side.  For every γ. -/
theorem hllc_contact (hp : p.Ok) (hm : p.mhd = false) (hl : State p 0 Wl Ul) (hr : State p 0 Wr Ur) (hV : Wl.Vx = Wr.Vx)
    (hP : press p Wl = press p Wr) :
    hllc p Ul Ur Wl Wr = some (physFlux p (if 0 ≤ Wl.Vx then Wl else Wr) 0) := by
  obtain ⟨al, ar, h, hlt, h1, h2⟩ := speeds_bounds hp hl hr
  unfold hllc
  rw [h]
  simp only [Option.bind_eq_bind, Option.bind_some]
  rw [contact_steady hp hl hr hV hP h1 h2]
  simp only [Option.bind_some]
  have fin : ∀ (W : Prim1D ns) (U : Cons1D ns) (b sm : ℝ) (f : ℝ → ℝ → ℝ) (G : Cons1D ns) (F : Cons1D ns), State p 0 W U → press p W = press p Wl →
      W.Vx = Wl.Vx → (∀ x y, f x y = Wl.Vx / (Wl.Vx - b) * x) → Wl.Vx - b ≠ 0 → sm = -b / (Wl.Vx - b) →
      F = comb p f (sideFlux p U W 0 b) G →
      ({ F with Mx := F.Mx + sm * press p Wl, E := if p.iso then 0 else F.E + sm * press p Wl * Wl.Vx, s := fun _ => 0 } : Cons1D ns) =
        { physFlux p W 0 with s := fun _ => 0 } := by
    intro W U b sm f G F hW hPW hVW hs hne hsm hF
    have z := hW.wf.2 hm
    rw [hF, hW.eq hp, hsm]
    simp only [comb, hs, sideFlux, physFlux, hm, Bool.false_eq_true, if_false, hVW, z.1, z.2, Cons1D.mk.injEq, zero_mul, zero_add,
      energy]
    have hpw : (if p.iso = true then W.d * p.cs2 else W.P) = press p W := by unfold press; split_ifs <;> ring
    rw [hpw, hPW]
    refine ⟨by field_simp, by field_simp; ring, by field_simp; ring, by field_simp; ring, ?_, by ring, by ring, trivial⟩
    cases hi : p.iso
    · have hpw' : W.P = press p Wl := by rw [← hPW]; simp [press, hi]
      simp only [Bool.false_eq_true, if_false, hpw']
      field_simp; ring
    · simp
  by_cases h0 : Wl.Vx ≥ 0
  · rw [if_pos h0]
    have hb : 0 < Wl.Vx - (if al < 0 then al else 0) := by
      split_ifs with hh
      · linarith
      · push Not at hh; linarith
    rw [fdiv_pos hb, fdiv_pos hb]
    simp only [Option.bind_some, Option.pure_def, Option.some.injEq]
    rw [if_pos (show 0 ≤ Wl.Vx from h0)]
    have e := fin Wl Ul (if al < 0 then al else 0) _ (fun x y => Wl.Vx / (Wl.Vx - (if al < 0 then al else 0)) * x + 0 * y)
      (sideFlux p Ur Wr 0 (if ar > 0 then ar else 0)) _ hl rfl rfl (fun x y => by ring) hb.ne' rfl rfl
    rw [← scalars_left (Wr := Wr) (F := physFlux p Wl 0) (mul_nonneg hl.d.le h0) (fun n => rfl), ← e]
    rfl
  · rw [if_neg h0]
    have hb : 0 < (if ar > 0 then ar else 0) - Wl.Vx := by
      split_ifs with hh
      · linarith
      · push Not at hh; linarith
    rw [fdiv_pos hb, fdiv_pos hb]
    simp only [Option.bind_some, Option.pure_def, Option.some.injEq]
    rw [if_neg (show ¬ 0 ≤ Wl.Vx from h0)]
    have hb' : Wl.Vx - (if ar > 0 then ar else 0) ≠ 0 := by linarith
    have e := fin Wr Ur (if ar > 0 then ar else 0) ((if ar > 0 then ar else 0) / ((if ar > 0 then ar else 0) - Wl.Vx))
      (fun x y => 0 * y + -Wl.Vx / ((if ar > 0 then ar else 0) - Wl.Vx) * x) (sideFlux p Ul Wl 0 (if al < 0 then al else 0)) _ hr hP.symm hV.symm
      (fun x y => by
        have : -Wl.Vx / ((if ar > 0 then ar else 0) - Wl.Vx) = Wl.Vx / (Wl.Vx - (if ar > 0 then ar else 0)) := by
          rw [neg_div, ← div_neg]; congr 1; ring
        rw [this]; ring) hb' (by
          rw [neg_div, ← div_neg]; congr 1; ring) rfl
    rw [← scalars_right (Wl := Wl) (F := physFlux p Wr 0) (mul_neg_of_pos_of_neg hr.d (by rw [← hV]; linarith)) (fun n => rfl), ← e]
    rfl

/-- C34: for equal states the HLLC flux is the physical flux. -/
theorem hllc_consistent (hp : p.Ok) (hm : p.mhd = false) (h : State p 0 W U) : hllc p U U W W = some (physFlux p W 0) := by
  rw [hllc_contact hp hm h h rfl rfl, ite_self]

theorem contact_mirror (Ul Ur : Cons1D ns) (Wl Wr : Prim1D ns) (al ar : ℝ) {am cp : ℝ} (h : contact p Ul Ur Wl Wr al ar = some (am, cp)) :
    contact p Ur.mirror Ul.mirror Wr.mirror Wl.mirror (-ar) (-al) = some (-am, cp) := by
  unfold contact at h ⊢
  dsimp only [Cons1D.mirror, Prim1D.mirror] at h ⊢
  rw [show -Ur.Mx - Ur.d * -ar = -(Ur.Mx - Ur.d * ar) by ring, show -(-Ul.Mx - Ul.d * -al) = Ul.Mx - Ul.d * al by ring,
    show (-Wr.Vx - -ar) * -Ur.Mx = (Wr.Vx - ar) * Ur.Mx by ring, show (-Wl.Vx - -al) * -Ul.Mx = (Wl.Vx - al) * Ul.Mx by ring,
    add_comm (-(Ur.Mx - Ur.d * ar)) (Ul.Mx - Ul.d * al)]
  cases hd : fdiv 1 (Ul.Mx - Ul.d * al + -(Ur.Mx - Ur.d * ar)) with
  | none => rw [hd] at h; simp at h
  | some t =>
    rw [hd] at h
    simp only [Option.bind_eq_bind, Option.bind_some, Option.pure_def, Option.some.injEq, Prod.mk.injEq] at h ⊢
    obtain ⟨h1, h2⟩ := h
    refine ⟨by rw [← h1]; ring, ?_⟩
    rw [← h2]
    congr 2 <;> ring

/-- C35: the HLLC flux is mirror symmetric (isothermal or γ ≥ 5/4). -/
theorem hllc_mirror (hp : HllcOk p) (hl : State p 0 Wl Ul) (hr : State p 0 Wr Ur) :
    ∃ F, hllc p Ul Ur Wl Wr = some F ∧ hllc p Ur.mirror Ul.mirror Wr.mirror Wl.mirror = some F.mirrorFlux := by
  obtain ⟨al, ar, am, cp, h, hc, h1, h2, -⟩ := contact_inside hp hl hr
  have h' := speeds_mirror hp.ok hl hr h
  rw [neg_zero] at h'
  have hc' := contact_mirror _ _ _ _ _ _ hc
  have ebp : (if -al > 0 then -al else 0) = -(if al < 0 then al else 0 : ℝ) := by
    by_cases c : al < 0
    · rw [if_pos c, if_pos (by linarith)]
    · rw [if_neg c, if_neg (by linarith)]; ring
  have ebm : (if -ar < 0 then -ar else 0) = -(if ar > 0 then ar else 0 : ℝ) := by
    by_cases c : ar > 0
    · rw [if_pos c, if_pos (by linarith)]
    · rw [if_neg c, if_neg (by linarith)]; ring
  have hbm : (if al < 0 then al else 0 : ℝ) ≤ 0 := by split_ifs <;> linarith
  have hbp : 0 ≤ (if ar > 0 then ar else 0 : ℝ) := by split_ifs <;> linarith
  have hbm' : 0 ≤ am → (if al < 0 then al else 0 : ℝ) < am := by intro; split_ifs <;> linarith
  have hbp' : am ≤ 0 → am < (if ar > 0 then ar else 0 : ℝ) := by intro; split_ifs <;> linarith
  unfold hllc
  rw [h, h']
  simp only [Option.bind_eq_bind, Option.bind_some]
  rw [hc, hc']
  simp only [Option.bind_some]
  rw [ebp, ebm]
  rw [← neg_zero (G := ℝ), sideFlux_mirror, sideFlux_mirror, neg_zero]
  generalize (if al < 0 then al else 0 : ℝ) = bm at *
  generalize (if ar > 0 then ar else 0 : ℝ) = bp at *
  generalize sideFlux p Ul Wl 0 bm = Fl at *
  generalize sideFlux p Ur Wr 0 bp = Fr at *
  have fin : ∀ (f g : ℝ → ℝ → ℝ) (sm : ℝ), (∀ x y, g y x = f x y) → (∀ x y, g (-y) (-x) = -f x y) →
      ∃ F, some (scalars Wl Wr { comb p f Fl Fr with Mx := (comb p f Fl Fr).Mx + sm * cp,
                                                       E := if p.iso then 0 else (comb p f Fl Fr).E + sm * cp * am }) = some F ∧
        some (scalars Wr.mirror Wl.mirror { comb p g Fr.mirrorFlux Fl.mirrorFlux with
          Mx := (comb p g Fr.mirrorFlux Fl.mirrorFlux).Mx + sm * cp,
          E := if p.iso then 0 else (comb p g Fr.mirrorFlux Fl.mirrorFlux).E + sm * cp * -am }) = some F.mirrorFlux := by
    intro f g sm e e'
    refine ⟨_, rfl, ?_⟩
    rw [comb_mirror f g e e', ← scalars_mirror]
    congr 2
    unfold Cons1D.mirrorFlux
    dsimp only
    congr 1
    split_ifs
    · simp
    · ring
  rcases lt_trichotomy am 0 with c | c | c
  · rw [if_neg (by linarith), if_pos (by linarith : -am ≥ 0)]
    have hb : 0 < bp - am := by linarith
    rw [fdiv_pos hb, fdiv_pos hb, sub_neg_eq_add, fdiv_pos (by linarith : 0 < -am + bp), fdiv_pos (by linarith : 0 < -am + bp)]
    simp only [Option.bind_some, Option.pure_def, neg_neg]
    rw [show -am + bp = bp - am by ring]
    exact fin _ _ _ (fun x y => by ring) (fun x y => by ring)
  · subst c
    rw [if_pos (by linarith), if_pos (by linarith)]
    have hb1 := hbm' le_rfl
    have hb2 := hbp' le_rfl
    rw [fdiv_pos (by linarith : 0 < 0 - bm), fdiv_pos (by linarith : 0 < 0 - bm), fdiv_pos (by linarith : 0 < -0 - -bp),
      fdiv_pos (by linarith : 0 < -0 - -bp)]
    simp only [Option.bind_some, Option.pure_def]
    have e1 : -bm / (0 - bm) = 1 := by rw [zero_sub]; exact div_self (by linarith)
    have e2 : -(-bp) / (-0 - -bp) = 1 := by rw [neg_zero, zero_sub]; exact div_self (by linarith)
    rw [e1, e2]
    exact fin _ _ _ (fun x y => by ring) (fun x y => by ring)
  · rw [if_pos (by linarith), if_neg (by linarith)]
    have hb : 0 < am - bm := by linarith
    rw [fdiv_pos hb, fdiv_pos hb, sub_neg_eq_add, fdiv_pos (by linarith : 0 < -bm + am), fdiv_pos (by linarith : 0 < -bm + am)]
    simp only [Option.bind_some, Option.pure_def, neg_neg]
    rw [show -bm + am = am - bm by ring]
    exact fin _ _ _ (fun x y => by ring) (fun x y => by ring)

/-- `F` is the flux at a wave front moving with `b`: it follows from the flux `f` and state `U` on the outer side by the jump condition, and
from the state `Us` on the inner side, which moves with the speed `am` and has the pressure `cp`. -/
structure Jump (p : Phys) (am cp b : ℝ) (f U F Us : Cons1D ns) : Prop where
  d : F.d - f.d = b * (Us.d - U.d)
  Mx : F.Mx - f.Mx = b * (Us.Mx - U.Mx)
  My : F.My - f.My = b * (Us.My - U.My)
  Mz : F.Mz - f.Mz = b * (Us.Mz - U.Mz)
  E : F.E - f.E = b * (Us.E - U.E)
  d' : F.d = am * Us.d
  Mx' : F.Mx = am * Us.Mx + cp
  My' : F.My = am * Us.My
  Mz' : F.Mz = am * Us.Mz
  E' : F.E = if p.iso then 0 else (Us.E + cp) * am

/-- C34: inside the fan (`al < 0 < ar`) the HLLC flux satisfies the jump condition at the outer wave on the upwind side of the contact,
for a middle state of positive density that moves with the contact; its momentum is density times contact speed unless the solver has
replaced a negative contact pressure by zero. -/
theorem hllc_star (hp : HllcOk p) (hl : State p 0 Wl Ul) (hr : State p 0 Wr Ur) {al ar : ℝ}
    (h : speeds p Ul Ur Wl Wr 0 = some (al, ar)) (hal : al < 0) (har : 0 < ar) :
    ∃ am cp F Us, al < am ∧ am < ar ∧ 0 ≤ cp ∧ hllc p Ul Ur Wl Wr = some F ∧ 0 < Us.d ∧ (0 < cp → Us.Mx = am * Us.d) ∧
      (if 0 ≤ am then Jump p am cp al (physFlux p Wl 0) Ul F Us else Jump p am cp ar (physFlux p Wr 0) Ur F Us) := by
  obtain ⟨al', ar', am, cp, h', hc, h1, h2, hcp⟩ := contact_inside hp hl hr
  rw [h] at h'; obtain ⟨rfl, rfl⟩ := Prod.mk.inj (Option.some.inj h')
  obtain ⟨al', ar', h', -, h3, h4⟩ := speeds_bounds hp.ok hl hr
  rw [h] at h'; obtain ⟨rfl, rfl⟩ := Prod.mk.inj (Option.some.inj h')
  have hdl := mul_pos hl.d (sub_pos.mpr h3)
  have hdr := mul_pos hr.d (sub_pos.mpr h4)
  have hden : 0 < Wl.d * Wl.Vx - Wl.d * al + -(Wr.d * Wr.Vx - Wr.d * ar) := by linarith
  have hpl : (if p.iso = true then Wl.d * p.cs2 else Wl.P) = press p Wl := by unfold press; split_ifs <;> ring
  have hpr : (if p.iso = true then Wr.d * p.cs2 else Wr.P) = press p Wr := by unfold press; split_ifs <;> ring
  -- the contact, when its pressure is not clipped
  have hcc : 0 < cp → press p Wl + (Wl.Vx - al) * (Wl.d * Wl.Vx) - cp = am * (Wl.d * (Wl.Vx - al)) ∧
      press p Wr + (Wr.Vx - ar) * (Wr.d * Wr.Vx) - cp = am * (Wr.d * (Wr.Vx - ar)) := by
    intro hpos
    unfold contact at hc
    rw [hl.eq hp.ok, hr.eq hp.ok] at hc
    dsimp only at hc
    rw [fdiv_pos hden, hpl, hpr] at hc
    simp only [Option.bind_eq_bind, Option.bind_some, Option.pure_def, Option.some.injEq, Prod.mk.injEq, mul_one_div] at hc
    obtain ⟨c1, c2⟩ := hc
    split_ifs at c2 with hh
    · have hne := hden.ne'
      constructor
      · rw [← c1, ← c2, div_mul_eq_mul_div, eq_div_iff hne, sub_mul, div_mul_cancel₀ _ hne]; ring
      · rw [← c1, ← c2, div_mul_eq_mul_div, eq_div_iff hne, sub_mul, div_mul_cancel₀ _ hne]; ring
    · linarith
  unfold hllc
  rw [h]
  simp only [Option.bind_eq_bind, Option.bind_some]
  rw [hc]
  simp only [Option.bind_some]
  rw [if_pos hal, if_pos har]
  by_cases h0 : am ≥ 0
  · rw [if_pos h0]
    have hb : 0 < am - al := by linarith
    rw [fdiv_pos hb, fdiv_pos hb]
    simp only [Option.bind_some, Option.pure_def]
    set f := physFlux p Wl 0
    refine ⟨am, cp, _, ⟨(f.d - al * Ul.d) / (am - al), (f.Mx - al * Ul.Mx - cp) / (am - al), (f.My - al * Ul.My) / (am - al),
      (f.Mz - al * Ul.Mz) / (am - al), if p.iso then 0 else (f.E - al * Ul.E - cp * am) / (am - al), 0, 0, fun _ => 0⟩, h1, h2, hcp, rfl,
      ?_, ?_, ?_⟩
    · rw [hl.eq hp.ok]
      show 0 < (Wl.d * Wl.Vx - al * Wl.d) / (am - al)
      apply div_pos _ hb; linarith
    · intro hpos
      obtain ⟨c1, -⟩ := hcc hpos
      have z := hl.wf.2 hp.hydro
      show (f.Mx - al * Ul.Mx - cp) / (am - al) = am * ((f.d - al * Ul.d) / (am - al))
      rw [hl.eq hp.ok, ← mul_div_assoc]
      congr 1
      simp only [f, physFlux, hp.hydro, z.1, z.2, Bool.false_eq_true, if_false]
      linear_combination c1
    · rw [if_pos h0]
      have hne := hb.ne'
      rw [sideFlux_map2 hp.ok hl, sideFlux_map2 hp.ok hr]
      have z := hl.zeros hp.ok
      have zf : f.Zeros p := physFlux_zeros hl.wf
      constructor
      · simp only [scalars, comb, Cons1D.map2]; field_simp; ring
      · simp only [scalars, comb, Cons1D.map2]; field_simp; ring
      · simp only [scalars, comb, Cons1D.map2]; field_simp; ring
      · simp only [scalars, comb, Cons1D.map2]; field_simp; ring
      · cases hi : p.iso
        · simp only [scalars, comb, Cons1D.map2, hi, Bool.false_eq_true, if_false]; field_simp; ring
        · simp only [scalars, hi, if_true, z.1 hi, zf.1 hi]; ring
      · simp only [scalars, comb, Cons1D.map2]; field_simp; ring
      · simp only [scalars, comb, Cons1D.map2]; field_simp; ring
      · simp only [scalars, comb, Cons1D.map2]; field_simp; ring
      · simp only [scalars, comb, Cons1D.map2]; field_simp; ring
      · cases hi : p.iso
        · simp only [scalars, comb, Cons1D.map2, hi, Bool.false_eq_true, if_false]; field_simp; ring
        · simp only [scalars, if_true]
  · rw [if_neg h0]
    have hb : 0 < ar - am := by linarith
    have hb' : am - ar ≠ 0 := by linarith
    rw [fdiv_pos hb, fdiv_pos hb]
    simp only [Option.bind_some, Option.pure_def]
    rw [show -am / (ar - am) = am / (am - ar) by rw [neg_div, ← div_neg]; congr 1; ring,
      show ar / (ar - am) = -ar / (am - ar) by rw [neg_div, ← div_neg]; congr 1; ring]
    set f := physFlux p Wr 0
    refine ⟨am, cp, _, ⟨(f.d - ar * Ur.d) / (am - ar), (f.Mx - ar * Ur.Mx - cp) / (am - ar), (f.My - ar * Ur.My) / (am - ar),
      (f.Mz - ar * Ur.Mz) / (am - ar), if p.iso then 0 else (f.E - ar * Ur.E - cp * am) / (am - ar), 0, 0, fun _ => 0⟩, h1, h2, hcp, rfl,
      ?_, ?_, ?_⟩
    · rw [hr.eq hp.ok]
      show 0 < (Wr.d * Wr.Vx - ar * Wr.d) / (am - ar)
      apply div_pos_of_neg_of_neg <;> linarith
    · intro hpos
      obtain ⟨-, c1⟩ := hcc hpos
      have z := hr.wf.2 hp.hydro
      show (f.Mx - ar * Ur.Mx - cp) / (am - ar) = am * ((f.d - ar * Ur.d) / (am - ar))
      rw [hr.eq hp.ok, ← mul_div_assoc]
      congr 1
      simp only [f, physFlux, hp.hydro, z.1, z.2, Bool.false_eq_true, if_false]
      linear_combination c1
    · rw [if_neg (show ¬ 0 ≤ am from h0)]
      rw [sideFlux_map2 hp.ok hl, sideFlux_map2 hp.ok hr]
      have z := hr.zeros hp.ok
      have zf : f.Zeros p := physFlux_zeros hr.wf
      constructor
      · simp only [scalars, comb, Cons1D.map2]; field_simp; ring
      · simp only [scalars, comb, Cons1D.map2]; field_simp; ring
      · simp only [scalars, comb, Cons1D.map2]; field_simp; ring
      · simp only [scalars, comb, Cons1D.map2]; field_simp; ring
      · cases hi : p.iso
        · simp only [scalars, comb, Cons1D.map2, hi, Bool.false_eq_true, if_false]; field_simp; ring
        · simp only [scalars, hi, if_true, z.1 hi, zf.1 hi]; ring
      · simp only [scalars, comb, Cons1D.map2]; field_simp; ring
      · simp only [scalars, comb, Cons1D.map2]; field_simp; ring
      · simp only [scalars, comb, Cons1D.map2]; field_simp; ring
      · simp only [scalars, comb, Cons1D.map2]; field_simp; ring
      · cases hi : p.iso
        · simp only [scalars, comb, Cons1D.map2, hi, Bool.false_eq_true, if_false]; field_simp; ring
        · simp only [scalars, if_true]

/-- C34: whenever the HLLC solver returns a flux, the scalars move with the mass flux from the upwind side. -/
theorem hllc_scalars (Ul Ur : Cons1D ns) (Wl Wr : Prim1D ns) {F : Cons1D ns} (h : hllc p Ul Ur Wl Wr = some F) (n : Fin ns) :
    F.s n = F.d * if F.d ≥ 0 then Wl.r n else Wr.r n := by
  unfold hllc at h
  simp only [Option.bind_eq_bind, Option.bind_eq_some_iff, Option.pure_def] at h
  obtain ⟨x, -, y, -, h⟩ := h
  split at h
  all_goals
    simp only [Option.bind_eq_some_iff, Option.some.injEq] at h
    obtain ⟨_, -, _, -, _, -, h⟩ := h
    rw [← h]
    exact scalars_s _ n

/-! ## γ close to 1 -/

/-- γ = 21/20. -/
def phH : Phys := ⟨false, false, 21/20, 0, 1/100⟩
/-- Dense hot gas, -/
def wHl : Prim1D 0 := ⟨25, -41/4, 0, 0, 24000/7, 0, 0, fun _ => 0⟩
/-- hit by thin cold gas. -/
def wHr : Prim1D 0 := ⟨1, -65/4, 0, 0, 5, 0, 0, fun _ => 0⟩

theorem phH_ok : phH.Ok := ⟨by simp [phH], by norm_num [phH], by norm_num [phH], by norm_num [phH]⟩

theorem sqrt_of_sq {x y : ℝ} (hy : 0 ≤ y) (h : x = y ^ 2) : Real.sqrt x = y := by rw [h, Real.sqrt_sq hy]

/-- C34 is false for the HLLC solver when γ is close to 1 (here 21/20): there are physical states for which all waves of the fan move to
the left, the mass flux of the right state is negative, and the solver returns a positive mass flux. -/
theorem hllc_upwind_false : ∃ (p : Phys) (Wl Wr : Prim1D 0) (Ul Ur F : Cons1D 0) (al ar : ℝ), p.Ok ∧ p.mhd = false ∧ State p 0 Wl Ul ∧
    State p 0 Wr Ur ∧ speeds p Ul Ur Wl Wr 0 = some (al, ar) ∧ ar < 0 ∧ hllc p Ul Ur Wl Wr = some F ∧ (physFlux p Wr 0).d < 0 ∧ 0 < F.d := by
  obtain ⟨Ul, hl⟩ := state_of phH phH_ok 0 wHl (by simp [Prim1D.Wf, phH, wHl]) (by norm_num [wHl]) (by norm_num [wHl])
  obtain ⟨Ur, hr⟩ := state_of phH phH_ok 0 wHr (by simp [Prim1D.Wf, phH, wHr]) (by norm_num [wHr]) (by norm_num [wHr])
  have eUl := hl.eq phH_ok
  have eUr := hr.eq phH_ok
  obtain ⟨r, c, cl, cr, h1, h2, h3, h4, h5, h6, h7, h8⟩ := speeds_spec phH_ok hl hr
  have hcl : cl = 12 := by
    obtain ⟨c', -, -, -, e, e'⟩ := sideC_pos phH_ok hl
    rw [h3] at e'; rw [Option.some.inj e', e rfl]
    apply sqrt_of_sq (by norm_num); norm_num [soundSq, phH, wHl]
  have hcr : cr ≤ 3 := by
    obtain ⟨c', -, -, -, e, e'⟩ := sideC_pos phH_ok hr
    rw [h4] at e'; rw [Option.some.inj e', e rfl]
    apply Real.sqrt_le_iff.mpr; norm_num [soundSq, phH, wHr]
  have s25 : Real.sqrt wHl.d = 5 := sqrt_of_sq (by norm_num) (by norm_num [wHl])
  have s1 : Real.sqrt wHr.d = 1 := sqrt_of_sq (by norm_num) (by norm_num [wHr])
  rw [roeAvg_eq _ _ _ hl.d hr.d] at h1
  have h1 := Option.some.inj h1
  rw [s25, s1] at h1
  have hv : r.v1 = -45/4 := by rw [← h1]; norm_num [wHl, wHr]
  have hc : c = 11 := by
    unfold roeC at h2
    simp only [show phH.mhd = false from rfl, show phH.iso = false from rfl, Bool.false_eq_true, if_false] at h2
    rw [fsqrt_some h2, fmax_eq]
    apply sqrt_of_sq (by norm_num)
    rw [← h1, eUl, eUr]
    norm_num [phH, wHl, wHr, energy, magP, Phys.gamma1]
  have hal : min (r.v1 - c) (wHl.Vx - cl) = -89/4 := by rw [hv, hc, hcl]; norm_num [wHl]
  have har : max (r.v1 + c) (wHr.Vx + cr) = -1/4 := by
    rw [hv, hc, max_eq_left]
    · norm_num
    · show -65/4 + cr ≤ _; linarith
  rw [hal, har] at h8
  have hcon : contact phH Ul Ur wHl wHr (-89/4) (-1/4) = some (155/553, if (149025:ℝ)/553 > 0 then 149025/553 else 0) := by
    unfold contact
    rw [eUl, eUr]
    norm_num [phH, wHl, wHr, fdiv]
  refine ⟨phH, wHl, wHr, Ul, Ur, _, _, _, phH_ok, rfl, hl, hr, h8, by norm_num, by
    unfold hllc
    rw [h8]
    simp only [Option.bind_eq_bind, Option.bind_some]
    rw [hcon]
    simp only [Option.bind_some]
    rw [if_pos (by norm_num : (155/553 : ℝ) ≥ 0), if_pos (by norm_num : (-89/4 : ℝ) < 0), fdiv_pos (by norm_num), fdiv_pos (by norm_num)]
    rfl, by norm_num [physFlux, wHr], ?_⟩
  simp only [scalars, comb, sideFlux]
  rw [eUl]
  norm_num [wHl]

/-! ## The hypotheses are met -/

/-- Adiabatic hydrodynamics with γ = 7/5. -/
def phG : Phys := ⟨false, false, 7/5, 0, 1/100⟩
example : HllcOk phG := ⟨⟨by simp [phG], by norm_num [phG], by norm_num [phG], by norm_num [phG]⟩, rfl, by norm_num [phG]⟩
/-- Isothermal hydrodynamics. -/
def phI : Phys := ⟨true, false, 0, 2, 1/100⟩
example : HllcOk phI := ⟨⟨by norm_num [phI], by simp [phI], by simp [phI], by norm_num [phI]⟩, rfl, by simp [phI]⟩
/-- A shock tube with one scalar. -/
example : ∃ (Ul Ur F : Cons1D 1), State phG 0 (⟨1, 0, 1, 0, 1, 0, 0, fun _ => 1⟩ : Prim1D 1) Ul ∧
    State phG 0 (⟨1/8, 0, -1, 0, 1/10, 0, 0, fun _ => 0⟩ : Prim1D 1) Ur ∧
    hllc phG Ul Ur ⟨1, 0, 1, 0, 1, 0, 0, fun _ => 1⟩ ⟨1/8, 0, -1, 0, 1/10, 0, 0, fun _ => 0⟩ = some F := by
  have hok : HllcOk phG := ⟨⟨by simp [phG], by norm_num [phG], by norm_num [phG], by norm_num [phG]⟩, rfl, by norm_num [phG]⟩
  obtain ⟨Ul, hl⟩ := state_of phG hok.ok 0 (⟨1, 0, 1, 0, 1, 0, 0, fun _ => 1⟩ : Prim1D 1) (by simp [Prim1D.Wf, phG]) (by norm_num) (by norm_num)
  obtain ⟨Ur, hr⟩ := state_of phG hok.ok 0 (⟨1/8, 0, -1, 0, 1/10, 0, 0, fun _ => 0⟩ : Prim1D 1) (by simp [Prim1D.Wf, phG]) (by norm_num) (by norm_num)
  obtain ⟨F, h, -⟩ := hllc_mirror hok hl hr
  exact ⟨Ul, Ur, F, hl, hr, h⟩

end
end Athena.Hydro
