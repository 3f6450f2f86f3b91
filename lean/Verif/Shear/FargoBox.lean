import Verif.Shear.Fargo

/-!
# Orbital advection in the shearing box

The flow of the shearing box, the number of extra ghost zones, what the step does to a uniform
state, and three things it does not do.
-/

namespace Athena.Shear

/-- Numbers of a shearing box: `qshear`, `Omega_0`, `dt`, the left edge of the Grid along x1
and the sizes of a zone. -/
structure SBox where
  q : ℝ
  om : ℝ
  dt : ℝ
  x1min : ℝ
  dx1 : ℝ
  dx2 : ℝ
  dx3 : ℝ

/-- `cc_pos`: src/cc_pos.c. -/
noncomputable def SBox.x1 (B : SBox) (is i : ℤ) : ℝ := B.x1min + ((i - is : ℤ) + 1 / 2) * B.dx1

/-- `Fargo` in the shearing box: src/bvals_shear.c:4968, 5155, 5227. -/
noncomputable def SBox.adv (B : SBox) (o : Order) (C : Cut) (nf is ie : ℤ) (three mhd : Bool) : Adv where
  o := o
  cut := C
  nf := nf
  is := is
  ie := ie
  three := three
  mhd := mhd
  yc := fun i => -B.q * B.om * B.x1 is i * B.dt
  yf := fun i => -B.q * B.om * (B.x1 is i - 1 / 2 * B.dx1) * B.dt
  qd := fun _ => B.q * B.om * B.dt
  rc := fun _ => 1
  rf := fun _ => 1
  dx1 := B.dx1
  dx2 := B.dx2
  dx3 := B.dx3

/-- Energy which is neither kinetic nor magnetic. -/
noncomputable def heat (u : Q → ℝ) : ℝ :=
  u .e - (u .m1 ^ 2 + u .m2 ^ 2 + u .m3 ^ 2) / (2 * u .d) -
    (u .b1c ^ 2 + u .b2c ^ 2 + u .b3c ^ 2) / 2

/-- A uniform state. -/
noncomputable def flatQ (u : Q → ℝ) : Q → ℤ → ℤ → ℤ → ℝ := fun v _ _ _ => u v

theorem fflux_const (A : Adv) (hd : 0 < A.dx2) (y c : ℝ) (j : ℤ) :
    fflux A y (fun _ => c) j = y / A.dx2 * c := by
  unfold fflux
  rw [whole_const, ← A.joff_eps hd y]
  have : remapFlux A.o (fun _ => c) (A.eps y) (j - A.joff y) = A.eps y * c := by
    cases A.o
    · simp only [remapFlux, flux2]
      rw [slope_const rfl, slope_const rfl]
      split_ifs <;> ring
    · simp only [remapFlux, flux3]
      have u : ∀ m, uHalf (fun _ => c) m = c := by
        intro m
        rw [uHalf_quad (c := 0) (by ring) (by ring)]
        ring
      have e : ∀ m, edges (fun _ => c) m = (c, c) := by
        intro m
        rw [edges_eq, u, u]
        simp [monotone]
      rw [e, e]
      simp only [rightPart, leftPart]
      split_ifs <;> ring
  rw [this]
  ring

/-- **A uniform state under the shear.**  The step leaves density, momenta, passive scalars and the
field along x1 and x3 of a uniform state alone, stretches the field along x1 into x2 at the rate
of the shear, and the heat changes by the work of the Reynolds stress and nothing else: the energy
the field gains is put into the total. -/
theorem fargo_uniform {B : SBox} {o : Order} {C : Cut} {nf is ie : ℤ} {three : Bool}
    (h : (B.adv o C nf is ie three true).Fit) (h1 : 0 < B.dx1) {stale U R : Q → Fld} {u : Q → ℝ}
    (c1 : u .b1c = u .b1) (c2 : u .b2c = u .b2) (c3 : u .b3c = u .b3)
    (hU : HoldsQ (B.adv o C nf is ie three true) U (flatQ u))
    (hB : ∀ k i l j, U .b2 k i l j = u .b2) 
    (hR : fargo (B.adv o C nf is ie three true) stale U = .ok R) (k : ℤ) {i : ℤ} (i0 : is ≤ i) (i1 : i ≤ ie)
    {l j : ℤ} (l0 : 0 ≤ l) (l1 : l < C.ngr) (a : C.js ≤ j) (b : j ≤ C.je) :
    (∀ v, v.centred → v ≠ .e → R v k i l j = u v) ∧
    R .b1 k i l j = u .b1 ∧ R .b3 k i l j = u .b3 ∧
    R .b2 k i l j = u .b2 - B.q * B.om * B.dt * u .b1 ∧
    R .b1c k i l j = u .b1c ∧ R .b3c k i l j = u .b3c ∧
    R .b2c k i l j = u .b2c - B.q * B.om * B.dt * u .b1c ∧
    heat (fun v => R v k i l j) = heat u + B.q * B.om * B.dt * (u .m1 * u .m2 / u .d) := by
  set A := B.adv o C nf is ie three true with hA
  have mhd : A.mhd = true := rfl
  have per : ∀ v k i m, flatQ u v k i (m + A.cut.total) = flatQ u v k i m := fun _ _ _ _ => rfl
  have hd : 0 < A.dx2 := h.dx
  have hd' : 0 < B.dx2 := h.dx
  have cen : ∀ v, v.centred → v ≠ .e → R v k i l j = u v := by
    intro v hv he
    rw [fargo_centred h hU per hR hv k (i := i) i0 (by show i ≤ ie + 1; omega) l l0 l1 j a b]
    have e : A.sourced (flatQ u) v k i = fun _ => u v := by
      funext m
      cases v <;> first | rfl | exact absurd rfl he
    rw [e, carried_const]
  have fb1 : ∀ k i, is ≤ i → i ≤ ie + 1 → R .b1 k i l j = u .b1 := by
    intro k i i0 i1
    rw [(fargo_faces h mhd hU per hR k (i := i) i0 i1).1 l l0 l1 j a b]
    exact carried_const A _ _ _
  have fb3 : ∀ k, R .b3 k i l j = u .b3 := by
    intro k
    rw [(fargo_faces h mhd hU per hR k (i := i) i0 (by show i ≤ ie + 1; omega)).2 l l0 l1 j a b]
    exact carried_const A _ _ _
  have fb2 : ∀ j, C.js ≤ j → j ≤ C.je + 1 → R .b2 k i l j = u .b2 - B.q * B.om * B.dt * u .b1 := by
    intro j a b
    rw [fargo_b2 h mhd hU per hR k (i := i) i0 i1 l0 l1 a b (hB _ _ _ _)]
    have g : ∀ v k i, flatQ u v k i = fun _ => u v := fun _ _ _ => rfl
    unfold Adv.induced
    simp only [g, fflux_const A hd]
    rw [hA]
    simp only [SBox.adv, SBox.x1, flatQ, sub_self, mul_zero]
    rw [show (if three = true then (0 : ℝ) else 0) = 0 by split_ifs <;> rfl] 
    push_cast
    field_simp
    ring
  have e1 : R .b1c k i l j = u .b1c := by
    obtain ⟨e, -⟩ := fargo_out hR
    have p : R .b1c k i l j = 1 / 2 * (1 / 1 * R .b1 k i l j + 1 / 1 * R .b1 k (i + 1) l j) := by
      rw [e]; rfl
    rw [p, fb1 k i i0 (by omega), fb1 k (i + 1) (by omega) (by omega), c1]
    ring
  have e2 : R .b2c k i l j = u .b2c - B.q * B.om * B.dt * u .b1c := by
    obtain ⟨e, -⟩ := fargo_out hR
    have p : R .b2c k i l j = 1 / 2 * (R .b2 k i l j + R .b2 k i l (j + 1)) := by
      rw [e]; rfl
    rw [p, fb2 j a (by omega), fb2 (j + 1) (by omega) (by omega), c1, c2]
    ring
  have e3 : R .b3c k i l j = u .b3c := by
    obtain ⟨e, -⟩ := fargo_out hR
    have p : R .b3c k i l j = if three then 1 / 2 * (R .b3 k i l j + R .b3 (k + 1) i l j) else U .b3c k i l j := by
      rw [e]; rfl
    rw [p, fb3 k, fb3 (k + 1), hU .b3c k i l l0 l1 j a b, c3]
    split_ifs
    · ring
    · exact c3
  refine ⟨cen, fb1 k i i0 (by omega), fb3 k, fb2 j a (by omega), e1, e3, e2, ?_⟩
  unfold heat
  dsimp only
  rw [cen .d trivial (by decide), cen .m1 trivial (by decide), cen .m2 trivial (by decide),
    cen .m3 trivial (by decide), e1, e2, e3]
  have ee : R .e k i l j = u .e + (B.q * B.om * B.dt * (u .m1 * u .m2 / u .d) +
      ((u .b2c - B.q * B.om * B.dt * u .b1c) ^ 2 - u .b2c ^ 2) / 2) := by
    rw [fargo_centred h hU per hR (v := .e) trivial k (i := i) i0 (by show i ≤ ie + 1; omega) l l0 l1 j a b]
    exact carried_const A _ _ _
  rw [ee]
  ring

/-! ## The extra ghost zones -/

/-- `nfghost`: src/bvals_shear.c:5467-5470. -/
noncomputable def nfghost (ng : ℤ) (cour xmin xmax : ℝ) : ℤ :=
  ng + (cTrunc (3 / 2 * cour * max |xmin| |xmax|) + 2)

theorem cTrunc_abs_le {x b : ℝ} (hb : |x| ≤ b) : |cTrunc x| ≤ ⌊b⌋ := by
  obtain ⟨h1, h2⟩ := abs_le.1 hb
  rw [abs_le]
  unfold cTrunc
  split_ifs with h
  · have : 0 ≤ ⌊x⌋ := Int.floor_nonneg.2 h
    exact ⟨by have := Int.floor_mono h2; omega, Int.floor_mono h2⟩
  · have e : ⌈x⌉ = -⌊-x⌋ := by rw [Int.floor_neg]; ring
    have p : ⌊-x⌋ ≤ ⌊b⌋ := Int.floor_mono (by linarith)
    have q : 0 ≤ ⌊-x⌋ := Int.floor_nonneg.2 (by linarith)
    rw [e]
    omega

/-- **When the step is never refused.**  With time steps of at most `CourNo*dx2/c` (src/new_dt.c)
and a shear rate of at most `3/2` times `c`, no Grid of the box stops with "FARGO offset
exceeded", provided `3/4*CourNo*dx1` is at most 2 (the code computes one column of zones beyond
the box). -/
theorem fargo_runs {B : SBox} {o : Order} {C : Cut} {is ie : ℤ} {three mhd : Bool} {cour xmin xmax c : ℝ}
    (h0 : 0 ≤ cour) (hd1 : 0 < B.dx1) (hd2 : 0 < B.dx2) (hq : 0 ≤ B.q * B.om) (ht : 0 ≤ B.dt)
    (hc : 0 < c) (hdt : B.dt ≤ cour * B.dx2 / c) (hqc : B.q * B.om ≤ 3 / 2 * c)
    (hx : 3 / 4 * cour * B.dx1 ≤ 2)
    (left : xmin ≤ B.x1min) (right : B.x1min + (ie - is + 1 : ℤ) * B.dx1 ≤ xmax) (stale U : Q → Fld) :
    fargo (B.adv o C (nfghost C.ng cour xmin xmax) is ie three mhd) stale U =
      .ok ((B.adv o C (nfghost C.ng cour xmin xmax) is ie three mhd).out stale U) := by
  set A := B.adv o C (nfghost C.ng cour xmin xmax) is ie three mhd with hA
  set M := max |xmin| |xmax| with hM
  have m1 : |xmin| ≤ M := le_max_left _ _
  have m2 : |xmax| ≤ M := le_max_right _ _
  have M0 : 0 ≤ M := le_trans (abs_nonneg _) m1
  have qt : B.q * B.om * B.dt ≤ 3 / 2 * cour * B.dx2 := by
    have : B.q * B.om * B.dt ≤ 3 / 2 * c * (cour * B.dx2 / c) := by
      apply mul_le_mul hqc hdt ht (by positivity)
    rw [show 3 / 2 * c * (cour * B.dx2 / c) = 3 / 2 * cour * B.dx2 by field_simp] at this
    exact this
  have near : ∀ x : ℝ, |x| ≤ M + 1 / 2 * B.dx1 → ¬A.far (-B.q * B.om * x * B.dt) := by
    intro x hx'
    have bound : |(-B.q * B.om * x * B.dt) / A.dx2| ≤ 3 / 2 * cour * M + 2 := by
      have e : (-B.q * B.om * x * B.dt) / A.dx2 = -(B.q * B.om * B.dt / B.dx2 * x) := by
        show (-B.q * B.om * x * B.dt) / B.dx2 = _
        ring
      rw [e, abs_neg, abs_mul, abs_of_nonneg (by positivity)]
      have r : B.q * B.om * B.dt / B.dx2 ≤ 3 / 2 * cour := by
        rw [div_le_iff₀ hd2]; exact qt
      have : B.q * B.om * B.dt / B.dx2 * |x| ≤ 3 / 2 * cour * (M + 1 / 2 * B.dx1) :=
        mul_le_mul r hx' (abs_nonneg _) (by positivity)
      linarith
    have t := cTrunc_abs_le bound
    rw [show 3 / 2 * cour * M + 2 = 3 / 2 * cour * M + ((2 : ℤ) : ℝ) by norm_num, Int.floor_add_intCast] at t
    unfold Adv.far
    have e1 : A.fcut.js - A.cut.js = ⌊3 / 2 * cour * M⌋ + 2 := by
      show nfghost C.ng cour xmin xmax - C.ng = _
      unfold nfghost cTrunc
      rw [if_pos (by positivity)]
      ring
    rw [e1]
    exact not_lt.2 t
  unfold fargo
  rw [if_neg]
  rintro ⟨i, i0, i1, hfar⟩
  have i0 : is ≤ i := i0
  have i1 : i ≤ ie + 1 := i1
  have lo : B.x1min ≤ B.x1 is i - 1 / 2 * B.dx1 := by
    unfold SBox.x1
    have : (0 : ℝ) ≤ ((i - is : ℤ) : ℝ) := by exact_mod_cast (by omega : 0 ≤ i - is)
    nlinarith
  have hi : B.x1 is i - 1 / 2 * B.dx1 ≤ xmax := by
    unfold SBox.x1
    have : ((i - is : ℤ) : ℝ) ≤ ((ie - is + 1 : ℤ) : ℝ) := by exact_mod_cast (by omega : i - is ≤ ie - is + 1)
    nlinarith
  have n1 := neg_abs_le xmin
  have n2 := le_abs_self xmax
  rcases hfar with f | ⟨-, f⟩
  · exact near _ (abs_le.2 ⟨by linarith, by linarith⟩) f
  · exact near _ (abs_le.2 ⟨by linarith, by linarith⟩) f

/-- A shearing box of sixteen zones of size 1 along x1, centred on the origin, with a sound speed
of 1/10. -/
noncomputable def coldBox : SBox := ⟨3 / 2, 1, 4, -8, 1, 1, 1⟩

/-- **The number of extra ghost zones supposes a sound speed of 1**: it is not enough for every
time step the Courant condition allows.  A colder disk stops the run. -/
theorem fargo_runs_false : ¬∀ (B : SBox) (o : Order) (C : Cut) (is ie : ℤ) (three mhd : Bool) (cour xmin xmax c : ℝ)
    (stale U : Q → Fld), C.Fit → 0 < cour → cour ≤ 1 → 0 < B.dx1 → 0 < B.dx2 → 0 < B.dt → 0 < c →
    B.dt ≤ cour * B.dx2 / c → xmin = B.x1min → xmax = B.x1min + (ie - is + 1 : ℤ) * B.dx1 →
    fargo (B.adv o C (nfghost C.ng cour xmin xmax) is ie three mhd) stale U ≠ .fatal := by
  intro h
  refine h coldBox .second ⟨1, 16, 4⟩ 4 19 false false (2 / 5) (-8) 8 (1 / 10) (fun _ _ _ _ _ => 0)
    (fun _ _ _ _ _ => 1) ⟨by norm_num, by norm_num, by norm_num⟩ (by norm_num) (by norm_num)
    (by norm_num [coldBox]) (by norm_num [coldBox]) (by norm_num [coldBox]) (by norm_num)
    (by norm_num [coldBox]) (by norm_num [coldBox]) (by norm_num [coldBox]) ?_
  unfold fargo
  rw [if_pos]
  refine ⟨4, by norm_num [SBox.adv], by norm_num [SBox.adv], Or.inl ?_⟩
  unfold Adv.far Adv.joff
  have e1 : (coldBox.adv .second ⟨1, 16, 4⟩ (nfghost 4 (2 / 5) (-8) 8) 4 19 false false).yc 4 / coldBox.dx2 = ((45 : ℤ) : ℝ) := by
    norm_num [SBox.adv, SBox.x1, coldBox]
  have e2 : nfghost 4 (2 / 5) (-8) 8 = 10 := by
    unfold nfghost cTrunc
    have : ⌊(3 / 2 * (2 / 5) * max |(-8 : ℝ)| |8|)⌋ = 4 := by
      rw [Int.floor_eq_iff]
      norm_num
    rw [this]
    norm_num
  show |cTrunc ((coldBox.adv .second ⟨1, 16, 4⟩ (nfghost 4 (2 / 5) (-8) 8) 4 19 false false).yc 4 / coldBox.dx2)| >
    nfghost 4 (2 / 5) (-8) 8 - 4
  rw [e1, e2, cTrunc_int]
  norm_num

end Athena.Shear
