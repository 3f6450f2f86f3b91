import Verif.Hydro.RsolveLemmas

/-!
# C34, C35: consistency, upwinding and mirror symmetry of the HLLE, FORCE and two-shock fluxes
-/

namespace Athena.Hydro
noncomputable section
variable {ns : ℕ} {p : Phys} {Bx : ℝ} {Wl Wr W : Prim1D ns} {Ul Ur U : Cons1D ns}

/-- Component-wise combination of fluxes and states. -/
def Cons1D.map2 (f : ℝ → ℝ → ℝ) (A B : Cons1D ns) : Cons1D ns :=
  ⟨f A.d B.d, f A.Mx B.Mx, f A.My B.My, f A.Mz B.Mz, f A.E B.E, f A.By B.By, f A.Bz B.Bz, fun n => f (A.s n) (B.s n)⟩

theorem sideFlux_map2 (hp : p.Ok) (h : State p Bx W U) (b : ℝ) :
    sideFlux p U W Bx b = Cons1D.map2 (fun f u => f - b * u) (physFlux p W Bx) U := sideFlux_eq hp h b

theorem sideFlux_zero (hp : p.Ok) (h : State p Bx W U) : sideFlux p U W Bx 0 = physFlux p W Bx := by
  rw [sideFlux_map2 hp h]; ext <;> simp [Cons1D.map2]

/-- Members not declared are zero. -/
def Cons1D.Zeros (p : Phys) (F : Cons1D ns) : Prop :=
  (p.iso = true → F.E = 0) ∧ (p.mhd = false → F.By = 0 ∧ F.Bz = 0)

theorem physFlux_zeros (hw : W.Wf p) : (physFlux p W Bx).Zeros p := by
  constructor
  · intro h; simp [physFlux, h]
  · intro h; simp [physFlux, h, (hw.2 h).1, (hw.2 h).2]

theorem State.zeros (hp : p.Ok) (h : State p Bx W U) : U.Zeros p := by
  rw [h.eq hp]
  exact ⟨fun h => by simp [h], fun hm => h.wf.2 hm⟩

theorem comb_left {F G : Cons1D ns} (hF : F.Zeros p) (f : ℝ → ℝ → ℝ) (e : ∀ x y, f x y = x) :
    comb p f F G = { F with s := fun _ => 0 } := by
  unfold comb
  ext <;> simp only [e]
  · cases hi : p.iso
    · simp
    · simp [hF.1 hi]
  · cases hm : p.mhd
    · simp [(hF.2 hm).1]
    · simp
  · cases hm : p.mhd
    · simp [(hF.2 hm).2]
    · simp

theorem comb_right {F G : Cons1D ns} (hG : G.Zeros p) (f : ℝ → ℝ → ℝ) (e : ∀ x y, f x y = y) :
    comb p f F G = { G with s := fun _ => 0 } := by
  have h := comb_left (p := p) (F := G) (G := F) hG (fun x y => f y x) (fun x y => e y x)
  rw [← h]; rfl

theorem comb_mirror {F G : Cons1D ns} (f g : ℝ → ℝ → ℝ) (e : ∀ x y, g y x = f x y) (e' : ∀ x y, g (-y) (-x) = -f x y) :
    comb p g G.mirrorFlux F.mirrorFlux = (comb p f F G).mirrorFlux := by
  unfold comb Cons1D.mirrorFlux
  ext n
  · exact e' _ _
  · exact e _ _
  · exact e' _ _
  · exact e' _ _
  · dsimp only; split_ifs
    · simp
    · exact e' _ _
  · dsimp only; split_ifs
    · exact e' _ _
    · simp
  · dsimp only; split_ifs
    · exact e' _ _
    · simp
  · simp

theorem scalars_mirror (F : Cons1D ns) :
    scalars Wr.mirror Wl.mirror F.mirrorFlux = (scalars Wl Wr F).mirrorFlux := by
  unfold scalars Cons1D.mirrorFlux Prim1D.mirror
  ext n <;> try rfl
  show (if -F.d ≥ 0 then _ else _) = -(if F.d ≥ 0 then _ else _)
  rcases lt_trichotomy F.d 0 with h | h | h
  · rw [if_pos (by linarith), if_neg (by linarith)]; ring
  · rw [if_pos (by linarith), if_pos (by linarith), h]; ring
  · rw [if_neg (by linarith), if_pos (by linarith)]; ring

theorem scalars_s (F : Cons1D ns) (n : Fin ns) : (scalars Wl Wr F).s n =
    (scalars Wl Wr F).d * if (scalars Wl Wr F).d ≥ 0 then Wl.r n else Wr.r n := by
  unfold scalars; dsimp only; split_ifs <;> rfl

/-- A flux with the mass flux of the left state and scalars advected by it. -/
theorem scalars_left {F : Cons1D ns} (h : 0 ≤ F.d) (hs : ∀ n, F.s n = F.d * Wl.r n) :
    scalars Wl Wr { F with s := fun _ => 0 } = F := by
  unfold scalars
  ext n <;> try rfl
  show (if F.d ≥ 0 then _ else _) = _
  rw [if_pos h, hs]

theorem scalars_right {F : Cons1D ns} (h : F.d < 0) (hs : ∀ n, F.s n = F.d * Wr.r n) :
    scalars Wl Wr { F with s := fun _ => 0 } = F := by
  unfold scalars
  ext n <;> try rfl
  show (if F.d ≥ 0 then _ else _) = _
  rw [if_neg (by linarith), hs]

theorem scalars_same {F : Cons1D ns} (hs : ∀ n, F.s n = F.d * W.r n) :
    scalars W W { F with s := fun _ => 0 } = F := by
  unfold scalars
  ext n <;> try rfl
  show (if F.d ≥ 0 then _ else _) = _
  rw [hs]; split_ifs <;> rfl

theorem bp_bm {al ar : ℝ} (h : al < ar) : 0 < fmax ar 0 - fmin al 0 := by
  rw [fmax_eq, fmin_eq]
  rcases le_or_gt ar 0 with h0 | h0
  · have := le_max_right ar 0; have := min_le_left al 0; linarith
  · have := le_max_left ar 0; have := min_le_right al 0; linarith

/-! ## HLLE -/

/-- The fan speeds used by all HLL-type solvers: the smaller (larger) of the Roe speed and the fast speed of the left (right) state.
`cfastPrim` is characterised by `cfastPrim_spec`. -/
theorem fan_speeds (hp : p.Ok) (hl : State p Bx Wl Ul) (hr : State p Bx Wr Ur) :
    ∃ al ar cl cr, speeds p Ul Ur Wl Wr Bx = some (al, ar) ∧ cfastPrim p Wl Bx = some cl ∧ cfastPrim p Wr Bx = some cr ∧
      al ≤ Wl.Vx - cl ∧ Wr.Vx + cr ≤ ar ∧ al < ar := by
  obtain ⟨r, c, cl, cr, -, -, h1, h2, h3, -, -, h⟩ := speeds_spec hp hl hr
  exact ⟨_, _, cl, cr, h, h1, h2, min_le_right _ _, le_max_right _ _,
    lt_of_le_of_lt (min_le_left _ _) (lt_of_lt_of_le (by linarith) (le_max_left _ _))⟩

/-- C34: the HLLE flux is the flux of the integral form of the conservation laws: with `bm = min(al,0)`, `bp = max(ar,0)`,
`F = (bp F(Wl) - bm F(Wr) + bp bm (Ur - Ul)) / (bp - bm)`; the scalars move with the mass flux from the upwind side. -/
theorem hlle_formula (hp : p.Ok) (hl : State p Bx Wl Ul) (hr : State p Bx Wr Ur) :
    ∃ al ar F, speeds p Ul Ur Wl Wr Bx = some (al, ar) ∧ hlle p Ul Ur Wl Wr Bx = some F ∧
      (let bm := min al 0; let bp := max ar 0
       let f := fun (fl fr ul ur : ℝ) => (bp * fl - bm * fr + bp * bm * (ur - ul)) / (bp - bm)
       let L := physFlux p Wl Bx; let R := physFlux p Wr Bx
       bm < bp ∧ F.d = f L.d R.d Ul.d Ur.d ∧ F.Mx = f L.Mx R.Mx Ul.Mx Ur.Mx ∧ F.My = f L.My R.My Ul.My Ur.My ∧
       F.Mz = f L.Mz R.Mz Ul.Mz Ur.Mz ∧ F.E = f L.E R.E Ul.E Ur.E ∧ F.By = f L.By R.By Ul.By Ur.By ∧
       F.Bz = f L.Bz R.Bz Ul.Bz Ur.Bz ∧
       ∀ n, F.s n = F.d * if F.d ≥ 0 then Wl.r n else Wr.r n) := by
  obtain ⟨al, ar, h, hlt, -, -⟩ := speeds_bounds hp hl hr
  have hb := bp_bm hlt
  refine ⟨al, ar, _, h, by
    unfold hlle
    rw [h]
    simp only [Option.bind_eq_bind, Option.bind_some]
    rw [fdiv_pos hb]
    rfl, ?_⟩
  rw [sideFlux_map2 hp hl, sideFlux_map2 hp hr]
  rw [fmax_eq, fmin_eq] at hb ⊢
  obtain ⟨l1, l2⟩ := physFlux_zeros (p := p) (Bx := Bx) hl.wf
  obtain ⟨r1, r2⟩ := physFlux_zeros (p := p) (Bx := Bx) hr.wf
  obtain ⟨l1', l2'⟩ := hl.zeros hp
  obtain ⟨r1', r2'⟩ := hr.zeros hp
  intro bm bp f L R
  have hb' : bp - bm ≠ 0 := hb.ne'
  have key : ∀ fl fr ul ur : ℝ, 1/2 * (fl - bm * ul + (fr - bp * ur)) + (fl - bm * ul - (fr - bp * ur)) *
      (1/2 * (bp + bm) / (bp - bm)) = f fl fr ul ur := by
    intro fl fr ul ur
    show _ = (bp * fl - bm * fr + bp * bm * (ur - ul)) / (bp - bm)
    field_simp; ring
  have z : f 0 0 0 0 = 0 := by show (bp * 0 - bm * 0 + bp * bm * (0 - 0)) / (bp - bm) = 0; simp
  refine ⟨sub_pos.mp hb, key _ _ _ _, key _ _ _ _, key _ _ _ _, key _ _ _ _, ?_, ?_, ?_, ?_⟩
  · cases hi : p.iso
    · simp only [scalars, comb, hi, Bool.false_eq_true, if_false]; exact key _ _ _ _
    · simp only [scalars, comb, hi, if_true, l1 hi, r1 hi, l1' hi, r1' hi, L, R]; exact z.symm
  · cases hm : p.mhd
    · simp only [scalars, comb, hm, Bool.false_eq_true, if_false, (l2 hm).1, (r2 hm).1, (l2' hm).1, (r2' hm).1, L, R]
      exact z.symm
    · simp only [scalars, comb, hm, if_true]; exact key _ _ _ _
  · cases hm : p.mhd
    · simp only [scalars, comb, hm, Bool.false_eq_true, if_false, (l2 hm).2, (r2 hm).2, (l2' hm).2, (r2' hm).2, L, R]
      exact z.symm
    · simp only [scalars, comb, hm, if_true]; exact key _ _ _ _
  · exact fun n => scalars_s _ n

/-- C34: for equal states the HLLE flux is the physical flux. -/
theorem hlle_consistent (hp : p.Ok) (h : State p Bx W U) : hlle p U U W W Bx = some (physFlux p W Bx) := by
  obtain ⟨al, ar, F, -, hF, hb, e1, e2, e3, e4, e5, e6, e7, e8⟩ := hlle_formula hp h h
  rw [hF]
  congr 1
  have hb' : max ar 0 - min al 0 ≠ 0 := (sub_pos.mpr hb).ne'
  have key : ∀ f u : ℝ, (max ar 0 * f - min al 0 * f + max ar 0 * min al 0 * (u - u)) / (max ar 0 - min al 0) = f := by
    intro f u; field_simp; ring
  simp only [key] at e1 e2 e3 e4 e5 e6 e7
  ext n
  · exact e1
  · exact e2
  · exact e3
  · exact e4
  · exact e5
  · exact e6
  · exact e7
  · rw [e8 n, e1]
    show W.d * W.Vx * _ = W.d * W.Vx * W.r n
    split_ifs <;> rfl

theorem hlle_left (hp : p.Ok) (hl : State p Bx Wl Ul) (hr : State p Bx Wr Ur) {al ar : ℝ}
    (h : speeds p Ul Ur Wl Wr Bx = some (al, ar)) (h0 : 0 ≤ al) :
    hlle p Ul Ur Wl Wr Bx = some (physFlux p Wl Bx) := by
  obtain ⟨al', ar', h', hlt, hv, -⟩ := speeds_bounds hp hl hr
  rw [h] at h'; obtain ⟨rfl, rfl⟩ := Prod.mk.inj (Option.some.inj h')
  unfold hlle
  rw [h]
  simp only [Option.bind_eq_bind, Option.bind_some]
  rw [fdiv_pos (bp_bm hlt), fmax_eq, fmin_eq, max_eq_left (by linarith), min_eq_right h0]
  have hk : 1/2 * (ar + 0) / (ar - 0) = 1/2 := by have : ar ≠ 0 := by linarith
                                                  field_simp; ring
  rw [hk, sideFlux_zero hp hl]
  simp only [Option.bind_some, Option.pure_def, Option.some.injEq]
  rw [comb_left (physFlux_zeros hl.wf) _ (fun x y => by ring)]
  exact scalars_left (mul_pos hl.d (by linarith)).le (fun n => rfl)

theorem hlle_right (hp : p.Ok) (hl : State p Bx Wl Ul) (hr : State p Bx Wr Ur) {al ar : ℝ}
    (h : speeds p Ul Ur Wl Wr Bx = some (al, ar)) (h0 : ar ≤ 0) :
    hlle p Ul Ur Wl Wr Bx = some (physFlux p Wr Bx) := by
  obtain ⟨al', ar', h', hlt, -, hv⟩ := speeds_bounds hp hl hr
  rw [h] at h'; obtain ⟨rfl, rfl⟩ := Prod.mk.inj (Option.some.inj h')
  unfold hlle
  rw [h]
  simp only [Option.bind_eq_bind, Option.bind_some]
  rw [fdiv_pos (bp_bm hlt), fmax_eq, fmin_eq, max_eq_right h0, min_eq_left (by linarith)]
  have hk : 1/2 * (0 + al) / (0 - al) = -(1/2) := by have : al ≠ 0 := by linarith
                                                     field_simp; ring
  rw [hk, sideFlux_zero hp hr]
  simp only [Option.bind_some, Option.pure_def, Option.some.injEq]
  rw [comb_right (physFlux_zeros hr.wf) _ (fun x y => by ring)]
  exact scalars_right (mul_neg_of_pos_of_neg hr.d (by linarith)) (fun n => rfl)

/-- C34: if all waves of the fan move to the right (left), the HLLE flux is the physical flux of the left (right) state. -/
theorem hlle_upwind (hp : p.Ok) (hl : State p Bx Wl Ul) (hr : State p Bx Wr Ur) :
    ∃ al ar, speeds p Ul Ur Wl Wr Bx = some (al, ar) ∧
      (0 ≤ al → hlle p Ul Ur Wl Wr Bx = some (physFlux p Wl Bx)) ∧
      (ar ≤ 0 → hlle p Ul Ur Wl Wr Bx = some (physFlux p Wr Bx)) := by
  obtain ⟨al, ar, h, -⟩ := speeds_bounds hp hl hr
  exact ⟨al, ar, h, hlle_left hp hl hr h, hlle_right hp hl hr h⟩

theorem fm_mirror (al ar : ℝ) : fmax (-al) 0 = -fmin al 0 ∧ fmin (-ar) 0 = -fmax ar 0 := by
  simp only [fmax_eq, fmin_eq]
  constructor
  · rw [← max_neg_neg, neg_zero]
  · rw [← min_neg_neg, neg_zero]

/-- C35: the HLLE flux is mirror symmetric. -/
theorem hlle_mirror (hp : p.Ok) (hl : State p Bx Wl Ul) (hr : State p Bx Wr Ur) :
    ∃ F, hlle p Ul Ur Wl Wr Bx = some F ∧
      hlle p Ur.mirror Ul.mirror Wr.mirror Wl.mirror (-Bx) = some F.mirrorFlux := by
  obtain ⟨al, ar, h, hlt, -⟩ := speeds_bounds hp hl hr
  have h' := speeds_mirror hp hl hr h
  have hb := bp_bm hlt
  have hb' := bp_bm (al := -ar) (ar := -al) (by linarith)
  unfold hlle
  rw [h, h']
  simp only [Option.bind_eq_bind, Option.bind_some]
  rw [fdiv_pos hb, fdiv_pos hb']
  simp only [Option.bind_some, Option.pure_def]
  refine ⟨_, rfl, ?_⟩
  rw [(fm_mirror al ar).1, (fm_mirror al ar).2, sideFlux_mirror, sideFlux_mirror, ← scalars_mirror]
  congr 2
  have hk : 1/2 * (-fmin al 0 + -fmax ar 0) / (-fmin al 0 - -fmax ar 0) = -(1/2 * (fmax ar 0 + fmin al 0) / (fmax ar 0 - fmin al 0)) := by
    rw [show -fmin al 0 - -fmax ar 0 = fmax ar 0 - fmin al 0 by ring, ← neg_div]; congr 1; ring
  rw [hk]
  apply comb_mirror
  · intro x y; ring
  · intro x y; ring

/-! ## FORCE -/

/-- C34: for equal states with pressure at or above the floor the FORCE flux is the physical flux. -/
theorem force_consistent (hp : p.Ok) (h : State p Bx W U) (hP : p.iso = false → p.tiny ≤ W.P) :
    force p U U W W Bx = some (physFlux p W Bx) := by
  obtain ⟨al, ar, hs, hlt, h1, h2⟩ := speeds_bounds hp h h
  unfold force
  rw [hs]
  simp only [Option.bind_eq_bind, Option.bind_some]
  by_cases h0 : al ≥ 0
  · rw [if_pos h0, fmin_eq, min_eq_right h0, sideFlux_zero hp h]; rfl
  by_cases h0' : ar ≤ 0
  · rw [if_neg h0, if_pos h0', fmax_eq, max_eq_right h0', sideFlux_zero hp h]; rfl
  push Not at h0 h0'
  rw [if_neg (by linarith), if_neg (by linarith), fdiv_pos (by linarith : 0 < ar - al), fdiv_pos (bp_bm hlt), fmax_eq, fmin_eq,
    max_eq_left h0'.le, min_eq_left h0.le]
  simp only [Option.bind_some]
  have hne : ar - al ≠ 0 := by linarith
  have hU : comb p (fun a b => (a - b) * (1 / (ar - al))) (sideFlux p U W Bx al) (sideFlux p U W Bx ar) =
      { U with s := fun _ => 0 } := by
    rw [sideFlux_map2 hp h, sideFlux_map2 hp h]
    have e : ∀ f u : ℝ, (f - al * u - (f - ar * u)) * (1 / (ar - al)) = u := by intro f u; field_simp; ring
    obtain ⟨z1, z2⟩ := h.zeros hp
    unfold comb Cons1D.map2
    ext
    · exact e _ _
    · exact e _ _
    · exact e _ _
    · exact e _ _
    · cases hi : p.iso
      · simp only [Bool.false_eq_true, if_false]; exact e _ _
      · simp [z1 hi]
    · cases hm : p.mhd
      · simp [(z2 hm).1]
      · simp only [if_true]; exact e _ _
    · cases hm : p.mhd
      · simp [(z2 hm).2]
      · simp only [if_true]; exact e _ _
    · rfl
  have hst : State p Bx ({ W with r := fun _ => 0 } : Prim1D ns) ({ U with s := fun _ => 0 } : Cons1D ns) := by
    refine ⟨h.wf, h.d, h.P, ?_⟩
    rw [h.eq hp, p2c_eq _ _ _ (fun hi => (hp.gamma hi).ne')]
    obtain ⟨-, w2⟩ := h.wf
    simp only [Option.some.injEq, Cons1D.mk.injEq, true_and, zero_mul, and_true, energy]
    refine ⟨?_, ?_, ?_⟩
    · cases p.iso
      · simp only [Bool.false_eq_true, if_false]; ring
      · rfl
    · cases hm : p.mhd
      · simp [(w2 hm).1]
      · rfl
    · cases hm : p.mhd
      · simp [(w2 hm).2]
      · rfl
  obtain ⟨U', hU1, hU2⟩ := prim_cons_prim p ({ W with r := fun _ => (0:ℝ) } : Prim1D ns) Bx h.wf (fun hi => (hp.gamma hi).ne') h.d.ne' hP
  rw [hst.cons] at hU1
  rw [hU, Option.some.inj hU1, hU2]
  simp only [Option.bind_some, Option.pure_def, Option.some.injEq]
  rw [← Option.some.inj hU1]
  have hF : meanFlux p ({ U with s := fun _ => (0:ℝ) } : Cons1D ns) ({ W with r := fun _ => (0:ℝ) } : Prim1D ns) Bx (magP p W Bx) =
      { physFlux p W Bx with s := fun _ => 0 } := by
    rw [← sideFlux_zero hp h]
    unfold meanFlux sideFlux
    ext <;> simp
  rw [hF]
  have hG : comb p (fun a b => 1/2 * a + b) ({ physFlux p W Bx with s := fun _ => 0 } : Cons1D ns)
      (comb p (fun a b => 1/4 * (a + b) + (a - b) * (1/4 * (ar + al) / (ar - al))) (sideFlux p U W Bx al) (sideFlux p U W Bx ar)) =
      { physFlux p W Bx with s := fun _ => 0 } := by
    rw [sideFlux_map2 hp h, sideFlux_map2 hp h]
    have e : ∀ f u : ℝ, 1/2 * f + (1/4 * (f - al * u + (f - ar * u)) + (f - al * u - (f - ar * u)) * (1/4 * (ar + al) / (ar - al)))
        = f := by intro f u; field_simp; ring
    obtain ⟨z1, z2⟩ := physFlux_zeros (p := p) (Bx := Bx) h.wf
    unfold comb Cons1D.map2
    ext
    · exact e _ _
    · exact e _ _
    · exact e _ _
    · exact e _ _
    · cases hi : p.iso
      · simp only [Bool.false_eq_true, if_false]; exact e _ _
      · simp [z1 hi]
    · cases hm : p.mhd
      · simp [(z2 hm).1]
      · simp only [if_true]; exact e _ _
    · cases hm : p.mhd
      · simp [(z2 hm).2]
      · simp only [if_true]; exact e _ _
    · rfl
  rw [hG]
  exact scalars_same (fun n => rfl)

/-- C34: if all waves of the fan move to the right (left), the FORCE flux is the physical flux of the left (right) state. -/
theorem force_upwind (hp : p.Ok) (hl : State p Bx Wl Ul) (hr : State p Bx Wr Ur) :
    ∃ al ar, speeds p Ul Ur Wl Wr Bx = some (al, ar) ∧
      (0 ≤ al → force p Ul Ur Wl Wr Bx = some (physFlux p Wl Bx)) ∧
      (ar ≤ 0 → force p Ul Ur Wl Wr Bx = some (physFlux p Wr Bx)) := by
  obtain ⟨al, ar, h, hlt, -⟩ := speeds_bounds hp hl hr
  refine ⟨al, ar, h, fun h0 => ?_, fun h0 => ?_⟩
  · unfold force
    rw [h]
    simp only [Option.bind_eq_bind, Option.bind_some]
    rw [if_pos h0, fmin_eq, min_eq_right h0, sideFlux_zero hp hl]; rfl
  · unfold force
    rw [h]
    simp only [Option.bind_eq_bind, Option.bind_some]
    rw [if_neg (by linarith), if_pos h0, fmax_eq, max_eq_right h0, sideFlux_zero hp hr]; rfl

/-- Density of the HLL mean state. -/
theorem mean_density {al ar : ℝ} (hp : p.Ok) (hl : State p Bx Wl Ul) (hr : State p Bx Wr Ur) (h1 : al < Wl.Vx) (h2 : Wr.Vx < ar)
    (hlt : al < ar) :
    0 < (comb p (fun a b => (a - b) * (1 / (ar - al))) (sideFlux p Ul Wl Bx al) (sideFlux p Ur Wr Bx ar)).d := by
  have e : (comb p (fun a b => (a - b) * (1 / (ar - al))) (sideFlux p Ul Wl Bx al) (sideFlux p Ur Wr Bx ar)).d =
      (Wl.d * (Wl.Vx - al) + Wr.d * (ar - Wr.Vx)) * (1 / (ar - al)) := by
    rw [hl.eq hp, hr.eq hp]; simp only [comb, sideFlux]; ring
  rw [e]
  have := hl.d; have := hr.d
  have h3 : 0 < Wl.Vx - al := by linarith
  have h4 : 0 < ar - Wr.Vx := by linarith
  have h5 : 0 < ar - al := by linarith
  positivity

/-- C34: the FORCE flux is defined for all physical states, and its scalars move with the mass flux from the upwind side. -/
theorem force_defined (hp : p.Ok) (hl : State p Bx Wl Ul) (hr : State p Bx Wr Ur) :
    ∃ F, force p Ul Ur Wl Wr Bx = some F ∧ ∀ n, F.s n = F.d * if F.d ≥ 0 then Wl.r n else Wr.r n := by
  obtain ⟨al, ar, hs, hlt, h1, h2⟩ := speeds_bounds hp hl hr
  obtain ⟨al', ar', hs', u1, u2⟩ := force_upwind hp hl hr
  rw [hs] at hs'; obtain ⟨rfl, rfl⟩ := Prod.mk.inj (Option.some.inj hs')
  by_cases h0 : 0 ≤ al
  · refine ⟨_, u1 h0, fun n => ?_⟩
    have : 0 < Wl.d * Wl.Vx := mul_pos hl.d (by linarith)
    show Wl.d * Wl.Vx * Wl.r n = Wl.d * Wl.Vx * _
    rw [if_pos (show (physFlux p Wl Bx).d ≥ 0 from this.le)]
  by_cases h0' : ar ≤ 0
  · refine ⟨_, u2 h0', fun n => ?_⟩
    have : Wr.d * Wr.Vx < 0 := mul_neg_of_pos_of_neg hr.d (by linarith)
    show Wr.d * Wr.Vx * Wr.r n = Wr.d * Wr.Vx * _
    rw [if_neg (show ¬ (physFlux p Wr Bx).d ≥ 0 from not_le.mpr this)]
  push Not at h0 h0'
  unfold force
  rw [hs]
  simp only [Option.bind_eq_bind, Option.bind_some]
  have hd := mean_density hp hl hr h1 h2 hlt
  rw [if_neg (by linarith), if_neg (by linarith), fdiv_pos (by linarith : 0 < ar - al), fdiv_pos (bp_bm hlt), fmax_eq, fmin_eq,
    max_eq_left h0'.le, min_eq_left h0.le]
  simp only [Option.bind_some]
  rw [c2p_eq _ _ _ hd.ne']
  simp only [Option.bind_some, Option.pure_def]
  exact ⟨_, rfl, fun n => scalars_s _ n⟩

/-- C35: the FORCE flux is mirror symmetric, except in adiabatic MHD when the magnetic pressures of the two states differ. -/
theorem force_mirror_partial (hp : p.Ok) (hl : State p Bx Wl Ul) (hr : State p Bx Wr Ur)
    (hB : p.iso = true ∨ p.mhd = false ∨ Wl.By ^ 2 + Wl.Bz ^ 2 = Wr.By ^ 2 + Wr.Bz ^ 2) :
    ∃ F, force p Ul Ur Wl Wr Bx = some F ∧
      force p Ur.mirror Ul.mirror Wr.mirror Wl.mirror (-Bx) = some F.mirrorFlux := by
  obtain ⟨al, ar, h, hlt, h1, h2⟩ := speeds_bounds hp hl hr
  have h' := speeds_mirror hp hl hr h
  unfold force
  rw [h, h']
  simp only [Option.bind_eq_bind, Option.bind_some]
  rw [(fm_mirror al ar).1, (fm_mirror al ar).2, sideFlux_mirror, sideFlux_mirror]
  by_cases h0 : al ≥ 0
  · refine ⟨_, if_pos h0, ?_⟩
    rw [if_neg (by linarith), if_pos (by linarith)]; rfl
  by_cases h0' : ar ≤ 0
  · rw [if_neg h0, if_pos h0']
    refine ⟨_, rfl, ?_⟩
    rw [if_pos (by linarith)]; rfl
  push Not at h0 h0'
  rw [if_neg (by linarith), if_neg (by linarith), if_neg (by linarith), if_neg (by linarith), fdiv_pos (by linarith : 0 < ar - al),
    fdiv_pos (bp_bm hlt), fmax_eq, fmin_eq, max_eq_left h0'.le, min_eq_left h0.le, fdiv_pos (by linarith : 0 < -al - -ar),
    fdiv_pos (by linarith : 0 < -al - -ar)]
  simp only [Option.bind_some]
  have hd := mean_density hp hl hr h1 h2 hlt
  set Fl := sideFlux p Ul Wl Bx al with hFl
  set Fr := sideFlux p Ur Wr Bx ar with hFr
  set Uc := comb p (fun a b => (a - b) * (1 / (ar - al))) Fl Fr with hUc
  have hm : comb p (fun a b => (a - b) * (1 / (-al - -ar))) Fr.mirrorFlux Fl.mirrorFlux = Uc.mirror := by
    have e : (-al - -ar) = ar - al := by ring
    rw [e, hUc]
    unfold comb Cons1D.mirrorFlux Cons1D.mirror
    ext <;> dsimp only <;> (try split_ifs) <;> ring
  rw [hm, c2p_eq _ _ _ hd.ne', c2p_eq _ _ _ (by exact hd.ne')]
  simp only [Option.bind_some, Option.pure_def]
  refine ⟨_, rfl, ?_⟩
  rw [← scalars_mirror]
  congr 2
  have hcomb : comb p (fun a b => 1/4 * (a + b) + (a - b) * (1/4 * (-al + -ar) / (-al - -ar))) Fr.mirrorFlux Fl.mirrorFlux =
      (comb p (fun a b => 1/4 * (a + b) + (a - b) * (1/4 * (ar + al) / (ar - al))) Fl Fr).mirrorFlux := by
    have hk : 1/4 * (-al + -ar) / (-al - -ar) = -(1/4 * (ar + al) / (ar - al)) := by
      rw [show -al - -ar = ar - al by ring, ← neg_div]; congr 1; ring
    rw [hk]
    apply comb_mirror
    · intro x y; ring
    · intro x y; ring
  rw [hcomb]
  have hpb : p.iso = false → p.mhd = true → magP p Wr.mirror (-Bx) = magP p Wl Bx := by
    intro hi hm
    rcases hB with h | h | h
    · simp [hi] at h
    · simp [hm] at h
    · simp only [magP, hm, if_true, sqr, Prim1D.mirror]; linarith
  have hFc : ∀ V : Prim1D ns, ∀ V' : Prim1D ns, V'.Vx = -V.Vx → V'.Vy = V.Vy → V'.Vz = V.Vz → V'.P = V.P → V'.d = V.d → V'.By = V.By →
      V'.Bz = V.Bz → meanFlux p Uc.mirror V' (-Bx) (magP p Wr.mirror (-Bx)) = (meanFlux p Uc V Bx (magP p Wl Bx)).mirrorFlux := by
    intro V V' e1 e2 e3 e4 e5 e6 e7
    unfold meanFlux Cons1D.mirrorFlux Cons1D.mirror
    simp only [e1, e2, e3, e4, e5, e6, e7]
    cases hi : p.iso <;> cases hm : p.mhd <;> simp only [Bool.false_eq_true, if_true, if_false, Cons1D.mk.injEq] <;>
      (try rw [hpb hi hm]) <;> refine ⟨?_, ?_, ?_, ?_, ?_, ?_, ?_, ?_⟩ <;> (try funext n) <;> first | trivial | ring1
  rw [hFc]
  · unfold comb Cons1D.mirrorFlux
    ext <;> dsimp only <;> (try split_ifs) <;> ring
  · show -Uc.Mx / Uc.d = -(Uc.Mx / Uc.d); ring
  · rfl
  · rfl
  · show (if _ then _ else max (gasPressure p Uc.mirror (-Bx)) p.tiny) = if _ then _ else max (gasPressure p Uc Bx) p.tiny
    simp [gasPressure, Cons1D.mirror]
  · rfl
  · rfl
  · rfl

/-! ## Two-shock (isothermal hydrodynamics) -/

/-- The contact of the two-shock solver. -/
theorem twoShock_contact (a b Vl Vr cs : ℝ) (ha : 0 < a) (hb : 0 < b) (hc : 0 < cs) :
    let t := a * b * (Vl - Vr) / (2 * cs * (a + b))
    let z := t + Real.sqrt (t * t + a * b)
    0 < z ∧ (Vl * a + Vr * b) / (a + b) + cs * (a - b) / z = Vl - cs * (z / a - a / z) ∧
      (Vl * a + Vr * b) / (a + b) + cs * (a - b) / z = Vr + cs * (z / b - b / z) := by
  intro t z
  have hab : 0 < a * b := mul_pos ha hb
  have hs : t * t < t * t + a * b := by linarith
  have hlt : |t| < Real.sqrt (t * t + a * b) := by
    rw [← Real.sqrt_sq_eq_abs]
    exact Real.sqrt_lt_sqrt (sq_nonneg _) (by nlinarith)
  have hz : 0 < z := by have := neg_abs_le t; show 0 < t + _; linarith
  have hsq : z * z = 2 * t * z + a * b := by
    have := Real.mul_self_sqrt (by nlinarith [mul_self_nonneg t] : 0 ≤ t * t + a * b)
    show (t + _) * (t + _) = 2 * t * (t + _) + a * b
    nlinarith
  have ht : t * (2 * cs * (a + b)) = a * b * (Vl - Vr) := by
    show a * b * (Vl - Vr) / (2 * cs * (a + b)) * (2 * cs * (a + b)) = _
    have : 2 * cs * (a + b) ≠ 0 := by positivity
    field_simp
  refine ⟨hz, ?_, ?_⟩
  · have : a + b ≠ 0 := by positivity
    field_simp
    linear_combination (a + b) * cs * hsq + z * ht
  · have : a + b ≠ 0 := by positivity
    field_simp
    linear_combination -((a + b) * cs * hsq + z * ht)

/-- The two-shock solution of the Riemann problem: a state of density `z²` and velocity `v` between two shocks. -/
structure TwoShock (p : Phys) (Wl Wr : Prim1D ns) (d v sl sr : ℝ) : Prop where
  /-- The middle density is positive. -/
  pos : 0 < d
  /-- The shocks are to the left and to the right of the middle state. -/
  order : sl < v ∧ v < sr
  /-- Mass is conserved across the left shock, -/
  massL : d * (v - sl) = Wl.d * (Wl.Vx - sl)
  /-- and so is momentum; -/
  momL : d * v * (v - sl) + d * p.cs2 = Wl.d * Wl.Vx * (Wl.Vx - sl) + Wl.d * p.cs2
  /-- likewise for the right shock. -/
  massR : d * (v - sr) = Wr.d * (Wr.Vx - sr)
  momR : d * v * (v - sr) + d * p.cs2 = Wr.d * Wr.Vx * (Wr.Vx - sr) + Wr.d * p.cs2

/-- Middle density root of the two-shock solver. -/
def tsZ (a b Vl Vr cs : ℝ) : ℝ :=
  a * b * (Vl - Vr) / (2 * cs * (a + b)) + Real.sqrt (a * b * (Vl - Vr) / (2 * cs * (a + b)) *
    (a * b * (Vl - Vr) / (2 * cs * (a + b))) + a * b)

/-- Middle velocity of the two-shock solver. -/
def tsV (a b Vl Vr cs : ℝ) : ℝ := (Vl * a + Vr * b) / (a + b) + cs * (a - b) / tsZ a b Vl Vr cs

/-- The flux selected at the interface. -/
def tsFlux (p : Phys) (Bx : ℝ) (Wl Wr : Prim1D ns) (d v sl sr : ℝ) : Cons1D ns :=
  if sr ≤ 0 then physFlux p Wr Bx else if sl ≥ 0 then physFlux p Wl Bx else
    physFlux p { (if v ≥ 0 then Wl else Wr) with d := d, Vx := v } Bx

theorem twoShock_closed (hp : p.Ok) (hi : p.iso = true) (hm : p.mhd = false) (hl : State p Bx Wl Ul) (hr : State p Bx Wr Ur) :
    let a := Real.sqrt Wl.d; let b := Real.sqrt Wr.d
    let z := tsZ a b Wl.Vx Wr.Vx p.cs; let v := tsV a b Wl.Vx Wr.Vx p.cs
    TwoShock p Wl Wr (z * z) v (Wl.Vx - p.cs * z / a) (Wr.Vx + p.cs * z / b) ∧
    twoShock p Ul Ur Wl Wr = some (tsFlux p Bx Wl Wr (z * z) v (Wl.Vx - p.cs * z / a) (Wr.Vx + p.cs * z / b)) := by
  have ha := Real.sqrt_pos.mpr hl.d
  have hb := Real.sqrt_pos.mpr hr.d
  have hc : 0 < p.cs := Real.sqrt_pos.mpr (hp.cs hi)
  have ea := Real.mul_self_sqrt hl.d.le
  have eb := Real.mul_self_sqrt hr.d.le
  have ec : p.cs * p.cs = p.cs2 := Real.mul_self_sqrt (hp.cs hi).le
  obtain ⟨hz, e1, e2⟩ := twoShock_contact (Real.sqrt Wl.d) (Real.sqrt Wr.d) Wl.Vx Wr.Vx p.cs ha hb hc
  unfold twoShock tsFlux tsV tsZ
  rw [fsqrt_nonneg hl.d.le, fsqrt_nonneg hr.d.le]
  simp only [Option.bind_eq_bind, Option.bind_some]
  set a := Real.sqrt Wl.d
  set b := Real.sqrt Wr.d
  rw [fdiv_pos (by positivity : 0 < 2 * p.cs * (a + b))]
  simp only [Option.bind_some]
  set t := a * b * (Wl.Vx - Wr.Vx) / (2 * p.cs * (a + b))
  rw [fsqrt_nonneg (by nlinarith [mul_pos ha hb, mul_self_nonneg t])]
  simp only [Option.bind_some]
  set z := t + Real.sqrt (t * t + a * b)
  rw [fdiv_pos (by positivity : 0 < a + b), fdiv_pos hz, fdiv_pos ha, fdiv_pos hb]
  simp only [Option.bind_some]
  set v := (Wl.Vx * a + Wr.Vx * b) / (a + b) + p.cs * (a - b) / z
  have hza : 0 < p.cs * (a / z) := by positivity
  have hzb : 0 < p.cs * (b / z) := by positivity
  have ga : p.cs * (z / a) = p.cs * z / a := by ring
  have gb : p.cs * (z / b) = p.cs * z / b := by ring
  rw [mul_sub, ga] at e1
  rw [mul_sub, gb] at e2
  have ka : p.cs * (a / z) * (p.cs * z / a) = p.cs2 := by rw [← ec]; field_simp
  have kb : p.cs * (b / z) * (p.cs * z / b) = p.cs2 := by rw [← ec]; field_simp
  have kma : z * z * (p.cs * (a / z)) = Wl.d * (p.cs * z / a) := by rw [← ea]; field_simp
  have kmb : z * z * (p.cs * (b / z)) = Wr.d * (p.cs * z / b) := by rw [← eb]; field_simp
  have kxa : Wl.d * (p.cs * z / a * (p.cs * z / a)) = z * z * p.cs2 := by rw [← ea, ← ec]; field_simp
  have kxb : Wr.d * (p.cs * z / b * (p.cs * z / b)) = z * z * p.cs2 := by rw [← eb, ← ec]; field_simp
  refine ⟨⟨by positivity, ⟨?_, ?_⟩, ?_, ?_, ?_, ?_⟩, ?_⟩
  · rw [e1]; linarith
  · rw [e2]; linarith
  · rw [e1]; linear_combination kma
  · rw [e1]
    linear_combination (Wl.Vx - p.cs * z / a + p.cs * (a / z)) * kma - kxa + Wl.d * ka
  · rw [e2]; linear_combination -kmb
  · rw [e2]
    linear_combination -(Wr.Vx + p.cs * z / b - p.cs * (b / z)) * kmb - kxb + Wr.d * kb
  · rw [hl.eq hp, hr.eq hp]
    have zl := hl.wf.2 hm
    have zr := hr.wf.2 hm
    split_ifs
    · simp only [Option.pure_def, Option.some.injEq, physFlux, press, hi, hm, if_true, Bool.false_eq_true, if_false, Cons1D.mk.injEq]
      refine ⟨trivial, ?_, ?_, ?_, trivial, ?_, ?_, trivial⟩ <;> (try rw [zr.1]) <;> (try rw [zr.2]) <;> ring
    · simp only [Option.pure_def, Option.some.injEq, physFlux, press, hi, hm, if_true, Bool.false_eq_true, if_false, Cons1D.mk.injEq]
      refine ⟨trivial, ?_, ?_, ?_, trivial, ?_, ?_, trivial⟩ <;> (try rw [zl.1]) <;> (try rw [zl.2]) <;> ring
    · simp only [Option.pure_def, Option.some.injEq, physFlux, press, hi, hm, if_true, Bool.false_eq_true, if_false, Cons1D.mk.injEq]
      refine ⟨trivial, ?_, ?_, ?_, trivial, ?_, ?_, trivial⟩ <;> (try rw [zl.1]) <;> (try rw [zl.2]) <;> ring
    · simp only [Option.pure_def, Option.some.injEq, physFlux, press, hi, hm, if_true, Bool.false_eq_true, if_false, Cons1D.mk.injEq]
      refine ⟨trivial, ?_, ?_, ?_, trivial, ?_, ?_, trivial⟩ <;> (try rw [zr.1]) <;> (try rw [zr.2]) <;> ring


/-- C34: in isothermal hydrodynamics the two-shock flux is the flux, at the interface, of an exact two-shock solution (the
Rankine-Hugoniot conditions hold at both shocks): the left flux if both shocks move right, the right flux if both move left, otherwise
that of the middle state, with transverse velocity and scalars from the upwind side of the contact. -/
theorem twoShock_solution (hp : p.Ok) (hi : p.iso = true) (hm : p.mhd = false) (hl : State p Bx Wl Ul) (hr : State p Bx Wr Ur) :
    ∃ d v sl sr, TwoShock p Wl Wr d v sl sr ∧ twoShock p Ul Ur Wl Wr = some
      (if sr ≤ 0 then physFlux p Wr Bx else if sl ≥ 0 then physFlux p Wl Bx else
        physFlux p { (if v ≥ 0 then Wl else Wr) with d := d, Vx := v } Bx) :=
  ⟨_, _, _, _, twoShock_closed hp hi hm hl hr⟩

/-- C34: for equal states the two-shock flux is the physical flux. -/
theorem twoShock_consistent (hp : p.Ok) (hi : p.iso = true) (hm : p.mhd = false) (h : State p Bx W U) :
    twoShock p U U W W = some (physFlux p W Bx) := by
  obtain ⟨d, v, sl, sr, ⟨h1, ⟨h2, h3⟩, h4, h5, h6, h7⟩, h8⟩ := twoShock_solution hp hi hm h h
  rw [h8]
  have hne : sr - sl ≠ 0 := by linarith
  have hd : d = W.d := by
    have : (d - W.d) * (sr - sl) = 0 := by linear_combination h4 - h6
    rcases mul_eq_zero.mp this with h | h
    · linarith
    · exact absurd h hne
  have hv : v = W.Vx := by
    rw [hd] at h4
    have : W.d * (v - W.Vx) = 0 := by linear_combination h4
    rcases mul_eq_zero.mp this with g | g
    · exact absurd g h.d.ne'
    · linarith
  rw [hd, hv]
  congr 1
  split_ifs <;> rfl

theorem physFlux_mirror (p : Phys) (W : Prim1D ns) (Bx : ℝ) : physFlux p W.mirror (-Bx) = (physFlux p W Bx).mirrorFlux := by
  cases hi : p.iso <;> cases hm : p.mhd <;>
    simp only [physFlux, Prim1D.mirror, Cons1D.mirrorFlux, press, energy, hi, hm, Bool.false_eq_true, if_true, if_false,
      Cons1D.mk.injEq] <;>
    refine ⟨?_, ?_, ?_, ?_, ?_, ?_, ?_, ?_⟩ <;> (try funext n) <;> first | trivial | ring1

/-- C35: the two-shock flux is mirror symmetric. -/
theorem twoShock_mirror (hp : p.Ok) (hi : p.iso = true) (hm : p.mhd = false) (hl : State p Bx Wl Ul) (hr : State p Bx Wr Ur) :
    ∃ F, twoShock p Ul Ur Wl Wr = some F ∧ twoShock p Ur.mirror Ul.mirror Wr.mirror Wl.mirror = some F.mirrorFlux := by
  obtain ⟨h1, h2⟩ := twoShock_closed hp hi hm hl hr
  obtain ⟨-, h3⟩ := twoShock_closed hp hi hm hr.mirror hl.mirror
  refine ⟨_, h2, ?_⟩
  rw [h3]
  congr 1
  have e1 : Wr.mirror.d = Wr.d := rfl
  have e2 : Wl.mirror.d = Wl.d := rfl
  have e3 : Wr.mirror.Vx = -Wr.Vx := rfl
  have e4 : Wl.mirror.Vx = -Wl.Vx := rfl
  rw [e1, e2, e3, e4]
  generalize Real.sqrt Wl.d = a at *
  generalize Real.sqrt Wr.d = b at *
  have et : b * a * (-Wr.Vx - -Wl.Vx) / (2 * p.cs * (b + a)) = a * b * (Wl.Vx - Wr.Vx) / (2 * p.cs * (a + b)) := by
    rw [add_comm b a, mul_comm b a, show -Wr.Vx - -Wl.Vx = Wl.Vx - Wr.Vx by ring]
  have ez : tsZ b a (-Wr.Vx) (-Wl.Vx) p.cs = tsZ a b Wl.Vx Wr.Vx p.cs := by
    unfold tsZ; rw [et, mul_comm b a]
  have ev : tsV b a (-Wr.Vx) (-Wl.Vx) p.cs = -tsV a b Wl.Vx Wr.Vx p.cs := by
    unfold tsV; rw [ez, add_comm b a]; ring
  rw [ez, ev]
  generalize tsZ a b Wl.Vx Wr.Vx p.cs = z at *
  generalize tsV a b Wl.Vx Wr.Vx p.cs = v at *
  rw [show -Wr.Vx - p.cs * z / b = -(Wr.Vx + p.cs * z / b) by ring, show -Wl.Vx + p.cs * z / a = -(Wl.Vx - p.cs * z / a) by ring]
  generalize Wr.Vx + p.cs * z / b = sr at *
  generalize Wl.Vx - p.cs * z / a = sl at *
  obtain ⟨h4, h5⟩ := h1.order
  unfold tsFlux
  by_cases c1 : sr ≤ 0
  · rw [if_neg (by linarith), if_pos (by linarith), if_pos c1, physFlux_mirror]
  by_cases c2 : sl ≥ 0
  · rw [if_pos (by linarith), if_neg c1, if_pos c2, physFlux_mirror]
  rw [if_neg (by linarith), if_neg (by linarith), if_neg c1, if_neg c2]
  rcases lt_trichotomy v 0 with c | c | c
  · rw [if_pos (by linarith), if_neg (by linarith), ← physFlux_mirror]; rfl
  · subst c
    rw [if_pos (by linarith), if_pos (by linarith)]
    have zl := hl.wf.2 hm
    have zr := hr.wf.2 hm
    simp [physFlux, Prim1D.mirror, Cons1D.mirrorFlux, press, hi, hm, zl.1, zl.2, zr.1, zr.2]
  · rw [if_neg (by linarith), if_pos (by linarith), ← physFlux_mirror]; rfl

/-! ## The FORCE flux is not mirror symmetric in adiabatic MHD -/

/-- C35: in adiabatic MHD (subsonic case) the energy flux of the FORCE solver changes under reflection by the difference of the
magnetic pressures times half the velocity of the mean state, because force.c:273 uses `pbl` for the mean state. -/
theorem force_mirror_defect (hp : p.Ok) (hi : p.iso = false) (hm : p.mhd = true) (hl : State p Bx Wl Ul) (hr : State p Bx Wr Ur)
    {al ar : ℝ} (hs : speeds p Ul Ur Wl Wr Bx = some (al, ar)) (h0 : al < 0) (h0' : 0 < ar) :
    ∃ F F', force p Ul Ur Wl Wr Bx = some F ∧ force p Ur.mirror Ul.mirror Wr.mirror Wl.mirror (-Bx) = some F' ∧
      F'.E = -F.E + 1/4 * (Wl.By ^ 2 + Wl.Bz ^ 2 - Wr.By ^ 2 - Wr.Bz ^ 2) *
        (((physFlux p Wl Bx).Mx - al * Ul.Mx - (physFlux p Wr Bx).Mx + ar * Ur.Mx) /
         ((physFlux p Wl Bx).d - al * Ul.d - (physFlux p Wr Bx).d + ar * Ur.d)) := by
  obtain ⟨al', ar', h', hlt, h1, h2⟩ := speeds_bounds hp hl hr
  rw [hs] at h'; obtain ⟨rfl, rfl⟩ := Prod.mk.inj (Option.some.inj h')
  have h' := speeds_mirror hp hl hr hs
  unfold force
  rw [hs, h']
  simp only [Option.bind_eq_bind, Option.bind_some]
  rw [(fm_mirror al ar).1, (fm_mirror al ar).2, sideFlux_mirror, sideFlux_mirror]
  rw [if_neg (by linarith), if_neg (by linarith), if_neg (by linarith), if_neg (by linarith), fdiv_pos (by linarith : 0 < ar - al),
    fdiv_pos (bp_bm hlt), fmax_eq, fmin_eq, max_eq_left h0'.le, min_eq_left h0.le, fdiv_pos (by linarith : 0 < -al - -ar),
    fdiv_pos (by linarith : 0 < -al - -ar)]
  simp only [Option.bind_some]
  have hd := mean_density hp hl hr h1 h2 hlt
  rw [sideFlux_map2 hp hl, sideFlux_map2 hp hr] at hd ⊢
  set Fl := Cons1D.map2 (fun f u => f - al * u) (physFlux p Wl Bx) Ul with hFl
  set Fr := Cons1D.map2 (fun f u => f - ar * u) (physFlux p Wr Bx) Ur with hFr
  set Uc := comb p (fun a b => (a - b) * (1 / (ar - al))) Fl Fr with hUc
  have hmi : comb p (fun a b => (a - b) * (1 / (-al - -ar))) Fr.mirrorFlux Fl.mirrorFlux = Uc.mirror := by
    have e : (-al - -ar) = ar - al := by ring
    rw [e, hUc]
    unfold comb Cons1D.mirrorFlux Cons1D.mirror
    ext <;> dsimp only <;> (try split_ifs) <;> ring
  have hg : gasPressure p Uc.mirror (-Bx) = gasPressure p Uc Bx := by simp [gasPressure, Cons1D.mirror]
  rw [hmi, c2p_eq _ _ _ hd.ne', c2p_eq _ _ _ (by exact hd.ne'), hg]
  simp only [Option.bind_some, Option.pure_def]
  refine ⟨_, _, rfl, rfl, ?_⟩
  have hk : 1/4 * (-al + -ar) / (-al - -ar) = -(1/4 * (ar + al) / (ar - al)) := by
    rw [show -al - -ar = ar - al by ring, ← neg_div]; congr 1; ring
  rw [hk]
  have hc : ((physFlux p Wl Bx).Mx - al * Ul.Mx - (physFlux p Wr Bx).Mx + ar * Ur.Mx) /
         ((physFlux p Wl Bx).d - al * Ul.d - (physFlux p Wr Bx).d + ar * Ur.d) = Uc.Mx / Uc.d := by
    have e1 : Uc.Mx = ((physFlux p Wl Bx).Mx - al * Ul.Mx - (physFlux p Wr Bx).Mx + ar * Ur.Mx) * (1 / (ar - al)) := by
      rw [hUc]; simp only [comb, hFl, hFr, Cons1D.map2]; ring
    have e2 : Uc.d = ((physFlux p Wl Bx).d - al * Ul.d - (physFlux p Wr Bx).d + ar * Ur.d) * (1 / (ar - al)) := by
      rw [hUc]; simp only [comb, hFl, hFr, Cons1D.map2]; ring
    rw [e1, e2, mul_div_mul_right _ _ (by have : 0 < ar - al := by linarith
                                          positivity)]
  rw [hc]
  simp only [scalars, comb, meanFlux, Cons1D.mirror, Cons1D.mirrorFlux, Prim1D.mirror, hi, hm, if_true, Bool.false_eq_true, if_false,
    magP, sqr]
  ring

/-- Adiabatic MHD, γ = 5/3. -/
def phF : Phys := ⟨false, true, 5/3, 0, 1/100⟩
/-- Two states with the same density, velocity and total pressure and different transverse fields. -/
def wFl : Prim1D 0 := ⟨1, 1/2, 0, 0, 2, 0, 0, fun _ => 0⟩
/-- Right state. -/
def wFr : Prim1D 0 := ⟨1, 1/2, 0, 0, 3/2, 1, 0, fun _ => 0⟩

theorem phF_ok : phF.Ok := ⟨by simp [phF], by norm_num [phF], by norm_num [phF], by norm_num [phF]⟩

theorem state_of (p : Phys) (hp : p.Ok) (Bx : ℝ) (W : Prim1D ns) (hw : W.Wf p) (hd : 0 < W.d) (hP : p.iso = false → 0 < W.P) :
    ∃ U, State p Bx W U := ⟨_, hw, hd, hP, p2c_eq p W Bx (fun hi => (hp.gamma hi).ne')⟩

/-- C35 fails for the FORCE solver in adiabatic MHD: there are physical states for which the mirrored problem does not have the mirrored
flux. -/
theorem force_mirror_false : ∃ (p : Phys) (Bx : ℝ) (Wl Wr : Prim1D 0) (Ul Ur F F' : Cons1D 0), p.Ok ∧ State p Bx Wl Ul ∧ State p Bx Wr Ur ∧
    force p Ul Ur Wl Wr Bx = some F ∧ force p Ur.mirror Ul.mirror Wr.mirror Wl.mirror (-Bx) = some F' ∧ F' ≠ F.mirrorFlux := by
  obtain ⟨Ul, hl⟩ := state_of phF phF_ok 0 wFl (by simp [Prim1D.Wf, phF]) (by norm_num [wFl]) (by norm_num [wFl])
  obtain ⟨Ur, hr⟩ := state_of phF phF_ok 0 wFr (by simp [Prim1D.Wf, phF]) (by norm_num [wFr]) (by norm_num [wFr])
  obtain ⟨al, ar, hs, hlt, h1, h2⟩ := speeds_bounds phF_ok hl hr
  obtain ⟨al', ar', cl, cr, hs', hcl, hcr, h3, h4, -⟩ := fan_speeds phF_ok hl hr
  rw [hs] at hs'; obtain ⟨rfl, rfl⟩ := Prod.mk.inj (Option.some.inj hs')
  have h0 : al < 0 := by
    obtain ⟨c, -, c0, cc, -, hc'⟩ := sideC_pos phF_ok hl
    rw [hcl] at hc'; obtain rfl := Option.some.inj hc'
    have : soundSq phF wFl = 10/3 := by norm_num [soundSq, phF, wFl]
    rw [this] at cc
    have : wFl.Vx = 1/2 := rfl
    nlinarith
  have h0' : 0 < ar := by
    have : wFr.Vx = 1/2 := rfl
    linarith
  obtain ⟨F, F', hF, hF', hE⟩ := force_mirror_defect phF_ok rfl rfl hl hr hs h0 h0'
  refine ⟨phF, 0, wFl, wFr, Ul, Ur, F, F', phF_ok, hl, hr, hF, hF', ?_⟩
  intro h
  rw [h, hl.eq phF_ok, hr.eq phF_ok] at hE
  have hne : ar - al ≠ 0 := by linarith
  have e1 : (physFlux phF wFl 0).Mx = 9/4 := by norm_num [physFlux, press, phF, wFl]
  have e2 : (physFlux phF wFr 0).Mx = 9/4 := by norm_num [physFlux, press, phF, wFr]
  have e3 : (physFlux phF wFl 0).d = 1/2 := by norm_num [physFlux, press, phF, wFl]
  have e4 : (physFlux phF wFr 0).d = 1/2 := by norm_num [physFlux, press, phF, wFr]
  rw [e1, e2, e3, e4] at hE
  simp only [Cons1D.mirrorFlux, wFl, wFr] at hE
  have : (9/4 - al * (1 * (1/2)) - 9/4 + ar * (1 * (1/2))) / (1/2 - al * 1 - 1/2 + ar * 1) = (1/2 : ℝ) := by
    rw [show (9/4 - al * (1 * (1/2)) - 9/4 + ar * (1 * (1/2))) = 1/2 * (ar - al) by ring,
      show (1/2 - al * 1 - 1/2 + ar * 1) = ar - al by ring]
    field_simp
  rw [this] at hE
  norm_num at hE

/-! ## The hypotheses are met -/

/-- Isothermal MHD. -/
def phIm : Phys := ⟨true, true, 0, 2, 1/100⟩
/-- Isothermal hydrodynamics. -/
def phIh : Phys := ⟨true, false, 0, 2, 1/100⟩
theorem phIh_ok : phIh.Ok := ⟨by norm_num [phIh], by simp [phIh], by simp [phIh], by norm_num [phIh]⟩
/-- Adiabatic MHD, field oblique to the face, moving gas: `hlle_*`, `force_*`. -/
example : ∃ Ul Ur : Cons1D 0, phF.Ok ∧ State phF (3/4) wFl Ul ∧ State phF (3/4) wFr Ur := by
  obtain ⟨Ul, hl⟩ := state_of phF phF_ok (3/4) wFl (by simp [Prim1D.Wf, phF]) (by norm_num [wFl]) (by norm_num [wFl])
  obtain ⟨Ur, hr⟩ := state_of phF phF_ok (3/4) wFr (by simp [Prim1D.Wf, phF]) (by norm_num [wFr]) (by norm_num [wFr])
  exact ⟨Ul, Ur, phF_ok, hl, hr⟩
/-- Isothermal MHD with a scalar. -/
example : ∃ U : Cons1D 1, phIm.Ok ∧ State phIm 1 (⟨2, -1, 1, 0, 0, 3, 1, fun _ => 1/2⟩ : Prim1D 1) U := by
  have hok : phIm.Ok := ⟨by norm_num [phIm], by simp [phIm], by simp [phIm], by norm_num [phIm]⟩
  obtain ⟨U, h⟩ := state_of phIm hok 1 (⟨2, -1, 1, 0, 0, 3, 1, fun _ => 1/2⟩ : Prim1D 1) (by simp [Prim1D.Wf, phIm]) (by norm_num)
    (by simp [phIm])
  exact ⟨U, hok, h⟩
/-- Colliding isothermal streams: `twoShock_*`. -/
example : ∃ Ul Ur : Cons1D 1, phIh.Ok ∧ phIh.iso = true ∧ phIh.mhd = false ∧
    State phIh 0 (⟨2, 3, 1, 0, 0, 0, 0, fun _ => 1/2⟩ : Prim1D 1) Ul ∧ State phIh 0 (⟨1, -3, 0, 0, 0, 0, 0, fun _ => 1⟩ : Prim1D 1) Ur := by
  obtain ⟨Ul, hl⟩ := state_of phIh phIh_ok 0 (⟨2, 3, 1, 0, 0, 0, 0, fun _ => 1/2⟩ : Prim1D 1) (by simp [Prim1D.Wf, phIh]) (by norm_num)
    (by simp [phIh])
  obtain ⟨Ur, hr⟩ := state_of phIh phIh_ok 0 (⟨1, -3, 0, 0, 0, 0, 0, fun _ => 1⟩ : Prim1D 1) (by simp [Prim1D.Wf, phIh]) (by norm_num)
    (by simp [phIh])
  exact ⟨Ul, Ur, phIh_ok, rfl, rfl, hl, hr⟩

end
end Athena.Hydro
