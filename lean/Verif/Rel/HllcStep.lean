import Verif.Rel.HllcProps2

/-!
A first-order step with the relativistic HLLC flux leaves the gas physical.
-/
namespace Athena.Rel

/-- `U - h (F' - F)`. -/
theorem half_right {h : ℝ} (h0 : 0 ≤ h) (h1 : h ≤ 1 / 2) {ll ls lr : ℝ} {Ul Usl Usr Ur : Cons}
    {Fl Fsl Fsr Fr F : Cons} (wl : Ul.Warm) (wsl : Usl.Warm) (wsr : Usr.Warm) (wr : Ur.Warm)
    (o1 : -1 < ll) (o2 : ll < ls) (o3 : ls < lr)
    (j1 : Jump ll Ul Fl Usl Fsl) (j2 : Jump ls Usl Fsl Usr Fsr) (j3 : Jump lr Usr Fsr Ur Fr)
    (hF : F = if 0 ≤ ll then Fl else if 0 ≤ ls then Fsl else if 0 ≤ lr then Fsr else Fr) :
    (⟨Ul.d / 2 - h * (F.d - Fl.d), Ul.Mx / 2 - h * (F.Mx - Fl.Mx), Ul.My / 2 - h * (F.My - Fl.My),
      Ul.Mz / 2 - h * (F.Mz - Fl.Mz), Ul.E / 2 - h * (F.E - Fl.E)⟩ : Cons).Warm := by
  rcases h0.eq_or_lt with hz | hp
  · subst hz
    have := wl.smul (by norm_num : (0 : ℝ) < 1 / 2)
    convert this using 1
    unfold Cons.smul
    ext <;> simp only <;> ring
  split_ifs at hF with c1 c2 c3 <;> subst hF
  · have := wl.smul (by norm_num : (0 : ℝ) < 1 / 2)
    convert this using 1
    unfold Cons.smul
    ext <;> simp only <;> ring
  · push Not at c1
    have a1 : 0 < 1 / 2 + h * ll := by nlinarith
    have a2 : 0 < h * -ll := mul_pos hp (by linarith)
    have := (wl.smul a1).add (wsl.smul a2)
    convert this using 1
    unfold Cons.smul Cons.add
    ext <;> simp only
    · linear_combination (-h) * j1.d
    · linear_combination (-h) * j1.Mx
    · linear_combination (-h) * j1.My
    · linear_combination (-h) * j1.Mz
    · linear_combination (-h) * j1.E
  · push Not at c1 c2
    have a1 : 0 < 1 / 2 + h * ll := by nlinarith
    have a2 : 0 < h * (ls - ll) := mul_pos hp (by linarith)
    have a3 : 0 < h * -ls := mul_pos hp (by linarith)
    have := ((wl.smul a1).add (wsl.smul a2)).add (wsr.smul a3)
    convert this using 1
    unfold Cons.smul Cons.add
    ext <;> simp only
    · linear_combination (-h) * j1.d + (-h) * j2.d
    · linear_combination (-h) * j1.Mx + (-h) * j2.Mx
    · linear_combination (-h) * j1.My + (-h) * j2.My
    · linear_combination (-h) * j1.Mz + (-h) * j2.Mz
    · linear_combination (-h) * j1.E + (-h) * j2.E
  · push Not at c1 c2 c3
    have a1 : 0 < 1 / 2 + h * ll := by nlinarith
    have a2 : 0 < h * (ls - ll) := mul_pos hp (by linarith)
    have a3 : 0 < h * (lr - ls) := mul_pos hp (by linarith)
    have a4 : 0 < h * -lr := mul_pos hp (by linarith)
    have := (((wl.smul a1).add (wsl.smul a2)).add (wsr.smul a3)).add (wr.smul a4)
    convert this using 1
    unfold Cons.smul Cons.add
    ext <;> simp only
    · linear_combination (-h) * j1.d + (-h) * j2.d + (-h) * j3.d
    · linear_combination (-h) * j1.Mx + (-h) * j2.Mx + (-h) * j3.Mx
    · linear_combination (-h) * j1.My + (-h) * j2.My + (-h) * j3.My
    · linear_combination (-h) * j1.Mz + (-h) * j2.Mz + (-h) * j3.Mz
    · linear_combination (-h) * j1.E + (-h) * j2.E + (-h) * j3.E

theorem half_left {h : ℝ} (h0 : 0 ≤ h) (h1 : h ≤ 1 / 2) {ll ls lr : ℝ} {Ul Usl Usr Ur : Cons}
    {Fl Fsl Fsr Fr F : Cons} (wl : Ul.Warm) (wsl : Usl.Warm) (wsr : Usr.Warm) (wr : Ur.Warm)
    (o2 : ll < ls) (o3 : ls < lr) (o4 : lr < 1)
    (j1 : Jump ll Ul Fl Usl Fsl) (j2 : Jump ls Usl Fsl Usr Fsr) (j3 : Jump lr Usr Fsr Ur Fr)
    (hF : F = if 0 ≤ ll then Fl else if 0 ≤ ls then Fsl else if 0 ≤ lr then Fsr else Fr) :
    (⟨Ur.d / 2 - h * (Fr.d - F.d), Ur.Mx / 2 - h * (Fr.Mx - F.Mx), Ur.My / 2 - h * (Fr.My - F.My),
      Ur.Mz / 2 - h * (Fr.Mz - F.Mz), Ur.E / 2 - h * (Fr.E - F.E)⟩ : Cons).Warm := by
  rcases h0.eq_or_lt with hz | hp
  · subst hz
    have := wr.smul (by norm_num : (0 : ℝ) < 1 / 2)
    convert this using 1
    unfold Cons.smul
    ext <;> simp only <;> ring
  have triv : (⟨Ur.d / 2 - h * (Fr.d - Fr.d), Ur.Mx / 2 - h * (Fr.Mx - Fr.Mx),
      Ur.My / 2 - h * (Fr.My - Fr.My), Ur.Mz / 2 - h * (Fr.Mz - Fr.Mz),
      Ur.E / 2 - h * (Fr.E - Fr.E)⟩ : Cons).Warm := by
    have := wr.smul (by norm_num : (0 : ℝ) < 1 / 2)
    convert this using 1
    unfold Cons.smul
    ext <;> simp only <;> ring
  by_cases c3 : 0 < lr
  swap
  · -- every wave goes left or rests: the flux is the right state's
    push Not at c3
    rw [if_neg (by linarith), if_neg (by linarith)] at hF
    split_ifs at hF with c4
    · have : lr = 0 := le_antisymm c3 c4
      subst this
      subst hF
      have e : Fr = F := by
        ext
        · have := j3.d; linarith
        · have := j3.Mx; linarith
        · have := j3.My; linarith
        · have := j3.Mz; linarith
        · have := j3.E; linarith
      rw [← e]
      exact triv
    · subst hF
      exact triv
  have a1 : 0 < 1 / 2 - h * lr := by nlinarith
  by_cases c2 : 0 ≤ ls
  swap
  · push Not at c2
    rw [if_neg (by linarith), if_neg (by linarith), if_pos c3.le] at hF
    subst hF
    have a2 : 0 < h * lr := mul_pos hp c3
    have := (wr.smul a1).add (wsr.smul a2)
    convert this using 1
    unfold Cons.smul Cons.add
    ext <;> simp only
    · linear_combination (-h) * j3.d
    · linear_combination (-h) * j3.Mx
    · linear_combination (-h) * j3.My
    · linear_combination (-h) * j3.Mz
    · linear_combination (-h) * j3.E
  have a2 : 0 < h * (lr - ls) := mul_pos hp (by linarith)
  have w2 := (wr.smul a1).add (wsr.smul a2)
  -- contact and left wave move right or rest
  have w3 : ∀ k : ℝ, 0 ≤ k → ∀ {A B : Cons}, A.Warm → B.Warm → (Cons.add A (Cons.smul k B)).Warm := by
    intro k hk A B hA hB
    rcases hk.eq_or_lt with e | e
    · subst e
      convert hA using 1
      unfold Cons.smul Cons.add
      ext <;> simp
    · exact hA.add (hB.smul e)
  by_cases c1 : 0 ≤ ll
  swap
  · rw [if_neg c1, if_pos c2] at hF
    subst hF
    have := w3 (h * ls) (mul_nonneg h0 c2) w2 wsl
    convert this using 1
    unfold Cons.smul Cons.add
    ext <;> simp only
    · linear_combination (-h) * j3.d + (-h) * j2.d
    · linear_combination (-h) * j3.Mx + (-h) * j2.Mx
    · linear_combination (-h) * j3.My + (-h) * j2.My
    · linear_combination (-h) * j3.Mz + (-h) * j2.Mz
    · linear_combination (-h) * j3.E + (-h) * j2.E
  · rw [if_pos c1] at hF
    subst hF
    have := w3 (h * ll) (mul_nonneg h0 c1) (w3 (h * (ls - ll)) (mul_nonneg h0 (by linarith)) w2 wsl) wl
    convert this using 1
    unfold Cons.smul Cons.add
    ext <;> simp only
    · linear_combination (-h) * j3.d + (-h) * j2.d + (-h) * j1.d
    · linear_combination (-h) * j3.Mx + (-h) * j2.Mx + (-h) * j1.Mx
    · linear_combination (-h) * j3.My + (-h) * j2.My + (-h) * j1.My
    · linear_combination (-h) * j3.Mz + (-h) * j2.Mz + (-h) * j1.Mz
    · linear_combination (-h) * j3.E + (-h) * j2.E + (-h) * j1.E

/-- Warm primitive states have warm conserved states, and only they do. -/
theorem warm_iff {g : ℝ} (hg : 1 < g) (hg2 : g ≤ 2) (U : Cons) :
    U.Warm ↔ ∃ W : Prim, W.Warm ∧ primToCons g W = U := by
  have gap : ∀ W : Prim, W.Physical → (primToCons g W).E ^ 2 - (primToCons g W).msq
      - (primToCons g W).d ^ 2 =
      (W.enth g ^ 2 - W.d ^ 2 - 2 * W.enth g * W.P) / (1 - W.vsq) + W.P ^ 2 := by
    intro W hW
    have ht : 0 < 1 - W.vsq := by linarith [hW.v]
    have hD : (√(1 / (1 - W.vsq))) ^ 2 = 1 / (1 - W.vsq) := Real.sq_sqrt (by positivity)
    rw [msq_primToCons, primToCons_eq]
    simp only
    rw [mul_pow, hD]
    field_simp
    ring
  constructor
  · intro h
    obtain ⟨W, hW, rfl⟩ := admissible_has_prim hg U ⟨h.d, h.E, h.lt.le⟩
    refine ⟨W, ⟨hW.d, ?_, hW.v⟩, rfl⟩
    rcases hW.P.eq_or_lt with e | e
    · exfalso
      have h1 := gap W hW
      have h2 := h.lt
      have h3 : W.enth g = W.d := by unfold Prim.enth; rw [← e]; ring
      rw [h3, ← e] at h1
      norm_num at h1
      linarith
    · exact e
  · rintro ⟨W, hW, rfl⟩
    have ha := primToCons_admissible hg hg2 hW.physical
    refine ⟨ha.d, ha.E, ?_⟩
    have h1 := gap W hW.physical
    have hk := warm_enth_sq hg hg2 hW
    have hw := enth_gt hg hg2 hW
    have ht : 0 < 1 - W.vsq := by linarith [hW.v]
    have hP := hW.P
    have hK : 0 < W.enth g ^ 2 - W.d ^ 2 - 2 * W.enth g * W.P := by
      have : 0 < W.P * (W.enth g - g * W.P) := mul_pos hP (by linarith)
      have h5 : 0 < g * (W.enth g ^ 2 - W.d ^ 2 - 2 * W.enth g * W.P) := by linarith
      exact (mul_pos_iff_of_pos_left (by linarith)).1 h5
    have : 0 < (W.enth g ^ 2 - W.d ^ 2 - 2 * W.enth g * W.P) / (1 - W.vsq) + W.P ^ 2 := by
      positivity
    linarith

/-- **C106.**  First-order step of one zone between two neighbours: with a time step of at most
half the zone's light-crossing time (`h = dt/dx ≤ 1/2`), whatever the three gas states, the new
conserved variables are those of a gas with positive density and pressure that moves slower than
light. -/
theorem sr_first_order_physical {g h : ℝ} (hg : 1 < g) (hg2 : g ≤ 2) (h0 : 0 ≤ h) (h1 : h ≤ 1 / 2)
    (Wm W Wp : Prim) (hm : Wm.Warm) (hW : W.Warm) (hp : Wp.Warm) :
    ∃ W' : Prim, W'.Warm ∧ primToCons g W' =
      updHalf h (primToCons g W)
        (hllcSR g (primToCons g W) (primToCons g Wp) W Wp)
        (hllcSR g (primToCons g Wm) (primToCons g W) Wm W) := by
  have um := (warm_iff hg hg2 _).2 ⟨Wm, hm, rfl⟩
  have u := (warm_iff hg hg2 _).2 ⟨W, hW, rfl⟩
  have up := (warm_iff hg hg2 _).2 ⟨Wp, hp, rfl⟩
  obtain ⟨s1, p1, A1, B1, ⟨o1, o2, o3, o4⟩, wa, wb, -, -, j1, j2, j3, hF⟩ :=
    sr_hllc_fan hg hg2 W Wp hW hp
  obtain ⟨s2, p2, A2, B2, ⟨o1', o2', o3', o4'⟩, wa', wb', -, -, j1', j2', j3', hF'⟩ :=
    sr_hllc_fan hg hg2 Wm W hm hW
  have r := half_right h0 h1 u wa wb up o1 o2 o3 j1 j2 j3 hF
  have l := half_left h0 h1 um wa' wb' u o2' o3' o4' j1' j2' j3' hF'
  rw [← warm_iff hg hg2]
  convert r.add l using 1
  unfold updHalf Cons.add
  ext <;> simp only <;> ring

/-- **C106, the integrator.**  The predictor of the relativistic van Leer integrator in one
dimension: if every zone holds the conserved variables of a gas state that the conversion
resolves (at rest, or with momentum at least `10⁻²⁰` and speed at most `1 - 10⁻¹⁵`), then with a
time step of at most a light-crossing time of a zone (`hdtodx = dt/(2 dx) ≤ 1/2`) the half-step
values of every zone are again those of a gas with positive density and pressure that moves
slower than light. -/
theorem sr_predictor_physical {g h : ℝ} (hg : 1 < g) (hg2 : g ≤ 2) (h0 : 0 ≤ h) (h1 : h ≤ 1 / 2)
    (W : ℤ → Prim) (hW : ∀ i, (W i).Warm)
    (hm : ∀ i, (W i).vsq = 0 ∨ (1 / 10 ^ 20) ^ 2 ≤ (primToCons g (W i)).msq)
    (hv : ∀ i, (W i).vsq ≤ (1 - 1 / 10 ^ 15) ^ 2) (i : ℤ) :
    ∃ W' : Prim, W'.Warm ∧ primToCons g W' = predictor g h (fun i => primToCons g (W i)) i := by
  have e : ∀ i, consToPrim g (primToCons g (W i)) = W i := fun i =>
    sr_hydro_round_trip hg hg2 (W i) (hW i).physical (hm i) (hv i)
  have := sr_first_order_physical hg hg2 h0 h1 (W (i - 1)) (W i) (W (i + 1)) (hW _) (hW _) (hW _)
  unfold predictor
  simp only [e, add_sub_cancel_right]
  exact this

/-- A concrete case: a blast wave, a thousandfold jump of pressure moving with 0.8. -/
example : ∃ W' : Prim, W'.Warm ∧ primToCons (5 / 3) W' = predictor (5 / 3) (2 / 5)
    (fun i => primToCons (5 / 3) (if i < 0 then ⟨1, 4 / 5, 0, 0, 1000⟩ else ⟨1, 0, 0, 0, 1⟩)) 0 := by
  apply sr_predictor_physical (by norm_num) (by norm_num) (by norm_num) (by norm_num)
    (fun i : ℤ => if i < 0 then ⟨1, 4 / 5, 0, 0, 1000⟩ else ⟨1, 0, 0, 0, 1⟩)
  · intro i
    split_ifs <;> constructor <;> norm_num [Prim.vsq]
  · intro i
    split_ifs
    · right
      rw [msq_primToCons]
      norm_num [Prim.vsq, Prim.enth]
    · left; norm_num [Prim.vsq]
  · intro i
    split_ifs <;> norm_num [Prim.vsq]

end Athena.Rel
