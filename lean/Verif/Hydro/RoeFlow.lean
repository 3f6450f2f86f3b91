import Verif.Hydro.RoeEsys

/-! # What the eigensystems of Roe's solver diagonalise -/

namespace Athena.Hydro
noncomputable section
open Classical

/-- `Σ ev (l·u) r`: the matrix with the given eigensystem, applied to `u`. -/
def flow (ws : List Wave) (u : V7) : V7 := wsum (fun w => w.ev * dot w.l u) ws

theorem flow_shift {p : Phys} {ws : List Wave} {u : V7} (v : ℝ) (h : Esys p ws) (hu : u.Wf p) :
    flow ws u = (u.smul v).add (wsum (fun w => (w.ev - v) * dot w.l u) ws) := by
  conv_rhs => rw [← h.complete u hu]
  rw [wsum_smul, wsum_add, flow]
  rw [h.complete u hu]
  congr 1; funext w; ring

theorem Wf_adbMhd {p : Phys} (hi : p.iso = false) (hm : p.mhd = true) (u : V7) : u.Wf p :=
  ⟨fun h => by simp [hi] at h, fun h => by simp [hm] at h⟩

theorem flowIsoHyd (p : Phys) (hi : p.iso = true) (hm : p.mhd = false) (v1 v2 v3 : ℝ) (hc : 0 < p.cs) {ws : List Wave}
    (h : esysIsoHyd p v1 v2 v3 = some ws) (u : V7) (hu : u.Wf p) :
    flow ws u = ⟨u.mx, v1 * u.mx + v1 * (u.mx - v1 * u.d) + p.cs ^ 2 * u.d, v1 * u.my + v2 * (u.mx - v1 * u.d),
      v1 * u.mz + v3 * (u.mx - v1 * u.d), 0, 0, 0⟩ := by
  unfold esysIsoHyd at h
  rw [fdiv_pos hc, fdiv_pos hc] at h
  simp only [Option.bind_eq_bind, Option.bind_some, Option.pure_def, Option.some.injEq] at h
  subst h
  have hc' := hc.ne'
  have he := hu.1 hi
  obtain ⟨hb, hz⟩ := hu.2 hm
  ext <;> simp only [flow, wsum, dot, V7.add, V7.smul, V7.zero, he, hb, hz] <;> field_simp <;> ring

theorem flowAdbHyd (p : Phys) (hm : p.mhd = false) (hg : 0 < p.gamma1) (ht : 0 < p.tiny) (v1 v2 v3 h : ℝ)
    (hf : p.tiny ≤ h - 1/2 * (v1 * v1 + v2 * v2 + v3 * v3)) {ws : List Wave}
    (hw : esysAdbHyd p v1 v2 v3 h = some ws) (u : V7) (hu : u.Wf p) :
    flow ws u = ⟨u.mx, v1 * u.mx + v1 * (u.mx - v1 * u.d) +
        p.gamma1 * (1/2 * (v1 * v1 + v2 * v2 + v3 * v3) * u.d - (v1 * u.mx + v2 * u.my + v3 * u.mz) + u.e),
      v1 * u.my + v2 * (u.mx - v1 * u.d), v1 * u.mz + v3 * (u.mx - v1 * u.d),
      v1 * u.e + h * (u.mx - v1 * u.d) +
        v1 * (p.gamma1 * (1/2 * (v1 * v1 + v2 * v2 + v3 * v3) * u.d - (v1 * u.mx + v2 * u.my + v3 * u.mz) + u.e)), 0, 0⟩ := by
  unfold esysAdbHyd at hw
  simp only at hw
  rw [fmax_eq, max_eq_left hf] at hw
  obtain ⟨K, hK⟩ : ∃ K, K = h - 1/2 * (v1 * v1 + v2 * v2 + v3 * v3) := ⟨_, rfl⟩
  have hKpos : 0 < K := by rw [hK]; linarith
  rw [← hK] at hw
  have hpos := mul_pos hg hKpos
  rw [fsqrt_nonneg hpos.le, fdiv_pos hpos, fdiv_pos hpos] at hw
  obtain ⟨a, ha⟩ : ∃ a, a = Real.sqrt (p.gamma1 * K) := ⟨_, rfl⟩
  have ha0 : 0 < a := by rw [ha]; exact Real.sqrt_pos.mpr hpos
  have hsq : p.gamma1 * K = a ^ 2 := by rw [ha, Real.sq_sqrt hpos.le]
  rw [← ha] at hw
  have hK' : K = a ^ 2 / p.gamma1 := by rw [← hsq]; field_simp
  have hh : h = a ^ 2 / p.gamma1 + 1/2 * (v1 * v1 + v2 * v2 + v3 * v3) := by rw [← hK', hK]; ring
  rw [hsq] at hw
  simp only [Option.bind_eq_bind, Option.bind_some, Option.pure_def, Option.some.injEq] at hw
  subst hw
  obtain ⟨hb, hz⟩ := hu.2 hm
  have hg' := hg.ne'
  have ha' := ha0.ne'
  rw [hh]
  ext <;> simp only [flow, wsum, dot, V7.add, V7.smul, V7.zero, hb, hz] <;> field_simp <;> ring

set_option maxHeartbeats 400000 in
theorem flowIsoMhd (p : Phys) (hiso : p.iso = true) (d v1 v2 v3 b1 b2 b3 x y : ℝ) (hd : 0 < d) (hy : 0 < y) (hT : 0 < p.cs2 + x)
    {ws : List Wave} (hw : esysIsoMhd p d v1 v2 v3 b1 b2 b3 x y = some ws) (u : V7) (hu : u.Wf p) :
    flow ws u = ⟨u.mx, v1 * u.mx + v1 * (u.mx - v1 * u.d) + ((p.cs2 + x) * u.d + y * (b2 * u.b + b3 * u.c)),
      v1 * u.my + v2 * (u.mx - v1 * u.d) - b1 * u.b, v1 * u.mz + v3 * (u.mx - v1 * u.d) - b1 * u.c, 0,
      v1 * u.b + (b2 * (u.mx - v1 * u.d) - b1 * (u.my - v2 * u.d)) * (1 / d),
      v1 * u.c + (b3 * (u.mx - v1 * u.d) - b1 * (u.mz - v3 * u.d)) * (1 / d)⟩ := by
  obtain ⟨m, bt, yy, hm, hr, -⟩ := mhdPar_spec d b1 b2 b3 y (p.cs2 + x) hd hy hT
  have ha := hr.alg
  have hT' := hr.twT
  have hes := esysIsoMhd_esys p hiso d v1 v2 v3 b1 b2 b3 x y hd hy hT hw
  unfold esysIsoMhd at hw
  rw [hm] at hw
  simp only [Option.bind_eq_bind, Option.bind_some] at hw
  rw [fdiv_ne hr.sd.ne'] at hw
  simp only [Option.bind_some, Option.pure_def, Option.some.injEq] at hw
  have e1 : m.t2s = m.t2 * (1 / yy) := by rw [hr.t2s]; ring
  have e2 : m.t3s = m.t3 * (1 / yy) := by rw [hr.t3s]; ring
  have e5 : 1 / d = (1 / m.sd) ^ 2 := by rw [← hr.sdd]; field_simp
  rw [e1, e2, hr.bts, hr.q2, hr.q3, ← hr.sdd] at hw
  rw [flow_shift v1 hes hu]
  rw [e5, ← hT', hr.hb1, hr.hb2, hr.hb3, ← hr.yyY]
  generalize 1 / m.sd = i at hw ha ⊢
  generalize 1 / yy = iy at hw ha
  obtain ⟨hi, hy, hN, hs, ht, al, alc, ala, cc, sum⟩ := ha
  clear hr hm e1 e2 e5 hT'
  subst hw
  have he := hu.1 hiso
  clear hes hu
  obtain ⟨D, M1, M2, M3, E, B2, B3⟩ := u
  dsimp only at he
  subst he
  ext <;> simp only [wsum, dot, V7.add, V7.smul, V7.zero]
  · linear_combination (2 * m.nm * 1 * (M1 - v1 * D)) * alc + (1 * (M1 - v1 * D)) * hN
  · linear_combination (2 * m.nm * v1 * (M1 - v1 * D)) * alc + (v1 * (M1 - v1 * D)) * hN +
        (1 * 2 * m.nm * D * (m.cf ^ 2 + m.cs ^ 2)) * alc - (1 * 2 * m.nm * D * (m.cf * m.cs) ^ 2) * al -
        (1 * 2 * m.nm * D * (m.cf * m.cs + m.tw * m.vax)) * cc + (1 * 2 * m.nm * D * m.tw ^ 2) * sum + (1 * D * ((bt * yy * i) ^ 2 + m.tw ^ 2)) * hN +
        (1 * 2 * m.nm * (m.tw * (i * m.sd ^ 2 * yy * (m.t2 * B2 + m.t3 * B3) - bt * yy * i * D))) * ala + (1 * bt * yy * i * (i * m.sd ^ 2 * yy * (m.t2 * B2 + m.t3 * B3) - bt * yy * i * D)) * hN +
        (1 * bt * yy ^ 2 * (m.t2 * B2 + m.t3 * B3) * (i * m.sd + 1)) * hi
  · linear_combination (2 * m.nm * v2 * (M1 - v1 * D)) * alc + (v2 * (M1 - v1 * D)) * hN +
        (-1) * (2 * m.nm * m.s * m.t2 * iy * (m.af * m.as * (m.cf ^ 2 - m.cs ^ 2) * D + (m.af ^ 2 + m.as ^ 2) * (m.tw * (i * m.sd ^ 2 * yy * (m.t2 * B2 + m.t3 * B3) - bt * yy * i * D)))) * cc - (2 * m.nm * m.s * m.tw * m.vax * m.t2 * iy * D) * ala -
        (2 * m.nm * m.s * m.tw * m.vax * m.t2 * iy * (m.tw * (i * m.sd ^ 2 * yy * (m.t2 * B2 + m.t3 * B3) - bt * yy * i * D))) * al - (m.s * m.vax * m.t2 * iy * i * m.sd ^ 2 * yy * (m.t2 * B2 + m.t3 * B3)) * hN -
        (m.s * m.vax * m.t2 * i * m.sd ^ 2 * (m.t2 * B2 + m.t3 * B3)) * hy - (m.s * m.vax * m.t2 * m.sd * (m.t2 * B2 + m.t3 * B3)) * hi - (m.s * m.vax * m.sd * B2) * ht
  · linear_combination (2 * m.nm * v3 * (M1 - v1 * D)) * alc + (v3 * (M1 - v1 * D)) * hN +
        (-1) * (2 * m.nm * m.s * m.t3 * iy * (m.af * m.as * (m.cf ^ 2 - m.cs ^ 2) * D + (m.af ^ 2 + m.as ^ 2) * (m.tw * (i * m.sd ^ 2 * yy * (m.t2 * B2 + m.t3 * B3) - bt * yy * i * D)))) * cc - (2 * m.nm * m.s * m.tw * m.vax * m.t3 * iy * D) * ala -
        (2 * m.nm * m.s * m.tw * m.vax * m.t3 * iy * (m.tw * (i * m.sd ^ 2 * yy * (m.t2 * B2 + m.t3 * B3) - bt * yy * i * D))) * al - (m.s * m.vax * m.t3 * iy * i * m.sd ^ 2 * yy * (m.t2 * B2 + m.t3 * B3)) * hN -
        (m.s * m.vax * m.t3 * i * m.sd ^ 2 * (m.t2 * B2 + m.t3 * B3)) * hy - (m.s * m.vax * m.t3 * m.sd * (m.t2 * B2 + m.t3 * B3)) * hi - (m.s * m.vax * m.sd * B3) * ht
  · ring
  · linear_combination (2 * m.nm * m.tw * i * m.t2 * iy * (M1 - v1 * D)) * ala - (2 * m.nm * m.tw * i * m.t2 * iy * m.s * (m.af ^ 2 + m.as ^ 2) * yy * (m.t2 * (M2 - v2 * D) + m.t3 * (M3 - v3 * D))) * cc -
        (2 * m.nm * m.tw * i * m.t2 * iy * m.s * m.tw * m.vax * yy * (m.t2 * (M2 - v2 * D) + m.t3 * (M3 - v3 * D))) * al + (i * m.t2 * iy * yy * (bt * i * (M1 - v1 * D) - m.s * m.vax * (m.t2 * (M2 - v2 * D) + m.t3 * (M3 - v3 * D)))) * hN +
        (i * m.t2 * (bt * i * (M1 - v1 * D) - m.s * m.vax * (m.t2 * (M2 - v2 * D) + m.t3 * (M3 - v3 * D)))) * hy - (m.s * m.vax * i * (M2 - v2 * D)) * ht + (m.s * m.vax * i * (M2 - v2 * D)) * hi
  · linear_combination (2 * m.nm * m.tw * i * m.t3 * iy * (M1 - v1 * D)) * ala - (2 * m.nm * m.tw * i * m.t3 * iy * m.s * (m.af ^ 2 + m.as ^ 2) * yy * (m.t2 * (M2 - v2 * D) + m.t3 * (M3 - v3 * D))) * cc -
        (2 * m.nm * m.tw * i * m.t3 * iy * m.s * m.tw * m.vax * yy * (m.t2 * (M2 - v2 * D) + m.t3 * (M3 - v3 * D))) * al + (i * m.t3 * iy * yy * (bt * i * (M1 - v1 * D) - m.s * m.vax * (m.t2 * (M2 - v2 * D) + m.t3 * (M3 - v3 * D)))) * hN +
        (i * m.t3 * (bt * i * (M1 - v1 * D) - m.s * m.vax * (m.t2 * (M2 - v2 * D) + m.t3 * (M3 - v3 * D)))) * hy - (m.s * m.vax * i * (M3 - v3 * D)) * ht + (m.s * m.vax * i * (M3 - v3 * D)) * hi

set_option maxHeartbeats 1000000 in
theorem flowAdbMhd (p : Phys) (d v1 v2 v3 h b1 b2 b3 x y : ℝ) (hiso : p.iso = false) (hmhd : p.mhd = true)
    (hd : 0 < d) (hg : 0 < p.gamma1) (hY : 0 < p.gamma1 - p.gamma2 * y) (ht0 : 0 < p.tiny)
    (hf : p.tiny ≤ p.gamma1 * (h - (b1 * b1 * (1 / d) + (b2 * b2 + b3 * b3) * (1 / d)) - 1/2 * (v1 * v1 + v2 * v2 + v3 * v3)) - p.gamma2 * x)
    {ws : List Wave} (hw : esysAdbMhd p d v1 v2 v3 h b1 b2 b3 x y = some ws) (u : V7) :
    flow ws u =
      let X := p.gamma1 * (1/2 * (v1 * v1 + v2 * v2 + v3 * v3) * u.d - (v1 * u.mx + v2 * u.my + v3 * u.mz) + u.e - (b2 * u.b + b3 * u.c)) -
        p.gamma2 * x * u.d + (p.gamma1 - p.gamma2 * y) * (b2 * u.b + b3 * u.c)
      ⟨u.mx, v1 * u.mx + v1 * (u.mx - v1 * u.d) + X,
      v1 * u.my + v2 * (u.mx - v1 * u.d) - b1 * u.b, v1 * u.mz + v3 * (u.mx - v1 * u.d) - b1 * u.c,
      v1 * u.e + (h - b1 * b1 * (1 / d)) * (u.mx - v1 * u.d) - b1 * (b2 * (u.my - v2 * u.d) + b3 * (u.mz - v3 * u.d)) * (1 / d) + v1 * X -
        b1 * (v2 * u.b + v3 * u.c),
      v1 * u.b + (b2 * (u.mx - v1 * u.d) - b1 * (u.my - v2 * u.d)) * (1 / d),
      v1 * u.c + (b3 * (u.mx - v1 * u.d) - b1 * (u.mz - v3 * u.d)) * (1 / d)⟩ := by
  dsimp only
  have hes := esysAdbMhd_esys p d v1 v2 v3 h b1 b2 b3 x y hd hg hY ht0 hf hw
  unfold esysAdbMhd hpAdb at hw
  rw [fdiv_pos hd] at hw
  simp only [Option.bind_eq_bind, Option.bind_some, Option.pure_def] at hw
  rw [fmax_eq, max_eq_left hf] at hw
  obtain ⟨hp, hhp⟩ : ∃ hp, hp = h - (b1 * b1 * (1 / d) + (b2 * b2 + b3 * b3) * (1 / d)) := ⟨_, rfl⟩
  have hh : h = hp + (b1 * b1 * (1 / d) + (b2 * b2 + b3 * b3) * (1 / d)) := by rw [hhp]; ring
  rw [← hhp] at hw hf
  obtain ⟨m, bt, yy, hm, hr, -⟩ := mhdPar_spec d b1 b2 b3 (p.gamma1 - p.gamma2 * y)
    (p.gamma1 * (hp - 1/2 * (v1 * v1 + v2 * v2 + v3 * v3)) - p.gamma2 * x) hd hY (by linarith)
  have ha := hr.alg
  rw [hm] at hw
  simp only [Option.bind_some] at hw
  rw [fdiv_ne hr.sd.ne', fdiv_pos hg] at hw
  simp only [Option.bind_some, Option.some.injEq] at hw
  have hT := hr.twT
  have e1 : m.t2s = m.t2 * (1 / yy) := by rw [hr.t2s]; ring
  have e2 : m.t3s = m.t3 * (1 / yy) := by rw [hr.t3s]; ring
  have e3 : m.tss = (1 / yy) ^ 2 := by rw [hr.tss]; ring
  have e4 : p.gamma1 * (p.gamma2 * x / p.gamma1) = p.gamma2 * x := by field_simp
  have e5 : 1 / d = (1 / m.sd) ^ 2 := by rw [← hr.sdd]; field_simp
  rw [e1, e2, e3, hr.bts, hr.q2, hr.q3, ← hr.sdd] at hw
  simp only [hr.hb2, hr.hb3] at hw
  rw [flow_shift v1 hes (Wf_adbMhd hiso hmhd u)]
  rw [hh, e5, hr.hb1, hr.hb2, hr.hb3, ← hr.yyY, ← e4]
  generalize 1 / m.sd = i at hw ha ⊢
  generalize 1 / yy = iy at hw ha
  rw [← e4] at hT
  generalize p.gamma2 * x / p.gamma1 = gx at hw hT ⊢
  obtain ⟨hi, hy, hN, hs, ht, al, alc, ala, cc, sum⟩ := ha
  clear hr hm e1 e2 e3 e4 e5 hhp hf hY hh hes
  generalize p.gamma1 = g at hw hT ⊢
  obtain ⟨vsq, hv⟩ : ∃ vsq, vsq = v1 * v1 + v2 * v2 + v3 * v3 := ⟨_, rfl⟩
  rw [← hv] at hw hT ⊢
  subst hw
  obtain ⟨D, M1, M2, M3, E, B2, B3⟩ := u
  ext <;> simp only [wsum, dot, V7.add, V7.smul, V7.zero]
  · linear_combination (2 * m.nm * 1 * (M1 - v1 * D)) * alc + (1 * (M1 - v1 * D)) * hN
  · linear_combination (2 * m.nm * v1 * (M1 - v1 * D)) * alc + (v1 * (M1 - v1 * D)) * hN +
        (1 * 2 * m.nm * D * (m.cf ^ 2 + m.cs ^ 2)) * alc - (1 * 2 * m.nm * D * (m.cf * m.cs) ^ 2) * al -
        (1 * 2 * m.nm * D * (m.cf * m.cs + m.tw * m.vax)) * cc + (1 * 2 * m.nm * D * m.tw ^ 2) * sum + (1 * D * ((bt * yy * i) ^ 2 + m.tw ^ 2)) * hN +
        (1 * 2 * m.nm * (m.tw * (i * m.sd ^ 2 * yy * (m.t2 * B2 + m.t3 * B3) - bt * yy * i * D))) * ala + (1 * bt * yy * i * (i * m.sd ^ 2 * yy * (m.t2 * B2 + m.t3 * B3) - bt * yy * i * D)) * hN +
        (1 * bt * yy ^ 2 * (m.t2 * B2 + m.t3 * B3) * (i * m.sd + 1)) * hi +
        (1 * 2 * m.nm * (g * ((vsq - hp) * D - (v1 * M1 + v2 * M2 + v3 * M3) + E - bt * (m.t2 * B2 + m.t3 * B3)))) * alc + (1 * (g * ((vsq - hp) * D - (v1 * M1 + v2 * M2 + v3 * M3) + E - bt * (m.t2 * B2 + m.t3 * B3)))) * hN + (1 * D) * hT
  · linear_combination (2 * m.nm * v2 * (M1 - v1 * D)) * alc + (v2 * (M1 - v1 * D)) * hN +
        (-1) * (2 * m.nm * m.s * m.t2 * iy * (m.af * m.as * (m.cf ^ 2 - m.cs ^ 2) * D + (m.af ^ 2 + m.as ^ 2) * (m.tw * (i * m.sd ^ 2 * yy * (m.t2 * B2 + m.t3 * B3) - bt * yy * i * D)))) * cc - (2 * m.nm * m.s * m.tw * m.vax * m.t2 * iy * D) * ala -
        (2 * m.nm * m.s * m.tw * m.vax * m.t2 * iy * (m.tw * (i * m.sd ^ 2 * yy * (m.t2 * B2 + m.t3 * B3) - bt * yy * i * D))) * al - (m.s * m.vax * m.t2 * iy * i * m.sd ^ 2 * yy * (m.t2 * B2 + m.t3 * B3)) * hN -
        (m.s * m.vax * m.t2 * i * m.sd ^ 2 * (m.t2 * B2 + m.t3 * B3)) * hy - (m.s * m.vax * m.t2 * m.sd * (m.t2 * B2 + m.t3 * B3)) * hi - (m.s * m.vax * m.sd * B2) * ht
  · linear_combination (2 * m.nm * v3 * (M1 - v1 * D)) * alc + (v3 * (M1 - v1 * D)) * hN +
        (-1) * (2 * m.nm * m.s * m.t3 * iy * (m.af * m.as * (m.cf ^ 2 - m.cs ^ 2) * D + (m.af ^ 2 + m.as ^ 2) * (m.tw * (i * m.sd ^ 2 * yy * (m.t2 * B2 + m.t3 * B3) - bt * yy * i * D)))) * cc - (2 * m.nm * m.s * m.tw * m.vax * m.t3 * iy * D) * ala -
        (2 * m.nm * m.s * m.tw * m.vax * m.t3 * iy * (m.tw * (i * m.sd ^ 2 * yy * (m.t2 * B2 + m.t3 * B3) - bt * yy * i * D))) * al - (m.s * m.vax * m.t3 * iy * i * m.sd ^ 2 * yy * (m.t2 * B2 + m.t3 * B3)) * hN -
        (m.s * m.vax * m.t3 * i * m.sd ^ 2 * (m.t2 * B2 + m.t3 * B3)) * hy - (m.s * m.vax * m.t3 * m.sd * (m.t2 * B2 + m.t3 * B3)) * hi - (m.s * m.vax * m.sd * B3) * ht
  · linear_combination (2 * m.nm * hp * (M1 - v1 * D)) * alc + (hp * (M1 - v1 * D)) * hN +
        (2 * m.nm * m.tw * i * bt * yy * iy ^ 2 * (M1 - v1 * D)) * ala - (2 * m.nm * m.tw * i * bt * yy * iy ^ 2 * m.s * (m.af ^ 2 + m.as ^ 2) * yy * (m.t2 * (M2 - v2 * D) + m.t3 * (M3 - v3 * D))) * cc -
        (2 * m.nm * m.tw * i * bt * yy * iy ^ 2 * m.s * m.tw * m.vax * yy * (m.t2 * (M2 - v2 * D) + m.t3 * (M3 - v3 * D))) * al +
        (bt * yy * iy ^ 2 * i * yy * (bt * i * (M1 - v1 * D) - m.s * m.vax * (m.t2 * (M2 - v2 * D) + m.t3 * (M3 - v3 * D)))) * hN +
        (bt * i * (bt * i * (M1 - v1 * D) - m.s * m.vax * (m.t2 * (M2 - v2 * D) + m.t3 * (M3 - v3 * D))) * (iy * yy + 1)) * hy +
        (v1 * 2 * m.nm * D * (m.cf ^ 2 + m.cs ^ 2)) * alc - (v1 * 2 * m.nm * D * (m.cf * m.cs) ^ 2) * al -
        (v1 * 2 * m.nm * D * (m.cf * m.cs + m.tw * m.vax)) * cc + (v1 * 2 * m.nm * D * m.tw ^ 2) * sum + (v1 * D * ((bt * yy * i) ^ 2 + m.tw ^ 2)) * hN +
        (v1 * 2 * m.nm * (m.tw * (i * m.sd ^ 2 * yy * (m.t2 * B2 + m.t3 * B3) - bt * yy * i * D))) * ala + (v1 * bt * yy * i * (i * m.sd ^ 2 * yy * (m.t2 * B2 + m.t3 * B3) - bt * yy * i * D)) * hN +
        (v1 * bt * yy ^ 2 * (m.t2 * B2 + m.t3 * B3) * (i * m.sd + 1)) * hi +
        (v1 * 2 * m.nm * (g * ((vsq - hp) * D - (v1 * M1 + v2 * M2 + v3 * M3) + E - bt * (m.t2 * B2 + m.t3 * B3)))) * alc + (v1 * (g * ((vsq - hp) * D - (v1 * M1 + v2 * M2 + v3 * M3) + E - bt * (m.t2 * B2 + m.t3 * B3)))) * hN + (v1 * D) * hT +
        (-1) * (2 * m.nm * m.s * (v2 * m.t2 + v3 * m.t3) * iy * (m.af * m.as * (m.cf ^ 2 - m.cs ^ 2) * D + (m.af ^ 2 + m.as ^ 2) * (m.tw * (i * m.sd ^ 2 * yy * (m.t2 * B2 + m.t3 * B3) - bt * yy * i * D)))) * cc - (2 * m.nm * m.s * m.tw * m.vax * (v2 * m.t2 + v3 * m.t3) * iy * D) * ala -
        (2 * m.nm * m.s * m.tw * m.vax * (v2 * m.t2 + v3 * m.t3) * iy * (m.tw * (i * m.sd ^ 2 * yy * (m.t2 * B2 + m.t3 * B3) - bt * yy * i * D))) * al - (m.s * m.vax * (v2 * m.t2 + v3 * m.t3) * iy * i * m.sd ^ 2 * yy * (m.t2 * B2 + m.t3 * B3)) * hN -
        (m.s * m.vax * (v2 * m.t2 + v3 * m.t3) * i * m.sd ^ 2 * (m.t2 * B2 + m.t3 * B3)) * hy - (m.s * m.vax * (v2 * m.t2 + v3 * m.t3) * m.sd * (m.t2 * B2 + m.t3 * B3)) * hi - (m.s * m.vax * m.sd * (v2 * B2 + v3 * B3)) * ht - (bt ^ 2 * i ^ 2 * (M1 - v1 * D)) * ht + (m.s * m.vax * i * bt * (m.t2 * (M2 - v2 * D) + m.t3 * (M3 - v3 * D))) * hi
  · linear_combination (2 * m.nm * m.tw * i * m.t2 * iy * (M1 - v1 * D)) * ala - (2 * m.nm * m.tw * i * m.t2 * iy * m.s * (m.af ^ 2 + m.as ^ 2) * yy * (m.t2 * (M2 - v2 * D) + m.t3 * (M3 - v3 * D))) * cc -
        (2 * m.nm * m.tw * i * m.t2 * iy * m.s * m.tw * m.vax * yy * (m.t2 * (M2 - v2 * D) + m.t3 * (M3 - v3 * D))) * al + (i * m.t2 * iy * yy * (bt * i * (M1 - v1 * D) - m.s * m.vax * (m.t2 * (M2 - v2 * D) + m.t3 * (M3 - v3 * D)))) * hN +
        (i * m.t2 * (bt * i * (M1 - v1 * D) - m.s * m.vax * (m.t2 * (M2 - v2 * D) + m.t3 * (M3 - v3 * D)))) * hy - (m.s * m.vax * i * (M2 - v2 * D)) * ht + (m.s * m.vax * i * (M2 - v2 * D)) * hi
  · linear_combination (2 * m.nm * m.tw * i * m.t3 * iy * (M1 - v1 * D)) * ala - (2 * m.nm * m.tw * i * m.t3 * iy * m.s * (m.af ^ 2 + m.as ^ 2) * yy * (m.t2 * (M2 - v2 * D) + m.t3 * (M3 - v3 * D))) * cc -
        (2 * m.nm * m.tw * i * m.t3 * iy * m.s * m.tw * m.vax * yy * (m.t2 * (M2 - v2 * D) + m.t3 * (M3 - v3 * D))) * al + (i * m.t3 * iy * yy * (bt * i * (M1 - v1 * D) - m.s * m.vax * (m.t2 * (M2 - v2 * D) + m.t3 * (M3 - v3 * D)))) * hN +
        (i * m.t3 * (bt * i * (M1 - v1 * D) - m.s * m.vax * (m.t2 * (M2 - v2 * D) + m.t3 * (M3 - v3 * D)))) * hy - (m.s * m.vax * i * (M3 - v3 * D)) * ht + (m.s * m.vax * i * (M3 - v3 * D)) * hi

end
end Athena.Hydro
