import Verif.Hydro.RoeMhd

/-! # The MHD eigensystems of Roe's solver: the left eigenvectors are the dual basis -/

namespace Athena.Hydro
noncomputable section
open Classical

/-- The hypotheses of the algebra below. -/
structure Alg (cf cs vax t2 t3 bt af as sd i s tw N yy iy : ℝ) : Prop where
  hi : i * sd = 1
  hy : iy * yy = 1
  hN : 2 * N * tw ^ 2 = 1
  s : s ^ 2 = 1
  t : t2 ^ 2 + t3 ^ 2 = 1
  al : af ^ 2 + as ^ 2 = 1
  alc : af ^ 2 * cf ^ 2 + as ^ 2 * cs ^ 2 = tw ^ 2
  ala : af * as * (cf ^ 2 - cs ^ 2) = tw * (bt * yy) * i
  cc : cf * cs = tw * vax
  sum : cf ^ 2 + cs ^ 2 = vax ^ 2 + (bt * yy * i) ^ 2 + tw ^ 2

theorem MhdRel.alg {d b1 b2 b3 Y T : ℝ} {m : MhdPar} {bt yy : ℝ} (h : MhdRel d b1 b2 b3 Y T m bt yy) :
    Alg m.cf m.cs m.vax m.t2 m.t3 bt m.af m.as m.sd (1 / m.sd) m.s m.tw m.nm yy (1 / yy) := by
  have h1 := h.sd.ne'
  have h2 := h.yyp.ne'
  have h3 := h.tw.ne'
  refine ⟨by field_simp, by field_simp, ?_, h.s, h.t, h.al, h.alc, ?_, h.cc, ?_⟩
  · rw [h.nm]; field_simp
  · rw [h.ala]; ring
  · rw [h.sum, ← h.sdd]; field_simp

theorem pairs7 (w : Fin 7 → Wave) (hd : ∀ i j : Fin 7, dot (w i).l (w j).r = if i = j then 1 else 0) :
    [w 0, w 1, w 2, w 3, w 4, w 5, w 6].Pairwise (fun w w' => dot w.l w'.r = 0 ∧ dot w'.l w.r = 0) ∧
      ∀ x ∈ [w 0, w 1, w 2, w 3, w 4, w 5, w 6], dot x.l x.r = 1 := by
  simp [hd]

theorem pairs6 (w : Fin 7 → Wave) (hd : ∀ i j : Fin 7, dot (w i).l (w j).r = if i = j then 1 else 0) :
    [w 0, w 1, w 2, w 3, w 4, w 5].Pairwise (fun w w' => dot w.l w'.r = 0 ∧ dot w'.l w.r = 0) ∧
      ∀ x ∈ [w 0, w 1, w 2, w 3, w 4, w 5], dot x.l x.r = 1 := by
  simp [hd]

theorem esysIsoMhd_some (p : Phys) (d v1 v2 v3 b1 b2 b3 x y : ℝ) {m : MhdPar} (h : mhdPar d b1 b2 b3 y (p.cs2 + x) = some m) (hs : m.sd ≠ 0) :
    ∃ ws, esysIsoMhd p d v1 v2 v3 b1 b2 b3 x y = some ws ∧ ws.head?.map Wave.ev = some (v1 - m.cf) ∧
      ws.getLast?.map Wave.ev = some (v1 + m.cf) := by
  unfold esysIsoMhd
  rw [h]
  simp only [Option.bind_eq_bind, Option.bind_some]
  rw [fdiv_ne hs]
  simp only [Option.bind_some, Option.pure_def]
  exact ⟨_, rfl, rfl, rfl⟩

theorem esysIsoMhd_esys (p : Phys) (hiso : p.iso = true) (d v1 v2 v3 b1 b2 b3 x y : ℝ) (hd : 0 < d) (hy : 0 < y) (hT : 0 < p.cs2 + x)
    {ws : List Wave} (hw : esysIsoMhd p d v1 v2 v3 b1 b2 b3 x y = some ws) : Esys p ws := by
  obtain ⟨m, bt, yy, hm, hr, -⟩ := mhdPar_spec d b1 b2 b3 y (p.cs2 + x) hd hy hT
  have ha := hr.alg
  unfold esysIsoMhd at hw
  rw [hm] at hw
  simp only [Option.bind_eq_bind, Option.bind_some] at hw
  rw [fdiv_ne hr.sd.ne'] at hw
  simp only [Option.bind_some, Option.pure_def, Option.some.injEq] at hw
  have e1 : m.t2s = m.t2 * (1 / yy) := by rw [hr.t2s]; ring
  have e2 : m.t3s = m.t3 * (1 / yy) := by rw [hr.t3s]; ring
  have h1 := hr.csvax
  have h2 := hr.vaxcf
  have h3 := hr.cs
  rw [e1, e2, hr.bts, hr.q2, hr.q3, ← hr.sdd] at hw
  generalize 1 / m.sd = i at hw ha
  generalize 1 / yy = iy at hw ha
  obtain ⟨hi, hy, hN, hs, ht, -, alc, ala, -, -⟩ := ha
  have al := hr.al
  clear hr hm e1 e2
  have hcomp : ∀ u : V7, wsum (fun w => dot w.l u) (ws ++ [⟨0, ⟨0, 0, 0, 0, 1, 0, 0⟩, ⟨0, 0, 0, 0, 1, 0, 0⟩⟩]) = u := by
    intro u
    subst hw
    obtain ⟨D, M1, M2, M3, E, B2, B3⟩ := u
    ext <;> simp only [List.cons_append, List.nil_append, wsum, dot, V7.add, V7.smul, V7.zero]
    · linear_combination (2 * m.nm * D) * alc + D * hN
    · linear_combination (2 * m.nm * M1) * alc + M1 * hN
    · linear_combination (2 * m.nm * v2 * D) * alc + v2 * D * hN +
        (m.t2 * iy * yy * (m.t2 * (M2 - v2 * D) + m.t3 * (M3 - v3 * D)) * 2 * m.nm * (m.af ^ 2 * m.cf ^ 2 + m.as ^ 2 * m.cs ^ 2)) * hs +
        (m.t2 * iy * yy * (m.t2 * (M2 - v2 * D) + m.t3 * (M3 - v3 * D)) * 2 * m.nm) * alc +
        (m.t2 * iy * yy * (m.t2 * (M2 - v2 * D) + m.t3 * (M3 - v3 * D))) * hN +
        (m.t2 * (m.t2 * (M2 - v2 * D) + m.t3 * (M3 - v3 * D))) * hy + (M2 - v2 * D) * ht
    · linear_combination (2 * m.nm * v3 * D) * alc + v3 * D * hN +
        (m.t3 * iy * yy * (m.t2 * (M2 - v2 * D) + m.t3 * (M3 - v3 * D)) * 2 * m.nm * (m.af ^ 2 * m.cf ^ 2 + m.as ^ 2 * m.cs ^ 2)) * hs +
        (m.t3 * iy * yy * (m.t2 * (M2 - v2 * D) + m.t3 * (M3 - v3 * D)) * 2 * m.nm) * alc +
        (m.t3 * iy * yy * (m.t2 * (M2 - v2 * D) + m.t3 * (M3 - v3 * D))) * hN +
        (m.t3 * (m.t2 * (M2 - v2 * D) + m.t3 * (M3 - v3 * D))) * hy + (M3 - v3 * D) * ht
    · ring
    · linear_combination (2 * m.nm * m.tw * i * m.t2 * iy * D) * ala +
        (2 * m.nm * m.tw * i * m.t2 * iy * (m.tw * (i * m.sd ^ 2 * yy * (m.t2 * B2 + m.t3 * B3) - bt * yy * i * D))) * al +
        (2 * m.nm * m.tw ^ 2 * m.t2 * iy * yy * (m.t2 * B2 + m.t3 * B3) * (i * m.sd + 1)) * hi +
        (m.t2 * iy * yy * (m.t2 * B2 + m.t3 * B3)) * hN + (m.t2 * (m.t2 * B2 + m.t3 * B3)) * hy +
        (-m.t3 * (-m.t3 * B2 + m.t2 * B3) * i * m.sd) * hs + (-m.t3 * (-m.t3 * B2 + m.t2 * B3)) * hi + B2 * ht
    · linear_combination (2 * m.nm * m.tw * i * m.t3 * iy * D) * ala +
        (2 * m.nm * m.tw * i * m.t3 * iy * (m.tw * (i * m.sd ^ 2 * yy * (m.t2 * B2 + m.t3 * B3) - bt * yy * i * D))) * al +
        (2 * m.nm * m.tw ^ 2 * m.t3 * iy * yy * (m.t2 * B2 + m.t3 * B3) * (i * m.sd + 1)) * hi +
        (m.t3 * iy * yy * (m.t2 * B2 + m.t3 * B3)) * hN + (m.t3 * (m.t2 * B2 + m.t3 * B3)) * hy +
        (m.t2 * (-m.t3 * B2 + m.t2 * B3) * i * m.sd) * hs + (m.t2 * (-m.t3 * B2 + m.t2 * B3)) * hi + B3 * ht
  obtain ⟨w, hww⟩ : ∃ w : Fin 7 → Wave, ws = [w 0, w 1, w 2, w 3, w 4, w 5] ∧ w 6 = ⟨0, ⟨0, 0, 0, 0, 1, 0, 0⟩, ⟨0, 0, 0, 0, 1, 0, 0⟩⟩ := by
    subst hw
    exact ⟨![_, _, _, _, _, _, _], rfl, rfl⟩
  obtain ⟨hw1, hw6⟩ := hww
  have hdual := dual_of_complete w (by rw [hw1, ← hw6] at hcomp; exact hcomp)
  refine ⟨?_, ?_, ?_, ?_⟩
  · subst hw
    simp only [List.pairwise_cons, List.mem_cons, List.not_mem_nil, or_false, forall_eq_or_imp, forall_eq, List.Pairwise.nil,
      and_true, false_implies, implies_true]
    refine ⟨⟨?_, ?_, ?_, ?_, ?_⟩, ⟨?_, ?_, ?_, ?_⟩, ⟨?_, ?_, ?_⟩, ⟨?_, ?_⟩, ?_⟩ <;> linarith only [h1, h2, h3]
  · intro u hu
    have hz : dot ⟨0, 0, 0, 0, 1, 0, 0⟩ u = 0 := by simp [dot, hu.1 hiso]
    refine Eq.trans ?_ (hcomp u)
    rw [hw1]
    simp only [List.cons_append, List.nil_append, wsum, hz, V7.zero_smul, V7.zero_add]
  · rw [hw1]; exact (pairs6 w hdual).1
  · rw [hw1]; exact (pairs6 w hdual).2

theorem esysAdbMhd_some (p : Phys) (d v1 v2 v3 h b1 b2 b3 x y : ℝ) {m : MhdPar} (hd : 0 < d) (hg : 0 < p.gamma1)
    (hm : mhdPar d b1 b2 b3 (p.gamma1 - p.gamma2 * y)
      (fmax (p.gamma1 * (h - (b1 * b1 * (1 / d) + (b2 * b2 + b3 * b3) * (1 / d)) - 1/2 * (v1 * v1 + v2 * v2 + v3 * v3)) - p.gamma2 * x) p.tiny) = some m)
    (hs : m.sd ≠ 0) :
    ∃ ws, esysAdbMhd p d v1 v2 v3 h b1 b2 b3 x y = some ws ∧ ws.head?.map Wave.ev = some (v1 - m.cf) ∧
      ws.getLast?.map Wave.ev = some (v1 + m.cf) := by
  unfold esysAdbMhd hpAdb
  rw [fdiv_pos hd]
  simp only [Option.bind_eq_bind, Option.bind_some, Option.pure_def]
  rw [hm]
  simp only [Option.bind_some]
  rw [fdiv_ne hs, fdiv_pos hg]
  simp only [Option.bind_some]
  exact ⟨_, rfl, rfl, rfl⟩

set_option maxHeartbeats 400000 in
theorem esysAdbMhd_esys (p : Phys) (d v1 v2 v3 h b1 b2 b3 x y : ℝ)
    (hd : 0 < d) (hg : 0 < p.gamma1) (hY : 0 < p.gamma1 - p.gamma2 * y) (ht0 : 0 < p.tiny)
    (hf : p.tiny ≤ p.gamma1 * (h - (b1 * b1 * (1 / d) + (b2 * b2 + b3 * b3) * (1 / d)) - 1/2 * (v1 * v1 + v2 * v2 + v3 * v3)) - p.gamma2 * x)
    {ws : List Wave} (hw : esysAdbMhd p d v1 v2 v3 h b1 b2 b3 x y = some ws) : Esys p ws := by
  unfold esysAdbMhd hpAdb at hw
  rw [fdiv_pos hd] at hw
  simp only [Option.bind_eq_bind, Option.bind_some, Option.pure_def] at hw
  rw [fmax_eq, max_eq_left hf] at hw
  obtain ⟨hp, hhp⟩ : ∃ hp, hp = h - (b1 * b1 * (1 / d) + (b2 * b2 + b3 * b3) * (1 / d)) := ⟨_, rfl⟩
  rw [← hhp] at hw hf
  obtain ⟨m, bt, yy, hm, hr, -⟩ := mhdPar_spec d b1 b2 b3 (p.gamma1 - p.gamma2 * y)
    (p.gamma1 * (hp - 1/2 * (v1 * v1 + v2 * v2 + v3 * v3)) - p.gamma2 * x) hd hY (by linarith)
  have ha := hr.alg
  rw [hm] at hw
  simp only [Option.bind_some] at hw
  rw [fdiv_ne hr.sd.ne', fdiv_pos hg] at hw
  simp only [Option.bind_some, Option.some.injEq] at hw
  have hT := hr.twT
  have e1 : m.t2s = m.t2 * (1 / yy) := by rw [hr.t2s]; ring
  have e2 : m.t3s = m.t3 * (1 / yy) := by rw [hr.t3s]; ring
  have e3 : m.tss = (1 / yy) ^ 2 := by rw [hr.tss]; ring
  have h1 := hr.csvax
  have h2 := hr.vaxcf
  have h3 := hr.cs
  have e4 : p.gamma1 * (p.gamma2 * x / p.gamma1) = p.gamma2 * x := by field_simp
  rw [e1, e2, e3, hr.bts, hr.q2, hr.q3, ← hr.sdd] at hw
  simp only [hr.hb2, hr.hb3] at hw
  generalize 1 / m.sd = i at hw ha
  generalize 1 / yy = iy at hw ha
  generalize p.gamma2 * x / p.gamma1 = gx at hw e4
  rw [← e4] at hT
  obtain ⟨hi, hy, hN, hs, ht, -, alc, ala, -, -⟩ := ha
  have al := hr.al
  clear hr hm e1 e2 e3 e4 hhp hf hY
  generalize p.gamma1 = g at hw hT
  obtain ⟨vsq, hv⟩ : ∃ vsq, vsq = v1 * v1 + v2 * v2 + v3 * v3 := ⟨_, rfl⟩
  rw [← hv] at hw hT
  have hcomp : ∀ u : V7, wsum (fun w => dot w.l u) ws = u := by
    intro u
    subst hw
    obtain ⟨D, M1, M2, M3, E, B2, B3⟩ := u
    ext <;> simp only [wsum, dot, V7.add, V7.smul, V7.zero]
    · linear_combination (1 * 2 * m.nm * (g * ((vsq - hp) * D - (v1 * M1 + v2 * M2 + v3 * M3) + E - bt * (m.t2 * B2 + m.t3 * B3)))) * al + (1 * 2 * m.nm * D) * alc + (1 * 2 * m.nm * D) * hT
    · linear_combination (v1 * 2 * m.nm * (g * ((vsq - hp) * D - (v1 * M1 + v2 * M2 + v3 * M3) + E - bt * (m.t2 * B2 + m.t3 * B3)))) * al + (v1 * 2 * m.nm * D) * alc + (v1 * 2 * m.nm * D) * hT + (2 * m.nm * (M1 - v1 * D)) * alc + (M1 - v1 * D) * hN
    · linear_combination (v2 * 2 * m.nm * (g * ((vsq - hp) * D - (v1 * M1 + v2 * M2 + v3 * M3) + E - bt * (m.t2 * B2 + m.t3 * B3)))) * al + (v2 * 2 * m.nm * D) * alc + (v2 * 2 * m.nm * D) * hT +
        (m.t2 * iy * yy * (m.t2 * (M2 - v2 * D) + m.t3 * (M3 - v3 * D)) * 2 * m.nm * (m.af ^ 2 * m.cf ^ 2 + m.as ^ 2 * m.cs ^ 2)) * hs + (m.t2 * iy * yy * (m.t2 * (M2 - v2 * D) + m.t3 * (M3 - v3 * D)) * 2 * m.nm) * alc + (m.t2 * iy * yy * (m.t2 * (M2 - v2 * D) + m.t3 * (M3 - v3 * D))) * hN +
        (m.t2 * (m.t2 * (M2 - v2 * D) + m.t3 * (M3 - v3 * D))) * hy + (M2 - v2 * D) * ht
    · linear_combination (v3 * 2 * m.nm * (g * ((vsq - hp) * D - (v1 * M1 + v2 * M2 + v3 * M3) + E - bt * (m.t2 * B2 + m.t3 * B3)))) * al + (v3 * 2 * m.nm * D) * alc + (v3 * 2 * m.nm * D) * hT +
        (m.t3 * iy * yy * (m.t2 * (M2 - v2 * D) + m.t3 * (M3 - v3 * D)) * 2 * m.nm * (m.af ^ 2 * m.cf ^ 2 + m.as ^ 2 * m.cs ^ 2)) * hs + (m.t3 * iy * yy * (m.t2 * (M2 - v2 * D) + m.t3 * (M3 - v3 * D)) * 2 * m.nm) * alc + (m.t3 * iy * yy * (m.t2 * (M2 - v2 * D) + m.t3 * (M3 - v3 * D))) * hN +
        (m.t3 * (m.t2 * (M2 - v2 * D) + m.t3 * (M3 - v3 * D))) * hy + (M3 - v3 * D) * ht
    · linear_combination (hp * 2 * m.nm * (g * ((vsq - hp) * D - (v1 * M1 + v2 * M2 + v3 * M3) + E - bt * (m.t2 * B2 + m.t3 * B3)))) * al + (hp * 2 * m.nm * D) * alc + (hp * D) * hN +
        (2 * m.nm * v1 * (M1 - v1 * D)) * alc + (v1 * (M1 - v1 * D)) * hN +
        (iy * yy * (v2 * m.t2 + v3 * m.t3) * (m.t2 * (M2 - v2 * D) + m.t3 * (M3 - v3 * D)) * 2 * m.nm * (m.af ^ 2 * m.cf ^ 2 + m.as ^ 2 * m.cs ^ 2)) * hs + (iy * yy * (v2 * m.t2 + v3 * m.t3) * (m.t2 * (M2 - v2 * D) + m.t3 * (M3 - v3 * D)) * 2 * m.nm) * alc + (iy * yy * (v2 * m.t2 + v3 * m.t3) * (m.t2 * (M2 - v2 * D) + m.t3 * (M3 - v3 * D))) * hN + ((v2 * m.t2 + v3 * m.t3) * (m.t2 * (M2 - v2 * D) + m.t3 * (M3 - v3 * D))) * hy +
        (m.tw * i * bt * yy * iy ^ 2 * 2 * m.nm * D) * ala + (m.tw * i * bt * yy * iy ^ 2 * 2 * m.nm * (m.tw * (i * m.sd ^ 2 * yy * (m.t2 * B2 + m.t3 * B3) - bt * yy * i * D))) * al +
        (2 * m.nm * m.tw ^ 2 * bt * yy ^ 2 * iy ^ 2 * (m.t2 * B2 + m.t3 * B3) * (i * m.sd + 1)) * hi + (bt * yy ^ 2 * iy ^ 2 * (m.t2 * B2 + m.t3 * B3)) * hN +
        (bt * (m.t2 * B2 + m.t3 * B3) * (iy * yy + 1)) * hy +
        (2 * m.nm * D * (1/2 * vsq + gx)) * hT - (D * (1/2 * vsq + gx)) * hN - (2 * m.nm * ((vsq - hp) * D - (v1 * M1 + v2 * M2 + v3 * M3) + E - bt * (m.t2 * B2 + m.t3 * B3))) * hT + ((vsq - hp) * D - (v1 * M1 + v2 * M2 + v3 * M3) + E - bt * (m.t2 * B2 + m.t3 * B3)) * hN +
        (v2 * (M2 - v2 * D) + v3 * (M3 - v3 * D)) * ht + D * hv
    · linear_combination (2 * m.nm * m.tw * i * m.t2 * iy * D) * ala + (2 * m.nm * m.tw * i * m.t2 * iy * (m.tw * (i * m.sd ^ 2 * yy * (m.t2 * B2 + m.t3 * B3) - bt * yy * i * D))) * al +
        (2 * m.nm * m.tw ^ 2 * m.t2 * iy * yy * (m.t2 * B2 + m.t3 * B3) * (i * m.sd + 1)) * hi + (m.t2 * iy * yy * (m.t2 * B2 + m.t3 * B3)) * hN + (m.t2 * (m.t2 * B2 + m.t3 * B3)) * hy +
        (-m.t3 * (-m.t3 * B2 + m.t2 * B3) * i * m.sd) * hs + (-m.t3 * (-m.t3 * B2 + m.t2 * B3)) * hi + B2 * ht
    · linear_combination (2 * m.nm * m.tw * i * m.t3 * iy * D) * ala + (2 * m.nm * m.tw * i * m.t3 * iy * (m.tw * (i * m.sd ^ 2 * yy * (m.t2 * B2 + m.t3 * B3) - bt * yy * i * D))) * al +
        (2 * m.nm * m.tw ^ 2 * m.t3 * iy * yy * (m.t2 * B2 + m.t3 * B3) * (i * m.sd + 1)) * hi + (m.t3 * iy * yy * (m.t2 * B2 + m.t3 * B3)) * hN + (m.t3 * (m.t2 * B2 + m.t3 * B3)) * hy +
        (m.t2 * (-m.t3 * B2 + m.t2 * B3) * i * m.sd) * hs + (m.t2 * (-m.t3 * B2 + m.t2 * B3)) * hi + B3 * ht
  obtain ⟨w, hw1⟩ : ∃ w : Fin 7 → Wave, ws = [w 0, w 1, w 2, w 3, w 4, w 5, w 6] := by
    subst hw
    exact ⟨![_, _, _, _, _, _, _], rfl⟩
  have hdual := dual_of_complete w (by rw [hw1] at hcomp; exact hcomp)
  refine ⟨?_, fun u _ => hcomp u, ?_, ?_⟩
  · subst hw
    simp only [List.pairwise_cons, List.mem_cons, List.not_mem_nil, or_false, forall_eq_or_imp, forall_eq, List.Pairwise.nil,
      and_true, false_implies, implies_true]
    refine ⟨⟨?_, ?_, ?_, ?_, ?_, ?_⟩, ⟨?_, ?_, ?_, ?_, ?_⟩, ⟨?_, ?_, ?_, ?_⟩, ⟨?_, ?_, ?_⟩, ⟨?_, ?_⟩, ?_⟩ <;> linarith only [h1, h2, h3]
  · rw [hw1]; exact (pairs7 w hdual).1
  · rw [hw1]; exact (pairs7 w hdual).2

end
end Athena.Hydro
