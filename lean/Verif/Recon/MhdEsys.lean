import Verif.Recon.MhdProps

/-! # C94: eigenvalues and eigenvectors of `esys_prim_iso_mhd` and `esys_prim_adb_mhd` -/

namespace Athena.Recon
noncomputable section
open Athena.Hydro

variable {ns : ℕ}

/-- Left times right: the rows of `lem` are the dual basis of the columns of `rem`. -/
def Eig.Dual {k : ℕ} (E : Eig k) : Prop := ∀ n n', ∑ m, E.lem n m * E.rem m n' = if n = n' then 1 else 0

theorem Eig.Inv.dual {k : ℕ} {E : Eig k} (h : E.Inv) : E.Dual := by
  let R : Matrix (Fin (k + 4)) (Fin (k + 4)) ℝ := E.rem
  let L : Matrix (Fin (k + 4)) (Fin (k + 4)) ℝ := E.lem
  have hRL : R * L = 1 := by
    ext a b
    rw [Matrix.mul_apply, Matrix.one_apply]
    exact h a b
  have hLR : L * R = 1 := mul_eq_one_comm.mp hRL
  intro i j
  have := congrFun (congrFun hLR i) j
  rwa [Matrix.mul_apply, Matrix.one_apply] at this

/-- The adiabatic eigensystem written out; `i` is the reciprocal of `sqrtd`. -/
def eig7 (m : MPar) (d v1 a i : ℝ) : Eig 3 where
  ev := ![v1 - m.cf, v1 - m.vax, v1 - m.cs, v1, v1 + m.cs, v1 + m.vax, v1 + m.cf]
  rem := ![![d * m.af, 0, d * m.as, 1, d * m.as, 0, d * m.af],
    ![-m.cf * m.af, 0, -m.cs * m.as, 0, -(-m.cs * m.as), 0, -(-m.cf * m.af)],
    ![m.cs * m.as * m.s * m.t2, -m.t3, -(m.cf * m.af * m.s) * m.t2, 0, -(-(m.cf * m.af * m.s) * m.t2), m.t3, -(m.cs * m.as * m.s * m.t2)],
    ![m.cs * m.as * m.s * m.t3, m.t2, -(m.cf * m.af * m.s) * m.t3, 0, -(-(m.cf * m.af * m.s) * m.t3), -m.t2, -(m.cs * m.as * m.s * m.t3)],
    ![d * a ^ 2 * m.af, 0, d * a ^ 2 * m.as, 0, d * a ^ 2 * m.as, 0, d * a ^ 2 * m.af],
    ![a * m.as * m.sd * m.t2, -m.t3 * m.s * m.sd, -(a * m.af * m.sd) * m.t2, 0, -(a * m.af * m.sd) * m.t2, -m.t3 * m.s * m.sd, a * m.as * m.sd * m.t2],
    ![a * m.as * m.sd * m.t3, m.t2 * m.s * m.sd, -(a * m.af * m.sd) * m.t3, 0, -(a * m.af * m.sd) * m.t3, m.t2 * m.s * m.sd, a * m.as * m.sd * m.t3]]
  lem := ![![0, -m.nm * m.cf * m.af, m.nm * (m.cs * m.as * m.s) * m.t2, m.nm * (m.cs * m.as * m.s) * m.t3, m.nm * m.af * m.di,
      m.nm * (a * m.as * m.sd) * m.di * m.t2, m.nm * (a * m.as * m.sd) * m.di * m.t3],
    ![0, 0, -(1/2) * m.t3, 1/2 * m.t2, 0, -(1/2) * m.t3 * m.s * i, 1/2 * m.t2 * m.s * i],
    ![0, -m.nm * m.cs * m.as, -(m.nm * (m.cf * m.af * m.s)) * m.t2, -(m.nm * (m.cf * m.af * m.s)) * m.t3, m.nm * m.as * m.di,
      -(m.nm * (a * m.af * m.sd) * m.di) * m.t2, -(m.nm * (a * m.af * m.sd) * m.di) * m.t3],
    ![1, 0, 0, 0, -2 * m.nm, 0, 0],
    ![0, -(-m.nm * m.cs * m.as), -(-(m.nm * (m.cf * m.af * m.s)) * m.t2), -(-(m.nm * (m.cf * m.af * m.s)) * m.t3), m.nm * m.as * m.di,
      -(m.nm * (a * m.af * m.sd) * m.di) * m.t2, -(m.nm * (a * m.af * m.sd) * m.di) * m.t3],
    ![0, 0, -(-(1/2) * m.t3), -(1/2 * m.t2), 0, -(1/2) * m.t3 * m.s * i, 1/2 * m.t2 * m.s * i],
    ![0, -(-m.nm * m.cf * m.af), -(m.nm * (m.cs * m.as * m.s) * m.t2), -(m.nm * (m.cs * m.as * m.s) * m.t3), m.nm * m.af * m.di,
      m.nm * (a * m.as * m.sd) * m.di * m.t2, m.nm * (a * m.as * m.sd) * m.di * m.t3]]

/-- The isothermal eigensystem written out. -/
def eig6 (m : MPar) (d v1 a i : ℝ) : Eig 2 where
  ev := ![v1 - m.cf, v1 - m.vax, v1 - m.cs, v1 + m.cs, v1 + m.vax, v1 + m.cf]
  rem := ![![d * m.af, 0, d * m.as, d * m.as, 0, d * m.af],
    ![-m.cf * m.af, 0, -m.cs * m.as, -(-m.cs * m.as), 0, -(-m.cf * m.af)],
    ![m.cs * m.as * m.s * m.t2, -m.t3, -(m.cf * m.af * m.s) * m.t2, -(-(m.cf * m.af * m.s) * m.t2), m.t3, -(m.cs * m.as * m.s * m.t2)],
    ![m.cs * m.as * m.s * m.t3, m.t2, -(m.cf * m.af * m.s) * m.t3, -(-(m.cf * m.af * m.s) * m.t3), -m.t2, -(m.cs * m.as * m.s * m.t3)],
    ![a * m.as * m.sd * m.t2, -m.t3 * m.s * m.sd, -(a * m.af * m.sd) * m.t2, -(a * m.af * m.sd) * m.t2, -m.t3 * m.s * m.sd, a * m.as * m.sd * m.t2],
    ![a * m.as * m.sd * m.t3, m.t2 * m.s * m.sd, -(a * m.af * m.sd) * m.t3, -(a * m.af * m.sd) * m.t3, m.t2 * m.s * m.sd, a * m.as * m.sd * m.t3]]
  lem := ![![m.nm * m.af * (a * a) * m.di, -m.nm * m.cf * m.af, m.nm * (m.cs * m.as * m.s) * m.t2, m.nm * (m.cs * m.as * m.s) * m.t3,
      m.nm * (a * m.as * m.sd) * m.di * m.t2, m.nm * (a * m.as * m.sd) * m.di * m.t3],
    ![0, 0, -(1/2) * m.t3, 1/2 * m.t2, -(1/2) * m.t3 * m.s * i, 1/2 * m.t2 * m.s * i],
    ![m.nm * m.as * (a * a) * m.di, -m.nm * m.cs * m.as, -(m.nm * (m.cf * m.af * m.s)) * m.t2, -(m.nm * (m.cf * m.af * m.s)) * m.t3,
      -(m.nm * (a * m.af * m.sd) * m.di) * m.t2, -(m.nm * (a * m.af * m.sd) * m.di) * m.t3],
    ![m.nm * m.as * (a * a) * m.di, -(-m.nm * m.cs * m.as), -(-(m.nm * (m.cf * m.af * m.s)) * m.t2), -(-(m.nm * (m.cf * m.af * m.s)) * m.t3),
      -(m.nm * (a * m.af * m.sd) * m.di) * m.t2, -(m.nm * (a * m.af * m.sd) * m.di) * m.t3],
    ![0, 0, -(-(1/2) * m.t3), -(1/2 * m.t2), -(1/2) * m.t3 * m.s * i, 1/2 * m.t2 * m.s * i],
    ![m.nm * m.af * (a * a) * m.di, -(-m.nm * m.cf * m.af), -(m.nm * (m.cs * m.as * m.s) * m.t2), -(m.nm * (m.cs * m.as * m.s) * m.t3),
      m.nm * (a * m.as * m.sd) * m.di * m.t2, m.nm * (a * m.as * m.sd) * m.di * m.t3]]

theorem esysP6_eq (a d v1 b1 b2 b3 : ℝ) (hd : 0 < d) (ha : 0 < a) :
    ∃ m bt i, esysP6 a d v1 b1 b2 b3 = some (eig6 m d v1 a i) ∧ MRel d b1 b2 b3 a m bt ∧ m.sd * i = 1 := by
  obtain ⟨m, bt, hm, hr, -⟩ := parP_spec true d b1 b2 b3 a (a * a) hd ha (by ring)
  refine ⟨m, bt, 1 / m.sd, ?_, hr, by have := hr.sd.ne'; field_simp⟩
  unfold esysP6
  refine Option.bind_eq_some_iff.mpr ⟨_, hm, ?_⟩
  dsimp only
  refine Option.bind_eq_some_iff.mpr ⟨_, fdiv_pos hr.sd, ?_⟩
  refine Option.bind_eq_some_iff.mpr ⟨_, fdiv_pos hr.sd, ?_⟩
  rw [div_eq_mul_one_div (-(1/2) * m.t3 * m.s), div_eq_mul_one_div (1/2 * m.t2 * m.s)]
  rfl

theorem esysP7_eq (d v1 ra b1 b2 b3 : ℝ) (hd : 0 < d) (hr : 0 < ra) :
    ∃ m bt a i, esysP7 d v1 ra b1 b2 b3 = some (eig7 m d v1 a i) ∧ MRel d b1 b2 b3 a m bt ∧ m.sd * i = 1 ∧ d * a ^ 2 = ra ∧ 0 < a := by
  have hT : 0 < ra * (1 / d) := by positivity
  have ha := Real.sqrt_pos.mpr hT
  have hs := Real.sq_sqrt hT.le
  obtain ⟨m, bt, hm, hr, hdi⟩ := parP_spec false d b1 b2 b3 (Real.sqrt (ra * (1 / d))) (ra * (1 / d)) hd ha hs.symm
  refine ⟨m, bt, Real.sqrt (ra * (1 / d)), 1 / m.sd, ?_, hr, by have := hr.sd.ne'; field_simp, by rw [hs]; field_simp, ha⟩
  unfold esysP7
  refine Option.bind_eq_some_iff.mpr ⟨m, Option.bind_eq_some_iff.mpr ⟨_, fdiv_pos hd, hm⟩, ?_⟩
  dsimp only
  rw [hdi]
  refine Option.bind_eq_some_iff.mpr ⟨_, fsqrt_nonneg hT.le, ?_⟩
  refine Option.bind_eq_some_iff.mpr ⟨_, fdiv_pos hr.sd, ?_⟩
  refine Option.bind_eq_some_iff.mpr ⟨_, fdiv_pos hr.sd, ?_⟩
  refine Option.bind_eq_some_iff.mpr ⟨_, fdiv_pos hT, ?_⟩
  have e : -1 / (ra * (1 / d)) = -2 * m.nm := by
    have := hr.nm
    rw [hs] at this
    rw [div_eq_iff hT.ne']; linarith
  rw [div_eq_mul_one_div (-(1/2) * m.t3 * m.s), div_eq_mul_one_div (1/2 * m.t2 * m.s), e]
  unfold eig7
  rw [hdi, hs]
  rfl

section
variable {d b1 b2 b3 a : ℝ} {m : MPar} {bt i v1 : ℝ}

set_option maxHeartbeats 1600000 in
theorem eig7_inv (h : MRel d b1 b2 b3 a m bt) (hi : m.sd * i = 1) : (eig7 m d v1 a i).Inv := by
  intro x y
  obtain ⟨cf, cs, vax, t2, t3, af, as, sd, s, nm, di⟩ := m
  obtain ⟨-, -, -, -, -, sdd, dd, hs, ht, -, -, hn, hal, hac, -, -, -, -⟩ := h
  dsimp only at sdd dd hs ht hn hal hac hi
  rcases seven x with rfl | rfl | rfl | rfl | rfl | rfl | rfl <;> rcases seven y with rfl | rfl | rfl | rfl | rfl | rfl | rfl <;>
    (rw [Fin.sum_univ_seven]; simp only [eig7, v7_0, v7_1, v7_2, v7_3, v7_4, v7_5, v7_6]; first | rw [if_pos rfl] | rw [if_pos trivial] | rw [if_neg (by decide)])
  all_goals first
    | ring1
    | linear_combination 2 * nm * (af ^ 2 + as ^ 2) * dd + 2 * nm * hal
    | linear_combination 2 * nm * hac + hn
    | linear_combination 2 * nm * t2 ^ 2 * (cs ^ 2 * as ^ 2 + cf ^ 2 * af ^ 2) * hs + 2 * nm * t2 ^ 2 * hac + t2 ^ 2 * hn + ht
    | linear_combination 2 * nm * t3 ^ 2 * (cs ^ 2 * as ^ 2 + cf ^ 2 * af ^ 2) * hs + 2 * nm * t3 ^ 2 * hac + t3 ^ 2 * hn + ht
    | linear_combination 2 * nm * (t2 * t3) * (cs ^ 2 * as ^ 2 + cf ^ 2 * af ^ 2) * hs + 2 * nm * (t2 * t3) * hac + t2 * t3 * hn
    | linear_combination 2 * nm * a ^ 2 * (af ^ 2 + as ^ 2) * dd + 2 * nm * a ^ 2 * hal + hn
    | linear_combination t2 ^ 2 * (2 * nm * a ^ 2 * (af ^ 2 + as ^ 2) * (di * sdd + dd) + 2 * nm * a ^ 2 * hal + hn) + t3 ^ 2 * (s ^ 2 * hi + hs) + ht
    | linear_combination t3 ^ 2 * (2 * nm * a ^ 2 * (af ^ 2 + as ^ 2) * (di * sdd + dd) + 2 * nm * a ^ 2 * hal + hn) + t2 ^ 2 * (s ^ 2 * hi + hs) + ht
    | linear_combination t2 * t3 * (2 * nm * a ^ 2 * (af ^ 2 + as ^ 2) * (di * sdd + dd) + 2 * nm * a ^ 2 * hal + hn) - t2 * t3 * (s ^ 2 * hi + hs)

set_option maxHeartbeats 1600000 in
theorem eig6_inv (h : MRel d b1 b2 b3 a m bt) (hi : m.sd * i = 1) : (eig6 m d v1 a i).Inv := by
  intro x y
  obtain ⟨cf, cs, vax, t2, t3, af, as, sd, s, nm, di⟩ := m
  obtain ⟨-, -, -, -, -, sdd, dd, hs, ht, -, -, hn, hal, hac, -, -, -, -⟩ := h
  dsimp only at sdd dd hs ht hn hal hac hi
  rcases six x with rfl | rfl | rfl | rfl | rfl | rfl <;> rcases six y with rfl | rfl | rfl | rfl | rfl | rfl <;>
    (rw [Fin.sum_univ_six]; simp only [eig6, v6_0, v6_1, v6_2, v6_3, v6_4, v6_5]; first | rw [if_pos rfl] | rw [if_pos trivial] | rw [if_neg (by decide)])
  all_goals first
    | ring1
    | linear_combination 2 * nm * hac + hn
    | linear_combination 2 * nm * t2 ^ 2 * (cs ^ 2 * as ^ 2 + cf ^ 2 * af ^ 2) * hs + 2 * nm * t2 ^ 2 * hac + t2 ^ 2 * hn + ht
    | linear_combination 2 * nm * t3 ^ 2 * (cs ^ 2 * as ^ 2 + cf ^ 2 * af ^ 2) * hs + 2 * nm * t3 ^ 2 * hac + t3 ^ 2 * hn + ht
    | linear_combination 2 * nm * (t2 * t3) * (cs ^ 2 * as ^ 2 + cf ^ 2 * af ^ 2) * hs + 2 * nm * (t2 * t3) * hac + t2 * t3 * hn
    | linear_combination 2 * nm * a ^ 2 * (af ^ 2 + as ^ 2) * dd + 2 * nm * a ^ 2 * hal + hn
    | linear_combination t2 ^ 2 * (2 * nm * a ^ 2 * (af ^ 2 + as ^ 2) * (di * sdd + dd) + 2 * nm * a ^ 2 * hal + hn) + t3 ^ 2 * (s ^ 2 * hi + hs) + ht
    | linear_combination t3 ^ 2 * (2 * nm * a ^ 2 * (af ^ 2 + as ^ 2) * (di * sdd + dd) + 2 * nm * a ^ 2 * hal + hn) + t2 ^ 2 * (s ^ 2 * hi + hs) + ht
    | linear_combination t2 * t3 * (2 * nm * a ^ 2 * (af ^ 2 + as ^ 2) * (di * sdd + dd) + 2 * nm * a ^ 2 * hal + hn) - t2 * t3 * (s ^ 2 * hi + hs)

/-- The columns of the adiabatic eigensystem are waves. -/
theorem eig7_wave (g p b1 b2 b3 v2 v3 : ℝ) (hg : g - 1 ≠ 0) (ha : 0 < a) (h : MRel d b1 b2 b3 a m bt) (hp : d * a ^ 2 = g * p) (n : Fin 7) :
    IsWave (cons7 g b1) (flux7 g b1) ![d, v1, v2, v3, p, b2, b3] (fun k => (eig7 m d v1 a i).rem k n) ((eig7 m d v1 a i).ev n) := by
  have f1 := h.fast
  have f2 := h.slow
  have f3 := h.fastB ha
  have f4 := h.slowB
  have hb1 := h.hb1
  have hb2 := h.hb2
  have hb3 := h.hb3
  have hs := h.s
  have ht := h.t
  have hcc := h.cc
  have hsd := h.sdd
  apply wave7 _ _ hg <;> rcases seven n with rfl | rfl | rfl | rfl | rfl | rfl | rfl <;>
    simp only [eig7, v7_0, v7_1, v7_2, v7_3, v7_4, v7_5, v7_6, hb1, hb2, hb3, ← hp, ← hsd]
  all_goals first
    | ring1
    | linear_combination -m.sd * f1 + bt * a * m.as * m.sd * ht
    | linear_combination m.sd * f2 - bt * a * m.af * m.sd * ht
    | linear_combination m.s * m.sd ^ 2 * m.as * m.t2 * hcc
    | linear_combination -m.s * m.sd ^ 2 * m.af * m.t2 * hcc
    | linear_combination m.vax * m.sd ^ 2 * m.t2 * hs
    | linear_combination -m.vax * m.sd ^ 2 * m.t2 * hs
    | linear_combination -m.t2 * f3 - m.vax * m.sd * m.cs * m.as * m.t2 * hs
    | linear_combination m.t2 * f3 + m.vax * m.sd * m.cs * m.as * m.t2 * hs
    | linear_combination -m.t2 * f4 + m.vax * m.sd * m.cf * m.af * m.t2 * hs
    | linear_combination m.t2 * f4 - m.vax * m.sd * m.cf * m.af * m.t2 * hs
    | linear_combination m.s * m.sd ^ 2 * m.as * m.t3 * hcc
    | linear_combination -m.s * m.sd ^ 2 * m.af * m.t3 * hcc
    | linear_combination m.vax * m.sd ^ 2 * m.t3 * hs
    | linear_combination -m.vax * m.sd ^ 2 * m.t3 * hs
    | linear_combination -m.t3 * f3 - m.vax * m.sd * m.cs * m.as * m.t3 * hs
    | linear_combination m.t3 * f3 + m.vax * m.sd * m.cs * m.as * m.t3 * hs
    | linear_combination -m.t3 * f4 + m.vax * m.sd * m.cf * m.af * m.t3 * hs
    | linear_combination m.t3 * f4 - m.vax * m.sd * m.cf * m.af * m.t3 * hs

/-- The columns of the isothermal eigensystem are waves. -/
theorem eig6_wave (b1 b2 b3 v2 v3 : ℝ) (ha : 0 < a) (h : MRel d b1 b2 b3 a m bt) (n : Fin 6) :
    IsWave cons6 (flux6 a b1) ![d, v1, v2, v3, b2, b3] (fun k => (eig6 m d v1 a i).rem k n) ((eig6 m d v1 a i).ev n) := by
  have f1 := h.fast
  have f2 := h.slow
  have f3 := h.fastB ha
  have f4 := h.slowB
  have hb1 := h.hb1
  have hb2 := h.hb2
  have hb3 := h.hb3
  have hs := h.s
  have ht := h.t
  have hcc := h.cc
  have hsd := h.sdd
  apply wave6 <;> rcases six n with rfl | rfl | rfl | rfl | rfl | rfl <;>
    simp only [eig6, v6_0, v6_1, v6_2, v6_3, v6_4, v6_5, hb1, hb2, hb3, ← hsd]
  all_goals first
    | ring1
    | linear_combination -m.sd * f1 + bt * a * m.as * m.sd * ht
    | linear_combination m.sd * f2 - bt * a * m.af * m.sd * ht
    | linear_combination m.s * m.sd ^ 2 * m.as * m.t2 * hcc
    | linear_combination -m.s * m.sd ^ 2 * m.af * m.t2 * hcc
    | linear_combination m.vax * m.sd ^ 2 * m.t2 * hs
    | linear_combination -m.vax * m.sd ^ 2 * m.t2 * hs
    | linear_combination -m.t2 * f3 - m.vax * m.sd * m.cs * m.as * m.t2 * hs
    | linear_combination m.t2 * f3 + m.vax * m.sd * m.cs * m.as * m.t2 * hs
    | linear_combination -m.t2 * f4 + m.vax * m.sd * m.cf * m.af * m.t2 * hs
    | linear_combination m.t2 * f4 - m.vax * m.sd * m.cf * m.af * m.t2 * hs
    | linear_combination m.s * m.sd ^ 2 * m.as * m.t3 * hcc
    | linear_combination -m.s * m.sd ^ 2 * m.af * m.t3 * hcc
    | linear_combination m.vax * m.sd ^ 2 * m.t3 * hs
    | linear_combination -m.vax * m.sd ^ 2 * m.t3 * hs
    | linear_combination -m.t3 * f3 - m.vax * m.sd * m.cs * m.as * m.t3 * hs
    | linear_combination m.t3 * f3 + m.vax * m.sd * m.cs * m.as * m.t3 * hs
    | linear_combination -m.t3 * f4 + m.vax * m.sd * m.cf * m.af * m.t3 * hs
    | linear_combination m.t3 * f4 - m.vax * m.sd * m.cf * m.af * m.t3 * hs

end

theorem mono7 {f : Fin 7 → ℝ} (h : ∀ j : Fin 6, f j.castSucc ≤ f j.succ) : Monotone f := Fin.monotone_iff_le_succ.mpr h

/-- Velocity, density, ... of a zone as the arguments of the specification. -/
theorem vec7 (W : Vec 3 ns) : (fun k => W (Sum.inl k)) = ![W (Sum.inl 0), W (Sum.inl 1), W (Sum.inl 2), W (Sum.inl 3), W (Sum.inl 4),
    W (Sum.inl 5), W (Sum.inl 6)] := by
  funext k; rcases seven k with rfl | rfl | rfl | rfl | rfl | rfl | rfl <;> rfl

theorem vec6 (W : Vec 2 ns) : (fun k => W (Sum.inl k)) = ![W (Sum.inl 0), W (Sum.inl 1), W (Sum.inl 2), W (Sum.inl 3), W (Sum.inl 4),
    W (Sum.inl 5)] := by
  funext k; rcases six k with rfl | rfl | rfl | rfl | rfl | rfl <;> rfl

/-- C94, adiabatic MHD: in every zone with positive density and pressure, whatever the field and also where wave speeds coincide, the call
returns finite numbers, the eigenvalues in increasing order, left and right eigenvectors inverse to each other, and every right eigenvector
is a wave of the equations that moves with its eigenvalue. -/
theorem adb_mhd_eigensystem (gamma : ℝ) (hg : 1 < gamma) (W : Vec 3 ns) (Bx : ℝ) (hd : 0 < W (Sum.inl 0)) (hP : 0 < W (Sum.inl 4)) :
    (esysP7 (W (Sum.inl 0)) (W (Sum.inl 1)) (gamma * W (Sum.inl 4)) Bx (W (Sum.inl 5)) (W (Sum.inl 6))).isSome = true ∧
    Monotone (esysAdbMhd ns gamma W Bx).ev ∧ (esysAdbMhd ns gamma W Bx).Inv ∧ (esysAdbMhd ns gamma W Bx).Dual ∧
    ∀ n, IsWave (cons7 gamma Bx) (flux7 gamma Bx) (fun k => W (Sum.inl k)) (fun k => (esysAdbMhd ns gamma W Bx).rem k n)
      ((esysAdbMhd ns gamma W Bx).ev n) := by
  obtain ⟨m, bt, a, i, e, hr, hi, hda, ha⟩ := esysP7_eq (W (Sum.inl 0)) (W (Sum.inl 1)) (gamma * W (Sum.inl 4)) Bx (W (Sum.inl 5))
    (W (Sum.inl 6)) hd (by positivity)
  have hE : esysAdbMhd ns gamma W Bx = eig7 m (W (Sum.inl 0)) (W (Sum.inl 1)) a i := by unfold esysAdbMhd; rw [e]; rfl
  rw [hE, e]
  refine ⟨rfl, mono7 ?_, eig7_inv hr hi, (eig7_inv hr hi).dual, ?_⟩
  · intro j
    have h1 := hr.cs
    have h2 := hr.csvax
    have h3 := hr.vaxcf
    rcases six j with rfl | rfl | rfl | rfl | rfl | rfl
    · show W (Sum.inl 1) - m.cf ≤ W (Sum.inl 1) - m.vax; linarith
    · show W (Sum.inl 1) - m.vax ≤ W (Sum.inl 1) - m.cs; linarith
    · show W (Sum.inl 1) - m.cs ≤ W (Sum.inl 1); linarith
    · show W (Sum.inl 1) ≤ W (Sum.inl 1) + m.cs; linarith
    · show W (Sum.inl 1) + m.cs ≤ W (Sum.inl 1) + m.vax; linarith
    · show W (Sum.inl 1) + m.vax ≤ W (Sum.inl 1) + m.cf; linarith
  · intro n
    rw [vec7]
    exact eig7_wave gamma _ Bx _ _ _ _ (by linarith) ha hr hda n

/-- C94, isothermal MHD. -/
theorem iso_mhd_eigensystem (c : ℝ) (hc : 0 < c) (W : Vec 2 ns) (Bx : ℝ) (hd : 0 < W (Sum.inl 0)) :
    (esysP6 c (W (Sum.inl 0)) (W (Sum.inl 1)) Bx (W (Sum.inl 4)) (W (Sum.inl 5))).isSome = true ∧
    Monotone (esysIsoMhd ns c W Bx).ev ∧ (esysIsoMhd ns c W Bx).Inv ∧ (esysIsoMhd ns c W Bx).Dual ∧
    ∀ n, IsWave cons6 (flux6 c Bx) (fun k => W (Sum.inl k)) (fun k => (esysIsoMhd ns c W Bx).rem k n) ((esysIsoMhd ns c W Bx).ev n) := by
  obtain ⟨m, bt, i, e, hr, hi⟩ := esysP6_eq c (W (Sum.inl 0)) (W (Sum.inl 1)) Bx (W (Sum.inl 4)) (W (Sum.inl 5)) hd hc
  have hE : esysIsoMhd ns c W Bx = eig6 m (W (Sum.inl 0)) (W (Sum.inl 1)) c i := by unfold esysIsoMhd; rw [e]; rfl
  rw [hE, e]
  refine ⟨rfl, Fin.monotone_iff_le_succ.mpr ?_, eig6_inv hr hi, (eig6_inv hr hi).dual, ?_⟩
  · intro j
    have h1 := hr.cs
    have h2 := hr.csvax
    have h3 := hr.vaxcf
    rcases five j with rfl | rfl | rfl | rfl | rfl
    · show W (Sum.inl 1) - m.cf ≤ W (Sum.inl 1) - m.vax; linarith
    · show W (Sum.inl 1) - m.vax ≤ W (Sum.inl 1) - m.cs; linarith
    · show W (Sum.inl 1) - m.cs ≤ W (Sum.inl 1) + m.cs; linarith
    · show W (Sum.inl 1) + m.cs ≤ W (Sum.inl 1) + m.vax; linarith
    · show W (Sum.inl 1) + m.vax ≤ W (Sum.inl 1) + m.cf; linarith
  · intro n
    rw [vec6]
    exact eig6_wave Bx _ _ _ _ hc hr n

/-! ## Without a field -/

theorem wave5 (g : ℝ) (hg : g - 1 ≠ 0) (w r : Fin 5 → ℝ) (l : ℝ) (h0 : w 0 * r 1 = (l - w 1) * r 0)
    (h1 : r 4 = (l - w 1) * w 0 * r 1) (h2 : 0 = (l - w 1) * w 0 * r 2)
    (h3 : 0 = (l - w 1) * w 0 * r 3) (h4 : g * w 4 * r 1 = (l - w 1) * r 4) : IsWave (cons5 g) (flux5 g) w r l := by
  have H := wave7 g 0 hg ![w 0, w 1, w 2, w 3, w 4, 0, 0] ![r 0, r 1, r 2, r 3, r 4, 0, 0] l
    (by simp only [v7_0, v7_1]; exact h0) (by simp only [v7_0, v7_1, v7_4, v7_5, v7_6]; linear_combination h1)
    (by simp only [v7_0, v7_1, v7_2, v7_5]; linear_combination h2) (by simp only [v7_0, v7_1, v7_3, v7_6]; linear_combination h3)
    (by simp only [v7_1, v7_4]; exact h4) (by simp only [v7_1, v7_2, v7_5]; ring) (by simp only [v7_1, v7_3, v7_6]; ring)
  intro c
  obtain ⟨dU, a, b⟩ := H (Fin.castLE (by norm_num) c)
  refine ⟨dU, a.congr_of_eventuallyEq (.of_forall fun e => ?_), b.congr_of_eventuallyEq (.of_forall fun e => ?_)⟩
  · rcases five c with rfl | rfl | rfl | rfl | rfl
    · rfl
    · rfl
    · rfl
    · rfl
    · show (w 4 + e * r 4) / (g - 1) + (w 0 + e * r 0) * ((w 1 + e * r 1) ^ 2 + (w 2 + e * r 2) ^ 2 + (w 3 + e * r 3) ^ 2) / 2 =
        (w 4 + e * r 4) / (g - 1) + (w 0 + e * r 0) * ((w 1 + e * r 1) ^ 2 + (w 2 + e * r 2) ^ 2 + (w 3 + e * r 3) ^ 2) / 2 +
          (0 ^ 2 + (0 + e * 0) ^ 2 + (0 + e * 0) ^ 2) / 2
      ring
  · rcases five c with rfl | rfl | rfl | rfl | rfl
    · rfl
    · show (w 0 + e * r 0) * (w 1 + e * r 1) * (w 1 + e * r 1) + (w 4 + e * r 4) = (w 0 + e * r 0) * (w 1 + e * r 1) * (w 1 + e * r 1) +
        ((w 4 + e * r 4) + (0 ^ 2 + (0 + e * 0) ^ 2 + (0 + e * 0) ^ 2) / 2) - 0 * 0
      ring
    · show (w 0 + e * r 0) * (w 1 + e * r 1) * (w 2 + e * r 2) = (w 0 + e * r 0) * (w 1 + e * r 1) * (w 2 + e * r 2) - 0 * (0 + e * 0)
      ring
    · show (w 0 + e * r 0) * (w 1 + e * r 1) * (w 3 + e * r 3) = (w 0 + e * r 0) * (w 1 + e * r 1) * (w 3 + e * r 3) - 0 * (0 + e * 0)
      ring
    · show ((w 4 + e * r 4) / (g - 1) + (w 0 + e * r 0) * ((w 1 + e * r 1) ^ 2 + (w 2 + e * r 2) ^ 2 + (w 3 + e * r 3) ^ 2) / 2 +
          (w 4 + e * r 4)) * (w 1 + e * r 1) =
        ((w 4 + e * r 4) / (g - 1) + (w 0 + e * r 0) * ((w 1 + e * r 1) ^ 2 + (w 2 + e * r 2) ^ 2 + (w 3 + e * r 3) ^ 2) / 2 +
          (0 ^ 2 + (0 + e * 0) ^ 2 + (0 + e * 0) ^ 2) / 2 + ((w 4 + e * r 4) + (0 ^ 2 + (0 + e * 0) ^ 2 + (0 + e * 0) ^ 2) / 2)) *
          (w 1 + e * r 1) - 0 * ((w 1 + e * r 1) * 0 + (w 2 + e * r 2) * (0 + e * 0) + (w 3 + e * r 3) * (0 + e * 0))
      ring

theorem wave4 (a : ℝ) (w r : Fin 4 → ℝ) (l : ℝ) (h0 : w 0 * r 1 = (l - w 1) * r 0) (h1 : a ^ 2 * r 0 = (l - w 1) * w 0 * r 1)
    (h2 : 0 = (l - w 1) * w 0 * r 2) (h3 : 0 = (l - w 1) * w 0 * r 3) : IsWave cons4 (flux4 a) w r l := by
  have H := wave6 a 0 ![w 0, w 1, w 2, w 3, 0, 0] ![r 0, r 1, r 2, r 3, 0, 0] l
    (by simp only [v6_0, v6_1]; exact h0) (by simp only [v6_0, v6_1, v6_4, v6_5]; linear_combination h1)
    (by simp only [v6_0, v6_1, v6_2, v6_4]; linear_combination h2) (by simp only [v6_0, v6_1, v6_3, v6_5]; linear_combination h3)
    (by simp only [v6_1, v6_2, v6_4]; ring) (by simp only [v6_1, v6_3, v6_5]; ring)
  intro c
  obtain ⟨dU, x, y⟩ := H (Fin.castLE (by norm_num) c)
  refine ⟨dU, x.congr_of_eventuallyEq (.of_forall fun e => ?_), y.congr_of_eventuallyEq (.of_forall fun e => ?_)⟩
  · rcases four c with rfl | rfl | rfl | rfl <;> rfl
  · rcases four c with rfl | rfl | rfl | rfl
    · rfl
    · show (w 0 + e * r 0) * (w 1 + e * r 1) * (w 1 + e * r 1) + a ^ 2 * (w 0 + e * r 0) = (w 0 + e * r 0) * (w 1 + e * r 1) * (w 1 + e * r 1) +
        (a ^ 2 * (w 0 + e * r 0) + (0 ^ 2 + (0 + e * 0) ^ 2 + (0 + e * 0) ^ 2) / 2) - 0 * 0
      ring
    · show (w 0 + e * r 0) * (w 1 + e * r 1) * (w 2 + e * r 2) = (w 0 + e * r 0) * (w 1 + e * r 1) * (w 2 + e * r 2) - 0 * (0 + e * 0)
      ring
    · show (w 0 + e * r 0) * (w 1 + e * r 1) * (w 3 + e * r 3) = (w 0 + e * r 0) * (w 1 + e * r 1) * (w 3 + e * r 3) - 0 * (0 + e * 0)
      ring

/-- C94, adiabatic hydrodynamics. -/
theorem adb_hyd_eigensystem (gamma : ℝ) (hg : 1 < gamma) (W : Vec 1 ns) (hd : 0 < W (Sum.inl 0)) (hP : 0 < W (Sum.inl 4)) :
    Monotone (esysAdbHyd ns gamma W).ev ∧ (esysAdbHyd ns gamma W).Inv ∧ (esysAdbHyd ns gamma W).Dual ∧
    ∀ n, IsWave (cons5 gamma) (flux5 gamma) (fun k => W (Sum.inl k)) (fun k => (esysAdbHyd ns gamma W).rem k n)
      ((esysAdbHyd ns gamma W).ev n) := by
  have hi := esysAdbHyd_inv (ns := ns) (gamma := gamma) hd (by positivity)
  have hq : 0 < gamma * W (Sum.inl 4) / W (Sum.inl 0) := by positivity
  have ha := Real.sqrt_nonneg (gamma * W (Sum.inl 4) / W (Sum.inl 0))
  have hs := Real.mul_self_sqrt hq.le
  refine ⟨Fin.monotone_iff_le_succ.mpr ?_, hi, hi.dual, ?_⟩
  · intro j
    rcases four j with rfl | rfl | rfl | rfl
    · show W (Sum.inl 1) - Real.sqrt _ ≤ W (Sum.inl 1); linarith
    · show W (Sum.inl 1) ≤ W (Sum.inl 1); exact le_rfl
    · show W (Sum.inl 1) ≤ W (Sum.inl 1); exact le_rfl
    · show W (Sum.inl 1) ≤ W (Sum.inl 1) + Real.sqrt _; linarith
  · intro n
    have hdn := hd.ne'
    have hs' : Real.sqrt (gamma * W (Sum.inl 4) / W (Sum.inl 0)) * Real.sqrt (gamma * W (Sum.inl 4) / W (Sum.inl 0)) * W (Sum.inl 0) =
      gamma * W (Sum.inl 4) := by rw [hs]; field_simp
    apply wave5 gamma (by linarith) <;> rcases five n with rfl | rfl | rfl | rfl | rfl <;>
      simp only [esysAdbHyd, v5_0, v5_1, v5_2, v5_3, v5_4] <;>
      generalize Real.sqrt (gamma * W (Sum.inl 4) / W (Sum.inl 0)) = a at hs hs' <;> (try rw [← hs]) <;> (try rw [← hs']) <;> field_simp <;> (try ring)

/-- C94, isothermal hydrodynamics. -/
theorem iso_hyd_eigensystem (c : ℝ) (hc : 0 < c) (W : Vec 0 ns) (hd : 0 < W (Sum.inl 0)) :
    Monotone (esysIsoHyd ns c W).ev ∧ (esysIsoHyd ns c W).Inv ∧ (esysIsoHyd ns c W).Dual ∧
    ∀ n, IsWave cons4 (flux4 c) (fun k => W (Sum.inl k)) (fun k => (esysIsoHyd ns c W).rem k n) ((esysIsoHyd ns c W).ev n) := by
  have hi := esysIsoHyd_inv (ns := ns) hd hc
  refine ⟨Fin.monotone_iff_le_succ.mpr ?_, hi, hi.dual, ?_⟩
  · intro j
    have : j = 0 ∨ j = 1 ∨ j = 2 := by omega
    rcases this with rfl | rfl | rfl
    · show W (Sum.inl 1) - c ≤ W (Sum.inl 1); linarith
    · show W (Sum.inl 1) ≤ W (Sum.inl 1); exact le_rfl
    · show W (Sum.inl 1) ≤ W (Sum.inl 1) + c; linarith
  · intro n
    have hdn := hd.ne'
    apply wave4 <;> rcases four n with rfl | rfl | rfl | rfl <;> simp only [esysIsoHyd, v4_0, v4_1, v4_2, v4_3] <;> field_simp <;> (try ring)

/-! ## Consequences for the reconstruction -/

/-- C36 for adiabatic MHD: PLM and PPM reproduce linear data with positive density and pressure. -/
theorem mhd_linear (cf : Cfg) (hc : cf.ctu = false) (gamma : ℝ) (hg : 1 < gamma) (q : ℝ) (W : ℤ → Vec 3 ns) (Bxc : ℤ → ℝ) (il iu : ℤ)
    (o : Out 3 ns) (st : PpmSt 3 ns) (i : ℤ) (h1 : il ≤ i) (h2 : i ≤ iu + 1) (c s : Vec 3 ns)
    (hW : ∀ j, i - 3 ≤ j → j ≤ i + 2 → W j = fun n => c n + s n * j) (hd : ∀ j, 0 < W j (Sum.inl 0)) (hP : ∀ j, 0 < W j (Sum.inl 4)) (n) :
    (lrPlm cf (esysAdbMhd ns gamma) q W Bxc il iu o).Wl i n = c n + s n * (i - 1/2) ∧
    (lrPlm cf (esysAdbMhd ns gamma) q W Bxc il iu o).Wr i n = c n + s n * (i - 1/2) ∧
    (lrPpm cf (esysAdbMhd ns gamma) q W Bxc il iu st).o.Wl i n = c n + s n * (i - 1/2) ∧
    (lrPpm cf (esysAdbMhd ns gamma) q W Bxc il iu st).o.Wr i n = c n + s n * (i - 1/2) := by
  have hE : ∀ j, (esysAdbMhd ns gamma (W j) (Bxc j)).Inv := fun j => (adb_mhd_eigensystem gamma hg (W j) (Bxc j) (hd j) (hP j)).2.2.1
  have a := plm_linear cf hc (esysAdbMhd ns gamma) q W Bxc il iu o i h1 h2 c s (fun j _ _ => hE j) (fun j x y => hW j (by omega) (by omega)) n
  have b := ppm_linear cf hc (esysAdbMhd ns gamma) q W Bxc il iu st i h1 h2 c s (fun j _ _ => hE j) (fun j x y => hW j (by omega) (by omega)) n
  exact ⟨a.1, a.2, b.1, b.2⟩

/-- C36 for isothermal MHD. -/
theorem mhd_iso_linear (cf : Cfg) (hc : cf.ctu = false) (cs : ℝ) (hg : 0 < cs) (q : ℝ) (W : ℤ → Vec 2 ns) (Bxc : ℤ → ℝ) (il iu : ℤ)
    (o : Out 2 ns) (st : PpmSt 2 ns) (i : ℤ) (h1 : il ≤ i) (h2 : i ≤ iu + 1) (c s : Vec 2 ns)
    (hW : ∀ j, i - 3 ≤ j → j ≤ i + 2 → W j = fun n => c n + s n * j) (hd : ∀ j, 0 < W j (Sum.inl 0)) (n) :
    (lrPlm cf (esysIsoMhd ns cs) q W Bxc il iu o).Wl i n = c n + s n * (i - 1/2) ∧
    (lrPlm cf (esysIsoMhd ns cs) q W Bxc il iu o).Wr i n = c n + s n * (i - 1/2) ∧
    (lrPpm cf (esysIsoMhd ns cs) q W Bxc il iu st).o.Wl i n = c n + s n * (i - 1/2) ∧
    (lrPpm cf (esysIsoMhd ns cs) q W Bxc il iu st).o.Wr i n = c n + s n * (i - 1/2) := by
  have hE : ∀ j, (esysIsoMhd ns cs (W j) (Bxc j)).Inv := fun j => (iso_mhd_eigensystem cs hg (W j) (Bxc j) (hd j)).2.2.1
  have a := plm_linear cf hc (esysIsoMhd ns cs) q W Bxc il iu o i h1 h2 c s (fun j _ _ => hE j) (fun j x y => hW j (by omega) (by omega)) n
  have b := ppm_linear cf hc (esysIsoMhd ns cs) q W Bxc il iu st i h1 h2 c s (fun j _ _ => hE j) (fun j x y => hW j (by omega) (by omega)) n
  exact ⟨a.1, a.2, b.1, b.2⟩

/-- A zone with a field in every direction. -/
example : let W : Vec 3 0 := Sum.elim ![2, 1/3, 1, -1, 3/5, 1, -2] Fin.elim0
    (esysAdbMhd 0 (5/3) W (-1)).Inv ∧ ∀ n, IsWave (cons7 (5/3) (-1)) (flux7 (5/3) (-1)) (fun k => W (Sum.inl k))
      (fun k => (esysAdbMhd 0 (5/3) W (-1)).rem k n) ((esysAdbMhd 0 (5/3) W (-1)).ev n) := by
  intro W
  have h := adb_mhd_eigensystem (5/3) (by norm_num) W (-1) (show (0:ℝ) < 2 by norm_num) (show (0:ℝ) < 3/5 by norm_num)
  exact ⟨h.2.2.1, h.2.2.2.2⟩

/-- All three speeds coincide: field along the normal with the Alfven speed equal to the speed of sound. -/
example : let W : Vec 2 0 := Sum.elim ![1, 0, 0, 0, 0, 0] Fin.elim0
    (esysIsoMhd 0 1 W 1).Inv :=
  (iso_mhd_eigensystem 1 (by norm_num) _ 1 (show (0:ℝ) < 1 by norm_num)).2.2.1

/-- Linear profiles of density, pressure and field. -/
example : let W : ℤ → Vec 3 0 := fun j => Sum.elim ![3, 1/5 * j, 0, 0, 2, 1/7 * j, 1 - j] Fin.elim0
    ∀ k : Fin 7, (lrPpm ⟨false, false⟩ (esysAdbMhd 0 (5/3)) 0 W (fun _ => 1) 0 4 ⟨⟨fun _ => 0, fun _ _ => 0, fun _ _ => 0⟩, fun _ _ => 0, fun _ _ => 0, ⟨fun _ _ => 0, fun _ _ => 0⟩⟩).o.Wl 2 (Sum.inl k) =
      (W 1 (Sum.inl k) + W 2 (Sum.inl k)) / 2 := by
  intro W k
  have h := mhd_linear (ns := 0) ⟨false, false⟩ rfl (5/3) (by norm_num) 0 W (fun _ => 1) 0 4 ⟨fun _ _ => 0, fun _ _ => 0⟩
    ⟨⟨fun _ => 0, fun _ _ => 0, fun _ _ => 0⟩, fun _ _ => 0, fun _ _ => 0, ⟨fun _ _ => 0, fun _ _ => 0⟩⟩ 2 (by norm_num) (by norm_num)
    (Sum.elim ![3, 0, 0, 0, 2, 0, 1] Fin.elim0) (Sum.elim ![0, 1/5, 0, 0, 0, 1/7, -1] Fin.elim0)
    (by
      intro j _ _
      funext x
      rcases x with x | x
      · rcases seven x with rfl | rfl | rfl | rfl | rfl | rfl | rfl
        · show (3:ℝ) = 3 + 0 * j; ring
        · show (1/5:ℝ) * j = 0 + 1/5 * j; ring
        · show (0:ℝ) = 0 + 0 * j; ring
        · show (0:ℝ) = 0 + 0 * j; ring
        · show (2:ℝ) = 2 + 0 * j; ring
        · show (1/7:ℝ) * j = 0 + 1/7 * j; ring
        · show (1:ℝ) - j = 1 + -1 * j; ring
      · exact x.elim0)
    (fun _ => show (0:ℝ) < 3 by norm_num) (fun _ => show (0:ℝ) < 2 by norm_num) (Sum.inl k)
  rw [h.2.2.1]
  rcases seven k with rfl | rfl | rfl | rfl | rfl | rfl | rfl
  · show (3:ℝ) + 0 * _ = (3 + 3) / 2; norm_num
  · show (0:ℝ) + 1/5 * _ = (1/5 * ((1:ℤ):ℝ) + 1/5 * ((2:ℤ):ℝ)) / 2; norm_num
  · show (0:ℝ) + 0 * _ = (0 + 0) / 2; norm_num
  · show (0:ℝ) + 0 * _ = (0 + 0) / 2; norm_num
  · show (2:ℝ) + 0 * _ = (2 + 2) / 2; norm_num
  · show (0:ℝ) + 1/7 * _ = (1/7 * ((1:ℤ):ℝ) + 1/7 * ((2:ℤ):ℝ)) / 2; norm_num
  · show (1:ℝ) + -1 * _ = (1 - ((1:ℤ):ℝ) + (1 - ((2:ℤ):ℝ))) / 2; norm_num

end
end Athena.Recon
