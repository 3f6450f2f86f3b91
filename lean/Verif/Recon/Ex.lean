import Verif.Recon.Props3

/-!
# Reconstruction: counterexamples, special relativity (C61), concrete cases
-/

namespace Athena.Recon
noncomputable section
open Athena.Hydro

variable {k ns : ℕ}

/-- A state of adiabatic hydrodynamics without scalars. -/
def st5 (d v1 v2 v3 P : ℝ) : Vec 1 0 := fun n => match n with
  | Sum.inl m => (![d, v1, v2, v3, P] : Fin 5 → ℝ) m
  | Sum.inr s => s.elim0

/-- A state with two scalars. -/
def st52 (d v1 v2 v3 P s1 s2 : ℝ) : Vec 1 2 := fun n => match n with
  | Sum.inl m => (![d, v1, v2, v3, P] : Fin 5 → ℝ) m
  | Sum.inr s => (![s1, s2] : Fin 2 → ℝ) s

/-- Arbitrary previous contents. -/
def o0 : Out k ns := ⟨fun _ _ => 0, fun _ _ => 0⟩

/-! ## CTU with an HLL flux: waves at rest -/

/-- Density step in a gas at rest with uniform pressure. -/
def restW : ℤ → Vec 1 0 := fun i => st5 (if i < 0 then 1 else if i = 0 then 2 else 5/2) 0 0 0 (6/5)

theorem restE : esysAdbHyd 0 (5/3) (restW 0) = ⟨![-1, 0, 0, 0, 1],
    ![![1, 1, 0, 0, 1], ![-1/2, 0, 0, 0, 1/2], ![0, 0, 1, 0, 0], ![0, 0, 0, 1, 0], ![1, 0, 0, 0, 1]],
    ![![0, -1, 0, 0, 1/2], ![1, 0, 0, 0, -1], ![0, 0, 1, 0, 0], ![0, 0, 0, 1, 0], ![0, 1, 0, 0, 1/2]]⟩ := by
  have e0 : restW 0 (Sum.inl 0) = 2 := by norm_num [restW, st5]
  have e1 : restW 0 (Sum.inl 1) = 0 := by norm_num [restW, st5]
  have e4 : restW 0 (Sum.inl 4) = 6/5 := rfl
  unfold esysAdbHyd
  rw [e0, e1, e4]
  have : (5/3 * (6/5) / 2 : ℝ) = 1 := by norm_num
  simp only [this, Real.sqrt_one]
  norm_num

theorem restCfl (i : ℤ) : Cfl (esysAdbHyd 0 (5/3) (restW i)) (vx (restW i)) (7/10) := by
  have e1 : restW i (Sum.inl 1) = 0 := rfl
  have e4 : restW i (Sum.inl 4) = 6/5 := rfl
  have e0 : 1 ≤ restW i (Sum.inl 0) := by
    show (1:ℝ) ≤ if i < 0 then 1 else if i = 0 then 2 else 5/2
    split_ifs <;> norm_num
  have hs : Real.sqrt (5/3 * restW i (Sum.inl 4) / restW i (Sum.inl 0)) ≤ 10/7 := by
    rw [e4, Real.sqrt_le_left (by norm_num), div_le_iff₀ (by linarith)]
    linarith
  have hn := Real.sqrt_nonneg (5/3 * restW i (Sum.inl 4) / restW i (Sum.inl 0))
  have lo : (esysAdbHyd 0 (5/3) (restW i)).lo = restW i (Sum.inl 1) - Real.sqrt (5/3 * restW i (Sum.inl 4) / restW i (Sum.inl 0)) := rfl
  have hi : (esysAdbHyd 0 (5/3) (restW i)).hi = restW i (Sum.inl 1) + Real.sqrt (5/3 * restW i (Sum.inl 4) / restW i (Sum.inl 0)) := rfl
  constructor
  · rw [lo]; unfold vx; linarith
  · rw [hi]; unfold vx; linarith
  · rw [hi, e1]; linarith
  · rw [lo, e1]; linarith

theorem rest_slope (n) : charSlope (esysAdbHyd 0 (5/3) (restW 0)) (restW (-1)) (restW 0) (restW 1) (Sum.inl n) = if n = 0 then 2/3 else 0 := by
  rw [restE]
  have d : ∀ i, restW i = st5 (if i < 0 then 1 else if i = 0 then 2 else 5/2) 0 0 0 (6/5) := fun _ => rfl
  rw [d, d, d]
  unfold charSlope
  dsimp only
  have s5 : ∀ f : Fin (1 + 4) → ℝ, ∑ n, f n = f 0 + f 1 + f 2 + f 3 + f 4 := fun f => Fin.sum_univ_five f
  simp only [s5, st5, v5_0, v5_1, v5_2, v5_3, v5_4]
  norm_num [limit_zero]
  have l1 : limit (3/2) 1 (1/2) (vanLeer 1 (1/2)) = 2/3 := by
    unfold limit vanLeer sgn fmin; norm_num
  rw [vanLeer_self, neg_zero, add_zero, l1]
  rcases five n with rfl | rfl | rfl | rfl | rfl <;> simp only [v5_0, v5_1, v5_2, v5_3, v5_4] <;>
    first | rw [if_pos trivial] | rw [if_neg (by decide)]
  all_goals norm_num

theorem rest_zone (n) : (zM (fun w _ => esysAdbHyd 0 (5/3) w) restW (fun _ => 0) 0).1 (Sum.inl n) = (![5/3, 0, 0, 0, 6/5] : Fin 5 → ℝ) n ∧
    (zM (fun w _ => esysAdbHyd 0 (5/3) w) restW (fun _ => 0) 0).2 (Sum.inl n) = (![7/3, 0, 0, 0, 6/5] : Fin 5 → ℝ) n := by
  unfold zM
  dsimp only
  rw [zero_sub, zero_add, rest_slope]
  have d : ∀ i, restW i = st5 (if i < 0 then 1 else if i = 0 then 2 else 5/2) 0 0 0 (6/5) := fun _ => rfl
  rw [d, d, d]
  rcases five n with rfl | rfl | rfl | rfl | rfl <;> simp only [st5, v5_0, v5_1, v5_2, v5_3, v5_4]
  · norm_num [plmZone, clip, fmin, fmax]
  all_goals
    rw [if_neg (by decide), plmZone_same]
    exact ⟨rfl, rfl⟩

/-- C36 fails for PLM with the CTU integrator and an HLL-type flux: a contact discontinuity at rest is corrected twice, so that the density
of the left state at an interface is larger than the densities of both adjacent zones.  The data satisfy the CFL condition. -/
theorem plm_ctu_hll_false : ∃ (W : ℤ → Vec 1 0) (q : ℝ), 0 < q ∧
    (∀ i, 0 < W i (Sum.inl 0) ∧ 0 < W i (Sum.inl 4)) ∧ (∀ i, Cfl (esysAdbHyd 0 (5/3) (W i)) (vx (W i)) q) ∧
    ¬ Bounded W 1 1 (lrPlm ⟨true, true⟩ (fun w _ => esysAdbHyd 0 (5/3) w) q W (fun _ => 0) 1 1 o0) := by
  refine ⟨restW, 7/10, by norm_num, fun i => ⟨?_, by norm_num [show restW i (Sum.inl 4) = 6/5 from rfl]⟩, restCfl, fun h => ?_⟩
  · show (0:ℝ) < if i < 0 then 1 else if i = 0 then 2 else 5/2
    split_ifs <;> norm_num
  · have b := ((h 1 (by norm_num) (by norm_num) (Sum.inl 0)).1).2
    rw [(plm_states _ _ _ _ _ _ _ _ _ (by norm_num) (by norm_num)).1] at b
    have e : (outM ⟨true, true⟩ (fun w _ => esysAdbHyd 0 (5/3) w) (7/10) restW (fun _ => 0) (1 - 1)).1 (Sum.inl 0) = 77/30 := by
      rw [show (1 - 1 : ℤ) = 0 by norm_num]
      unfold outM plmTrace waves
      simp only [if_true, rest_zone, restE, Eig.lo, Eig.hi]
      have s5 : ∀ f : Fin (1 + 4) → ℝ, ∑ n, f n = f 0 + f 1 + f 2 + f 3 + f 4 := fun f => Fin.sum_univ_five f
      have l4 : (![-1, 0, 0, 0, 1] : Fin 5 → ℝ) (Fin.last (1 + 3)) = 1 := rfl
      simp only [s5, v5_0, v5_1, v5_2, v5_3, v5_4, l4]
      norm_num [fmax]
    rw [e, show restW (1 - 1) (Sum.inl 0) = 2 by norm_num [restW, st5], show restW 1 (Sum.inl 0) = 5/2 by norm_num [restW, st5]] at b
    norm_num at b

/-! ## CTU with several scalars -/

/-- Uniform flow; the first scalar varies linearly, the second is constant. -/
def twoW : ℤ → Vec 1 2 := fun i => st52 1 1 0 0 (3/5) i 7

/-- C36 fails for the third order primitive reconstruction with the CTU integrator and two scalars: in a uniform flow the second scalar, which
is constant, is reconstructed with the slope of the first one, so that its interface value is not the constant. -/
theorem prim3_ctu_scalar_false : ∃ (W : ℤ → Vec 1 2) (q : ℝ), 0 < q ∧ (∀ i, Cfl (esysAdbHyd 2 (5/3) (W i)) (vx (W i)) q) ∧
    (∀ i, W i (Sum.inr 1) = 7) ∧
    (lrPrim3 ⟨true, false⟩ (fun w _ => esysAdbHyd 2 (5/3) w) q W (fun _ => 0) 1 1 (fun _ _ => 0) o0).Wl 1 (Sum.inr 1) ≠ 7 := by
  have a1 : ∀ i, Real.sqrt (5/3 * twoW i (Sum.inl 4) / twoW i (Sum.inl 0)) = 1 := by
    intro i
    rw [show twoW i (Sum.inl 4) = 3/5 from rfl, show twoW i (Sum.inl 0) = 1 from rfl, show (5/3 * (3/5) / 1 : ℝ) = 1 by norm_num, Real.sqrt_one]
  have lo : ∀ i, (esysAdbHyd 2 (5/3) (twoW i)).lo = 0 := by
    intro i
    have : (esysAdbHyd 2 (5/3) (twoW i)).lo = 1 - Real.sqrt (5/3 * twoW i (Sum.inl 4) / twoW i (Sum.inl 0)) := rfl
    rw [this, a1]; norm_num
  have hi : ∀ i, (esysAdbHyd 2 (5/3) (twoW i)).hi = 2 := by
    intro i
    have : (esysAdbHyd 2 (5/3) (twoW i)).hi = 1 + Real.sqrt (5/3 * twoW i (Sum.inl 4) / twoW i (Sum.inl 0)) := rfl
    rw [this, a1]; norm_num
  have hv : ∀ i, vx (twoW i) = 1 := fun _ => rfl
  refine ⟨twoW, 2/5, by norm_num, fun i => ?_, fun _ => rfl, ?_⟩
  · constructor
    · rw [lo, hv]; norm_num
    · rw [hi, hv]; norm_num
    · rw [hi]; norm_num
    · rw [lo]; norm_num
  · rw [(prim3_states _ _ _ _ _ _ _ _ _ _ (by norm_num) (by norm_num)).1]
    rw [show (1 - 1 : ℤ) = 0 by norm_num]
    have lin := fun n c s hW => prim3_linear ⟨false, false⟩ rfl (fun w _ => esysAdbHyd 2 (5/3) w) (2/5) twoW (fun _ => 0) 0 0 (fun _ _ => 0) o0
      0 (by norm_num) (by norm_num) n c s hW
    have lin1 := fun n c s hW => prim3_linear ⟨false, false⟩ rfl (fun w _ => esysAdbHyd 2 (5/3) w) (2/5) twoW (fun _ => 0) 0 0 (fun _ _ => 0) o0
      1 (by norm_num) (by norm_num) n c s hW
    have st0 := fun i h1 h2 => prim3_states ⟨false, false⟩ (fun w _ => esysAdbHyd 2 (5/3) w) (2/5) twoW (fun _ => 0) 0 0 (fun _ _ => 0) o0 i h1 h2
    have s0 : (twoW · (Sum.inr 0)) = fun j : ℤ => (0:ℝ) + 1 * j := by funext j; show (j : ℝ) = _; ring
    have s1 : (twoW · (Sum.inr 1)) = fun j : ℤ => (7:ℝ) + 0 * j := by funext j; show (7 : ℝ) = _; ring
    have A := (lin (Sum.inr 0) 0 1 (fun j _ _ => congrFun s0 j)).2
    have B := (lin (Sum.inr 1) 7 0 (fun j _ _ => congrFun s1 j)).2
    have A' := (lin1 (Sum.inr 0) 0 1 (fun j _ _ => congrFun s0 j)).1
    have B' := (lin1 (Sum.inr 1) 7 0 (fun j _ _ => congrFun s1 j)).1
    rw [(st0 0 (by norm_num) (by norm_num)).2] at A B
    rw [(st0 1 (by norm_num) (by norm_num)).1, show (1 - 1 : ℤ) = 0 by norm_num] at A' B'
    simp only [out3, Bool.false_eq_true, if_false] at A B A' B'
    simp only [out3, if_true, prim3Trace, hv]
    rw [if_pos (by norm_num)]
    have z : (⟨0, by omega⟩ : Fin 2) = 0 := rfl
    rw [hi, z, A, B, A', B', show twoW 0 (Sum.inr 1) = 7 from rfl, show twoW 0 (Sum.inr 0) = ((0 : ℤ) : ℝ) from rfl]
    norm_num [two3rds, fmax]

/-! ## LimO3 -/

/-- C36 fails for the LimO3 limiter: positive data may be reconstructed to a negative value, because the scheme is not limited where the data
vary by less than a tenth of the zone size. -/
theorem limO3_false : ∃ (W : ℤ → Vec 1 0), (∀ i n, 0 ≤ W i n) ∧ (∀ i, 0 < W i (Sum.inl 0)) ∧ (lrP3c true 1 W 0 0 o0).Wr 0 (Sum.inl 0) < 0 := by
  refine ⟨fun i => st5 (if i < 0 then 11/1000 else if i = 0 then 1/1000 else 51/1000) 0 0 0 1, ?_, ?_, ?_⟩
  · intro i n
    cases n with
    | inr s => exact s.elim0
    | inl n =>
      rcases five n with rfl | rfl | rfl | rfl | rfl
      · show (0:ℝ) ≤ if i < 0 then 11/1000 else if i = 0 then 1/1000 else 51/1000
        split_ifs <;> norm_num
      · exact le_rfl
      · exact le_rfl
      · exact le_rfl
      · exact zero_le_one
  · intro i
    show (0:ℝ) < if i < 0 then 11/1000 else if i = 0 then 1/1000 else 51/1000
    split_ifs <;> norm_num
  · rw [(p3c_states _ _ _ _ _ _ _ (by norm_num) (by norm_num)).2]
    unfold outC
    simp only [st5, v5_0, if_true]
    norm_num [limO3, theta, sgn, eps]

/-! ## Special relativity (C61) -/

/-- `|v|²` -/
def vsq (w : Vec k ns) : ℝ := w (Sum.inl 1) ^ 2 + w (Sum.inl 2) ^ 2 + w (Sum.inl 3) ^ 2

/-- The loops over the four-velocity never run: the velocities are those of the ordinary reconstruction. -/
theorem sr_states (W : ℤ → Vec k ns) (il iu : ℤ) (o : Out k ns) (es : Vec k ns → ℝ → Eig k) (q : ℝ) (Bxc : ℤ → ℝ) (i : ℤ) (h1 : il ≤ i)
    (h2 : i ≤ iu + 1) : (lrPrim2Sr W il iu o).Wl i = (lrPrim2 ⟨false, false⟩ es q W Bxc il iu o).Wl i ∧
      (lrPrim2Sr W il iu o).Wr i = (lrPrim2 ⟨false, false⟩ es q W Bxc il iu o).Wr i := by
  have e : lrPrim2Sr W il iu o = lrPrim2 ⟨false, false⟩ es q W Bxc il iu o := by
    unfold lrPrim2Sr lrPrim2
    refine forLoop_congr _ _ _ _ _ (fun i s _ _ => ?_)
    simp only [srZone, forEq3, Bool.false_eq_true, if_false, show ¬ (0 = 3) from by decide, show ¬ (1 = 3) from by decide]
    congr 1
    ext n <;> cases n <;> simp
  rw [e]
  exact ⟨rfl, rfl⟩

/-- C61 fails: subluminal flows can be reconstructed to states faster than light. -/
theorem sr_superluminal_false : ∃ W : ℤ → Vec 1 0, (∀ i, vsq (W i) < 1) ∧ 1 < vsq ((lrPrim2Sr W 1 1 o0).Wl 1) := by
  let W : ℤ → Vec 1 0 := fun i => st5 1 (if i < 0 then -(79/100) else if i = 0 then 79/100 else 99/100) (if i ≤ 0 then 3/5 else 0) 0 1
  refine ⟨W, fun i => ?_, ?_⟩
  · show (if i < 0 then -(79/100) else if i = 0 then 79/100 else 99/100 : ℝ) ^ 2 + (if i ≤ 0 then 3/5 else 0 : ℝ) ^ 2 + (0 : ℝ) ^ 2 < 1
    split_ifs <;> first | omega | norm_num
  · rw [(sr_states W 1 1 o0 (fun w _ => esysAdbHyd 0 (5/3) w) 0 (fun _ => 0) 1 (by norm_num) (by norm_num)).1,
      (prim2_states _ _ _ _ _ _ _ _ _ (by norm_num) (by norm_num)).1]
    have w1 : ∀ i, W i (Sum.inl 1) = if i < 0 then -(79/100) else if i = 0 then 79/100 else 99/100 := fun _ => rfl
    have w2 : ∀ i, W i (Sum.inl 2) = if i ≤ 0 then 3/5 else 0 := fun _ => rfl
    have w3 : ∀ i, W i (Sum.inl 3) = 0 := fun _ => rfl
    simp only [out2, Bool.false_eq_true, if_false, z2, vsq, w1, w2, w3]
    norm_num [prim2Zone, limit, vanLeer, sgn, fmin, fmax, clip, abs_of_pos]

/-- C61 (partial): the reconstructed states are subluminal where the components of the velocity in the two adjacent zones are small enough,
in particular for one-dimensional flows.  Missing: flows with large oblique velocities, for which it is false (`sr_superluminal_false`). -/
theorem sr_subluminal_partial (W : ℤ → Vec k ns) (il iu : ℤ) (o : Out k ns) (i : ℤ) (h1 : il ≤ i) (h2 : i ≤ iu + 1)
    (h : max (W (i - 1) (Sum.inl 1) ^ 2) (W i (Sum.inl 1) ^ 2) + max (W (i - 1) (Sum.inl 2) ^ 2) (W i (Sum.inl 2) ^ 2) +
      max (W (i - 1) (Sum.inl 3) ^ 2) (W i (Sum.inl 3) ^ 2) < 1) :
    vsq ((lrPrim2Sr W il iu o).Wl i) < 1 ∧ vsq ((lrPrim2Sr W il iu o).Wr i) < 1 := by
  have sq : ∀ a b x : ℝ, Between a b x → x ^ 2 ≤ max (a ^ 2) (b ^ 2) := by
    intro a b x ⟨l, u⟩
    rcases le_total a b with c | c
    · rw [min_eq_left c] at l; rw [max_eq_right c] at u
      rcases le_total 0 x with p | p
      · exact (pow_le_pow_left₀ p u 2).trans (le_max_right _ _)
      · exact (by nlinarith : x ^ 2 ≤ a ^ 2).trans (le_max_left _ _)
    · rw [min_eq_right c] at l; rw [max_eq_left c] at u
      rcases le_total 0 x with p | p
      · exact (pow_le_pow_left₀ p u 2).trans (le_max_left _ _)
      · exact (by nlinarith : x ^ 2 ≤ b ^ 2).trans (le_max_right _ _)
  let es : Vec k ns → ℝ → Eig k := fun _ _ => ⟨fun _ => 0, fun _ _ => 0, fun _ _ => 0⟩
  have b := prim2_bounded ⟨false, false⟩ rfl es 0 W (fun _ => 0) il iu o i h1 h2
  rw [(sr_states W il iu o es 0 (fun _ => 0) i h1 h2).1, (sr_states W il iu o es 0 (fun _ => 0) i h1 h2).2]
  unfold vsq
  have x1 := sq _ _ _ (b (Sum.inl 1)).1
  have x2 := sq _ _ _ (b (Sum.inl 2)).1
  have x3 := sq _ _ _ (b (Sum.inl 3)).1
  have y1 := sq _ _ _ (b (Sum.inl 1)).2
  have y2 := sq _ _ _ (b (Sum.inl 2)).2
  have y3 := sq _ _ _ (b (Sum.inl 3)).2
  constructor <;> linarith

/-! ## Concrete cases -/

/-- A monotone, curved density profile. -/
def curveW : ℤ → Vec 1 0 := fun i => st5 (1 + 4 * (i : ℝ) ^ 2) (i / 2) 0 0 1

/-- The hypotheses of the statements for the van Leer integrator hold for a curved profile, and the states are not just the zone values. -/
example : Bounded curveW 1 5 (lrPrim2 ⟨false, true⟩ (fun w _ => esysAdbHyd 0 (5/3) w) 0 curveW (fun _ => 0) 1 5 o0) ∧
    (lrPrim2 ⟨false, true⟩ (fun w _ => esysAdbHyd 0 (5/3) w) 0 curveW (fun _ => 0) 1 5 o0).Wl 3 (Sum.inl 0) = 17 + 15/2 := by
  refine ⟨prim2_bounded _ rfl _ _ _ _ _ _ _, ?_⟩
  rw [(prim2_states _ _ _ _ _ _ _ _ _ (by norm_num) (by norm_num)).1]
  have w0 : ∀ i : ℤ, curveW i (Sum.inl 0) = 1 + 4 * (i : ℝ) ^ 2 := fun _ => rfl
  simp only [out2, Bool.false_eq_true, if_false, z2, w0]
  norm_num [prim2Zone, limit, vanLeer, sgn, fmin, fmax, clip, abs_of_pos]

example : Bounded curveW 1 5 (lrPlm ⟨false, true⟩ (fun w _ => esysAdbHyd 0 (5/3) w) 0 curveW (fun _ => 0) 1 5 o0) :=
  plm_bounded _ rfl _ _ _ _ _ _ _

/-- The eigenvectors are complete at every zone of the linear profile `2 + i/10` of the density. -/
example : ∀ i : ℤ, -10 ≤ i → (esysAdbHyd 0 (5/3) (st5 (2 + 1/10 * i) (1/3 * i) 0 0 1)).Inv := by
  intro i hi
  have hi' : (-10 : ℝ) ≤ i := by exact_mod_cast hi
  refine esysAdbHyd_inv (show (0:ℝ) < 2 + 1/10 * i by linarith) (show (0:ℝ) < 5/3 * 1 by norm_num)

/-- The CFL hypothesis of the statements about scalars. -/
example : ∀ i, Cfl (esysAdbHyd 0 (5/3) (restW i)) (vx (restW i)) (7/10) := restCfl

/-- The hypotheses of the tracing identity: subsonic flow. -/
example : let W := st5 1 (1/2) 0 0 (3/5)
    (esysAdbHyd 0 (5/3) W).Inv ∧ (∀ n, (esysAdbHyd 0 (5/3) W).ev n ≠ 0) ∧ (esysAdbHyd 0 (5/3) W).lo ≤ 0 ∧ 0 ≤ (esysAdbHyd 0 (5/3) W).hi := by
  intro W
  have hs : Real.sqrt (5/3 * W (Sum.inl 4) / W (Sum.inl 0)) = 1 := by
    rw [show W (Sum.inl 4) = 3/5 from rfl, show W (Sum.inl 0) = 1 from rfl, show (5/3 * (3/5) / 1 : ℝ) = 1 by norm_num, Real.sqrt_one]
  have hev : (esysAdbHyd 0 (5/3) W).ev = ![1/2 - 1, 1/2, 1/2, 1/2, 1/2 + 1] := by
    show ![W (Sum.inl 1) - Real.sqrt (5/3 * W (Sum.inl 4) / W (Sum.inl 0)), W (Sum.inl 1), W (Sum.inl 1), W (Sum.inl 1),
      W (Sum.inl 1) + Real.sqrt (5/3 * W (Sum.inl 4) / W (Sum.inl 0))] = _
    rw [hs]; rfl
  refine ⟨esysAdbHyd_inv (show (0:ℝ) < 1 by norm_num) (show (0:ℝ) < 5/3 * (3/5) by norm_num), fun n => ?_, ?_, ?_⟩
  · rw [hev]
    rcases five n with rfl | rfl | rfl | rfl | rfl <;> simp only [v5_0, v5_1, v5_2, v5_3, v5_4] <;> norm_num
  · unfold Eig.lo; rw [hev]; show (1/2 - 1 : ℝ) ≤ 0; norm_num
  · unfold Eig.hi; rw [hev]; show (0 : ℝ) ≤ 1/2 + 1; norm_num

/-- One-dimensional flow near the speed of light. -/
example : let W : ℤ → Vec 1 0 := fun i => st5 1 (if i < 0 then -(99/100) else 99/100) 0 0 1
    vsq ((lrPrim2Sr W 0 1 o0).Wl 0) < 1 ∧ vsq ((lrPrim2Sr W 0 1 o0).Wr 0) < 1 := by
  intro W
  refine sr_subluminal_partial W 0 1 o0 0 (by norm_num) (by norm_num) ?_
  have w1 : ∀ i, W i (Sum.inl 1) = if i < 0 then -(99/100) else 99/100 := fun _ => rfl
  have w2 : ∀ i, W i (Sum.inl 2) = 0 := fun _ => rfl
  have w3 : ∀ i, W i (Sum.inl 3) = 0 := fun _ => rfl
  rw [w1, w1, w2, w2, w3, w3]
  norm_num

end
end Athena.Recon
