import Verif.Micro.Conduct
import Mathlib.Tactic.FieldSimp
import Mathlib.Tactic.Positivity
import Mathlib.Tactic.GCongr
import Mathlib.Tactic.NormNum

/-!
# What explicit conduction does to the state
-/

namespace Athena.Micro
open Athena.Bvals hiding Rng
open Athena.Vl3 Athena.Gen

variable {ns : ℕ}

theorem agree_self (A : Fin 3 → Bool) (g : Rng) (S : St ℝ ns) : AgreeA A g S S :=
  ⟨fun _ _ _ _ _ _ _ _ _ => rfl, fun _ _ _ _ _ _ _ _ _ => rfl, fun _ _ _ _ _ _ _ _ _ => rfl, fun _ _ _ _ _ _ _ _ _ => rfl⟩

/-- A zone is active. -/
structure Active (g : Rng) (k j i : ℤ) : Prop where
  k0 : g.ks ≤ k
  k1 : k ≤ g.ke
  j0 : g.js ≤ j
  j1 : j ≤ g.je
  i0 : g.is ≤ i
  i1 : i ≤ g.ie

theorem mod3_E (g : Rng) (f : Arr ℝ) (U : Arr (Cons ℝ ns)) (k j i : ℤ) :
    ∃ e, addE g f U k j i = { U k j i with E := e } := by
  unfold addE mod3 loop3
  split_ifs
  · exact ⟨_, rfl⟩
  · exact ⟨(U k j i).E, rfl⟩

/-- Conduction changes nothing but the energy, in no zone: density, momenta, fields and scalars stay what they were. -/
theorem conduct_only_E (w : Which) (q : Diff ns) (g : Rng) (S : St ℝ ns) (J : WorkC) (k j i : ℤ) :
    (∃ e, (conduct w q g S J).U k j i = { S.U k j i with E := e }) ∧ (conduct w q g S J).B1i = S.B1i ∧
      (conduct w q g S J).B2i = S.B2i ∧ (conduct w q g S J).B3i = S.B3i := by
  refine ⟨?_, rfl, rfl, rfl⟩
  unfold conduct
  dsimp only
  obtain ⟨e1, h1⟩ := mod3_E g (fun k j i => q.dt / q.dx1 * (cQ1 w q g S J k j (i+1) - cQ1 w q g S J k j i)) S.U k j i
  by_cases hw : dims w 1 = true
  · rw [if_pos hw]
    obtain ⟨e2, h2⟩ := mod3_E g (fun k j i => q.dt / q.dx2 * (cQ2 w q g S J k (j+1) i - cQ2 w q g S J k j i))
      (addE g (fun k j i => q.dt / q.dx1 * (cQ1 w q g S J k j (i+1) - cQ1 w q g S J k j i)) S.U) k j i
    by_cases hz : dims w 2 = true
    · rw [if_pos hz]
      obtain ⟨e3, h3⟩ := mod3_E g (fun k j i => q.dt / q.dx3 * (cQ3 w q g S J (k+1) j i - cQ3 w q g S J k j i))
        (addE g (fun k j i => q.dt / q.dx2 * (cQ2 w q g S J k (j+1) i - cQ2 w q g S J k j i))
        (addE g (fun k j i => q.dt / q.dx1 * (cQ1 w q g S J k j (i+1) - cQ1 w q g S J k j i)) S.U)) k j i
      exact ⟨e3, by rw [h3, h2, h1]⟩
    · rw [if_neg hz]; exact ⟨e2, by rw [h2, h1]⟩
  · rw [if_neg hw]
    by_cases hz : dims w 2 = true
    · rw [if_pos hz]
      obtain ⟨e3, h3⟩ := mod3_E g (fun k j i => q.dt / q.dx3 * (cQ3 w q g S J (k+1) j i - cQ3 w q g S J k j i))
        (addE g (fun k j i => q.dt / q.dx1 * (cQ1 w q g S J k j (i+1) - cQ1 w q g S J k j i)) S.U) k j i
      exact ⟨e3, by rw [h3, h1]⟩
    · rw [if_neg hz]; exact ⟨e1, h1⟩

/-- The energy of an active zone after conduction. -/
theorem conduct_E {w : Which} {q : Diff ns} {g : Rng} (hg : RngOk (dims w) g) (S : St ℝ ns) (J : WorkC) {k j i : ℤ} (h : Active g k j i) :
    (conduct w q g S J).U k j i = { S.U k j i with E := (S.U k j i).E + lDE w q S k j i } :=
  conduct_U hg (agree_self _ g S) h.k0 h.k1 h.j0 h.j1 h.i0 h.i1

theorem lim_zero : limiter4 0 0 0 0 = 0 := by simp [limiter4, limiter2]

/-- In a gas of uniform temperature nothing happens, whatever density, velocity and field are. -/
theorem uniform_unchanged {w : Which} {q : Diff ns} {g : Rng} (hg : RngOk (dims w) g) (S : St ℝ ns) (J : WorkC) (T : ℝ)
    (hT : ∀ k j i, temp q (S.U k j i) = T) {k j i : ℤ} (h : Active g k j i) : (conduct w q g S J).U k j i = S.U k j i := by
  have e : ∀ k j i, lTemp q S k j i = T := hT
  have z1 : ∀ k j i, lQ1 w q S k j i = 0 := fun k j i => by
    simp [lQ1, iso1, ani1, e, lim_zero]
  have z2 : ∀ k j i, lQ2 w q S k j i = 0 := fun k j i => by
    simp [lQ2, iso2, ani2, e, lim_zero]
  have z3 : ∀ k j i, lQ3 w q S k j i = 0 := fun k j i => by
    simp [lQ3, iso3, ani3, e, lim_zero]
  rw [conduct_E hg S J h]
  simp [lDE, z1, z2, z3]

/-- The temperature of an active zone after conduction, if only isotropic conduction is on. -/
theorem temp_after {w : Which} {q : Diff ns} {g : Rng} (hg : RngOk (dims w) g) (S : St ℝ ns) (J : WorkC) {k j i : ℤ} (h : Active g k j i) :
    temp q ((conduct w q g S J).U k j i) = temp q (S.U k j i) + q.gm1 / (S.U k j i).d * lDE w q S k j i := by
  rw [conduct_E hg S J h]
  simp only [temp]
  ring

/-- The zone itself and the neighbours it shares an interface with. -/
def Near (w : Which) (a b c : ℤ) : Prop :=
  |a| + |b| + |c| ≤ 1 ∧ (dims w 2 = false → a = 0) ∧ (dims w 1 = false → b = 0)

/-- `x + r ((n - x) p + (m - x) q)` lies between bounds of `x`, `n`, `m`... three directions at once. -/
theorem convex {x n1 m1 n2 m2 n3 m3 p1 q1 p2 q2 p3 q3 lo hi : ℝ} (hx : lo ≤ x ∧ x ≤ hi)
    (h1 : lo ≤ n1 ∧ n1 ≤ hi) (h2 : lo ≤ m1 ∧ m1 ≤ hi) (h3 : lo ≤ n2 ∧ n2 ≤ hi) (h4 : lo ≤ m2 ∧ m2 ≤ hi) (h5 : lo ≤ n3 ∧ n3 ≤ hi)
    (h6 : lo ≤ m3 ∧ m3 ≤ hi) (a1 : 0 ≤ p1) (a2 : 0 ≤ q1) (a3 : 0 ≤ p2) (a4 : 0 ≤ q2) (a5 : 0 ≤ p3) (a6 : 0 ≤ q3)
    (hs : p1 + q1 + p2 + q2 + p3 + q3 ≤ 1) :
    lo ≤ x + (p1 * (n1 - x) - q1 * (x - m1) + (p2 * (n2 - x) - q2 * (x - m2)) + (p3 * (n3 - x) - q3 * (x - m3))) ∧
      x + (p1 * (n1 - x) - q1 * (x - m1) + (p2 * (n2 - x) - q2 * (x - m2)) + (p3 * (n3 - x) - q3 * (x - m3))) ≤ hi := by
  have b0 : 0 ≤ 1 - (p1 + q1 + p2 + q2 + p3 + q3) := by linarith
  constructor
  · have := mul_nonneg b0 (sub_nonneg.2 hx.1)
    have := mul_nonneg a1 (sub_nonneg.2 h1.1); have := mul_nonneg a2 (sub_nonneg.2 h2.1)
    have := mul_nonneg a3 (sub_nonneg.2 h3.1); have := mul_nonneg a4 (sub_nonneg.2 h4.1)
    have := mul_nonneg a5 (sub_nonneg.2 h5.1); have := mul_nonneg a6 (sub_nonneg.2 h6.1)
    linarith
  · have := mul_nonneg b0 (sub_nonneg.2 hx.2)
    have := mul_nonneg a1 (sub_nonneg.2 h1.2); have := mul_nonneg a2 (sub_nonneg.2 h2.2)
    have := mul_nonneg a3 (sub_nonneg.2 h3.2); have := mul_nonneg a4 (sub_nonneg.2 h4.2)
    have := mul_nonneg a5 (sub_nonneg.2 h5.2); have := mul_nonneg a6 (sub_nonneg.2 h6.2)
    linarith

/-- Half the sum of the densities of a zone (twice) and its two neighbours over the squared zone size, for the directions
with more than one zone. -/
noncomputable def dsum (w : Which) (q : Diff ns) (U : Arr (Cons ℝ ns)) (k j i : ℤ) : ℝ :=
  ((U k j (i+1)).d + 2 * (U k j i).d + (U k j (i-1)).d) / (2 * q.dx1 ^ 2)
  + (if dims w 1 then ((U k (j+1) i).d + 2 * (U k j i).d + (U k (j-1) i).d) / (2 * q.dx2 ^ 2) else 0)
  + (if dims w 2 then ((U (k+1) j i).d + 2 * (U k j i).d + (U (k-1) j i).d) / (2 * q.dx3 ^ 2) else 0)

/-- **Maximum principle.**  With isotropic conduction only, the new temperature of a zone lies between the smallest and the
largest old temperature of the zone and its neighbours, provided the step is small enough *for the densities around the
zone*. -/
theorem max_principle {w : Which} {q : Diff ns} {g : Rng} (hg : RngOk (dims w) g) (S : St ℝ ns) (J : WorkC)
    (hk : q.kAni = 0) (hgm : 0 ≤ q.gm1) (hdt : 0 ≤ q.dt)
    (hd : ∀ k j i, 0 < (S.U k j i).d) {k j i : ℤ} (h : Active g k j i)
    (hs : q.gm1 * q.kIso * q.dt / (S.U k j i).d * dsum w q S.U k j i ≤ 1) (lo hi : ℝ)
    (hT : ∀ a b c, Near w a b c → lo ≤ temp q (S.U (k+a) (j+b) (i+c)) ∧ temp q (S.U (k+a) (j+b) (i+c)) ≤ hi) :
    lo ≤ temp q ((conduct w q g S J).U k j i) ∧ temp q ((conduct w q g S J).U k j i) ≤ hi := by
  rw [temp_after hg S J h]
  have t0 : lo ≤ lTemp q S k j i ∧ lTemp q S k j i ≤ hi := by simpa [Near, lTemp] using hT 0 0 0 (by simp [Near])
  by_cases hki : q.kIso > 0
  swap
  · have : lDE w q S k j i = 0 := by simp [lDE, lQ1, lQ2, lQ3, hki, hk]
    rw [this, mul_zero, add_zero]
    exact t0
  have t1 : lo ≤ lTemp q S k j (i+1) ∧ lTemp q S k j (i+1) ≤ hi := by simpa [Near, lTemp] using hT 0 0 1 (by simp [Near])
  have t2 : lo ≤ lTemp q S k j (i-1) ∧ lTemp q S k j (i-1) ≤ hi := by
    simpa [Near, lTemp, sub_eq_add_neg] using hT 0 0 (-1) (by simp [Near])
  have c0 : 0 ≤ q.gm1 * q.kIso * q.dt / (S.U k j i).d :=
    div_nonneg (mul_nonneg (mul_nonneg hgm hki.le) hdt) (hd k j i).le
  set r := q.gm1 * q.kIso * q.dt / (S.U k j i).d with hr
  have pd : ∀ a b c a' b' c' : ℤ, ∀ x : ℝ, 0 ≤ r * (((S.U a b c).d + (S.U a' b' c').d) / (2 * x ^ 2)) := fun a b c a' b' c' x =>
    mul_nonneg c0 (div_nonneg (add_pos (hd a b c) (hd a' b' c')).le (by positivity))
  have p1 := pd k j (i+1) k j i q.dx1
  have p2 := pd k j i k j (i-1) q.dx1
  have p3 := pd k (j+1) i k j i q.dx2
  have p4 := pd k j i k (j-1) i q.dx2
  have p5 := pd (k+1) j i k j i q.dx3
  have p6 := pd k j i (k-1) j i q.dx3
  have e : lTemp q S k j i = temp q (S.U k j i) := rfl
  have id : ∀ x d d' t t' : ℝ, r * ((d + d') / (2 * x ^ 2)) * (t - t') =
      q.gm1 / (S.U k j i).d * (q.dt / x * (q.kIso * 0.5 * (d + d') * (t - t') / x)) := by
    intro x d d' t t'
    rw [hr]
    by_cases hx : x = 0
    · subst hx; simp
    · have := (hd k j i).ne'
      field_simp
      ring
  by_cases hw : dims w 1 = true
  · have t3 : lo ≤ lTemp q S k (j+1) i ∧ lTemp q S k (j+1) i ≤ hi := by simpa [Near, lTemp] using hT 0 1 0 (by simp [Near, hw])
    have t4 : lo ≤ lTemp q S k (j-1) i ∧ lTemp q S k (j-1) i ≤ hi := by
      simpa [Near, lTemp, sub_eq_add_neg] using hT 0 (-1) 0 (by simp [Near, hw])
    by_cases hz : dims w 2 = true
    · have t5 : lo ≤ lTemp q S (k+1) j i ∧ lTemp q S (k+1) j i ≤ hi := by simpa [Near, lTemp] using hT 1 0 0 (by simp [Near, hz])
      have t6 : lo ≤ lTemp q S (k-1) j i ∧ lTemp q S (k-1) j i ≤ hi := by
        simpa [Near, lTemp, sub_eq_add_neg] using hT (-1) 0 0 (by simp [Near, hz])
      have := convex t0 t1 t2 t3 t4 t5 t6 p1 p2 p3 p4 p5 p6 (by
        refine le_trans (le_of_eq ?_) hs
        simp only [dsum, hw, hz, if_true]
        ring)
      simp only [id] at this
      simp only [lDE, lQ1, lQ2, lQ3, hki, hk, hw, hz, iso1, iso2, iso3, if_true, true_and, lt_irrefl, gt_iff_lt, false_and, if_false,
          add_zero, add_sub_cancel_right]
      rw [← e]
      refine ⟨le_trans this.1 (le_of_eq ?_), le_trans (le_of_eq ?_) this.2⟩ <;> ring
    · have := convex t0 t1 t2 t3 t4 t0 t0 p1 p2 p3 p4 le_rfl le_rfl (by
        refine le_trans (le_of_eq ?_) hs
        simp only [dsum, hw, hz, if_true, if_false, Bool.false_eq_true]
        ring)
      simp only [id] at this
      simp only [lDE, lQ1, lQ2, lQ3, hki, hk, hw, hz, iso1, iso2, iso3, if_true, true_and, lt_irrefl, gt_iff_lt, false_and, if_false,
          add_zero, add_sub_cancel_right, Bool.false_eq_true]
      rw [← e]
      refine ⟨le_trans this.1 (le_of_eq ?_), le_trans (le_of_eq ?_) this.2⟩ <;> ring
  · have hz : ¬ dims w 2 = true := by cases w <;> simp [dims, A1, A2, A3] at hw ⊢
    have := convex t0 t1 t2 t0 t0 t0 t0 p1 p2 le_rfl le_rfl le_rfl le_rfl (by
        refine le_trans (le_of_eq ?_) hs
        simp only [dsum, hw, hz, if_true, if_false, Bool.false_eq_true]
        ring)
    simp only [id] at this
    simp only [lDE, lQ1, lQ2, lQ3, hki, hk, hw, hz, iso1, iso2, iso3, if_true, true_and, lt_irrefl, gt_iff_lt, false_and, if_false,
          add_zero, add_sub_cancel_right, Bool.false_eq_true]
    rw [← e]
    refine ⟨le_trans this.1 (le_of_eq ?_), le_trans (le_of_eq ?_) this.2⟩ <;> ring

/-! ### The step the program takes -/

/-- `qa`, new_dt_diff.c:57-61, for one level of refinement. -/
noncomputable def qa (w : Which) (q : Diff ns) : ℝ :=
  let dm := q.dx1
  let dm := if dims w 1 then min dm q.dx2 else dm
  let dm := if dims w 2 then min dm q.dx3 else dm
  if dims w 2 then dm * dm / 6 else if dims w 1 then dm * dm / 8 else dm * dm / 4

/-- The conduction part of `new_dt_diff` (new_dt_diff.c:33, 64) and `diff_dt = CourNo/max_dti_diff` (new_dt.c:313-317). -/
noncomputable def condDt (w : Which) (q : Diff ns) (cour : ℝ) : ℝ := cour / max q.tiny ((q.kIso + q.kAni) / qa w q)

theorem qa_pos (w : Which) (q : Diff ns) (h1 : 0 < q.dx1) (h2 : 0 < q.dx2) (h3 : 0 < q.dx3) : 0 < qa w q := by
  unfold qa
  cases w <;> simp [dims, A1, A2, A3] <;> positivity

/-- At the program's own step the maximum principle holds in a gas of uniform density with `γ ≤ 2`. -/
theorem max_principle_uniform_density {w : Which} {q : Diff ns} {g : Rng} (hg : RngOk (dims w) g) (S : St ℝ ns) (J : WorkC)
    (hk : q.kAni = 0) (hki : 0 < q.kIso) (hgm : 0 ≤ q.gm1) (hgm' : q.gm1 ≤ 1) (h1 : 0 < q.dx1) (h2 : 0 < q.dx2) (h3 : 0 < q.dx3)
    (cour : ℝ) (hc : 0 ≤ cour) (hc' : cour ≤ 1) (hdt : 0 ≤ q.dt) (hdt' : q.dt ≤ condDt w q cour)
    (D : ℝ) (hD : 0 < D) (hd : ∀ k j i, (S.U k j i).d = D) {k j i : ℤ} (h : Active g k j i) (lo hi : ℝ)
    (hT : ∀ a b c, Near w a b c → lo ≤ temp q (S.U (k+a) (j+b) (i+c)) ∧ temp q (S.U (k+a) (j+b) (i+c)) ≤ hi) :
    lo ≤ temp q ((conduct w q g S J).U k j i) ∧ temp q ((conduct w q g S J).U k j i) ≤ hi := by
  refine max_principle hg S J hk hgm hdt (fun k j i => by rw [hd]; exact hD) h ?_ lo hi hT
  have hq := qa_pos w q h1 h2 h3
  have b1 : q.kIso * q.dt ≤ qa w q := by
    have hm : q.kIso / qa w q ≤ max q.tiny ((q.kIso + q.kAni) / qa w q) := by rw [hk, add_zero]; exact le_max_right _ _
    have hp : 0 < q.kIso / qa w q := div_pos hki hq
    have : q.dt ≤ 1 / (q.kIso / qa w q) :=
      hdt'.trans ((div_le_div_of_nonneg_left hc hp hm).trans (by gcongr))
    rw [one_div_div, le_div_iff₀ hki] at this
    linarith [mul_comm q.dt q.kIso]
  have b2 : q.gm1 * q.kIso * q.dt / D ≤ qa w q / D := by
    apply div_le_div_of_nonneg_right _ hD.le
    calc q.gm1 * q.kIso * q.dt = q.gm1 * (q.kIso * q.dt) := by ring
      _ ≤ 1 * (q.kIso * q.dt) := by
        apply mul_le_mul_of_nonneg_right hgm'; positivity
      _ ≤ qa w q := by linarith
  have b3 : dsum w q S.U k j i * qa w q ≤ D := by
    simp only [dsum, hd, qa]
    have e : ∀ x : ℝ, (D + 2 * D + D) / (2 * x ^ 2) = 2 * D / x ^ 2 := fun x => by
      rw [show D + 2 * D + D = 2 * (2 * D) by ring, mul_div_mul_left _ _ two_ne_zero]
    simp only [e]
    cases w
    · simp [dims, A1]
      rw [div_mul_div_comm, div_le_iff₀ (by positivity)]
      nlinarith [mul_pos hD (mul_pos h1 h1)]
    · simp [dims, A2]
      set m := min q.dx1 q.dx2
      have hm : 0 < m := lt_min h1 h2
      have m1 : m ≤ q.dx1 := min_le_left _ _
      have m2 : m ≤ q.dx2 := min_le_right _ _
      have u1 : 2 * D / q.dx1 ^ 2 ≤ 2 * D / m ^ 2 := by gcongr
      have u2 : 2 * D / q.dx2 ^ 2 ≤ 2 * D / m ^ 2 := by gcongr
      calc _ ≤ (2 * D / m ^ 2 + 2 * D / m ^ 2) * (m * m / 8) := by gcongr
        _ = D / 2 := by field_simp; norm_num
        _ ≤ D := by linarith
    · simp [dims, A3]
      set m := min (min q.dx1 q.dx2) q.dx3
      have hm : 0 < m := lt_min (lt_min h1 h2) h3
      have m1 : m ≤ q.dx1 := (min_le_left _ _).trans (min_le_left _ _)
      have m2 : m ≤ q.dx2 := (min_le_left _ _).trans (min_le_right _ _)
      have m3 : m ≤ q.dx3 := min_le_right _ _
      have u1 : 2 * D / q.dx1 ^ 2 ≤ 2 * D / m ^ 2 := by gcongr
      have u2 : 2 * D / q.dx2 ^ 2 ≤ 2 * D / m ^ 2 := by gcongr
      have u3 : 2 * D / q.dx3 ^ 2 ≤ 2 * D / m ^ 2 := by gcongr
      calc _ ≤ (2 * D / m ^ 2 + 2 * D / m ^ 2 + 2 * D / m ^ 2) * (m * m / 6) := by gcongr
        _ = D := by field_simp; norm_num
  rw [hd]
  have hs0 : 0 ≤ dsum w q S.U k j i := by
    simp only [dsum, hd]
    cases w <;> simp [dims, A1, A2, A3] <;> positivity
  calc _ ≤ qa w q / D * dsum w q S.U k j i := by gcongr
    _ = dsum w q S.U k j i * qa w q / D := by ring
    _ ≤ 1 := by rw [div_le_one hD]; exact b3

end Athena.Micro
