import Verif.Recon.Ex

/-!
# Reconstruction (C36): the third order profiles are monotone parabolae
-/

namespace Athena.Recon
noncomputable section
open Athena.Hydro

variable {k ns : ℕ}

/-- The parabola on the zone `0 ≤ x ≤ 1` with left edge value `l`, right edge value `r` and mean `c`. -/
def parabola (c l r x : ℝ) : ℝ := l + x * (r - l + 6 * (c - (l + r) / 2) * (1 - x))

/-- The profile of the zone has no extremum inside the zone. -/
def MonotoneProfile (c l r : ℝ) : Prop :=
  (∀ x y, 0 ≤ x → x ≤ y → y ≤ 1 → parabola c l r x ≤ parabola c l r y) ∨
  (∀ x y, 0 ≤ x → x ≤ y → y ≤ 1 → parabola c l r y ≤ parabola c l r x)

/-- The point of the interval between `a` and `b` nearest to `x`. -/
def nearest (a b x : ℝ) : ℝ := max (min a b) (min (max a b) x)

theorem clip_nearest (a b x : ℝ) : clip a b x = nearest a b x := by
  unfold clip nearest
  rw [fmin_eq, fmin_eq, fmax_eq, fmax_eq]
  have := min_le_max (a := a) (b := b)
  rcases le_total x (min a b) with h | h
  · rw [max_eq_left h, min_eq_right this, min_eq_right (h.trans this), max_eq_left h]
  · rw [max_eq_right h, max_eq_right (le_min this h)]

theorem parab_diff (c l r x y : ℝ) : parabola c l r y - parabola c l r x =
    (y - x) * ((r - l) + 6 * (c - (l + r) / 2) * (1 - (x + y))) := by unfold parabola; ring

theorem profile_of (c l r : ℝ) (h : |6 * (c - (l + r) / 2)| ≤ |r - l|) : MonotoneProfile c l r := by
  rcases le_total l r with hlr | hlr
  · left
    intro x y h0 h1 h2
    have := parab_diff c l r x y
    rw [abs_of_nonneg (by linarith : 0 ≤ r - l), abs_le] at h
    have : 0 ≤ (r - l) + 6 * (c - (l + r) / 2) * (1 - (x + y)) := by
      generalize 6 * (c - (l + r) / 2) = q at *
      have a1 : -1 ≤ 1 - (x + y) := by linarith
      have a2 : 1 - (x + y) ≤ 1 := by linarith
      generalize 1 - (x + y) = t at *
      nlinarith [mul_nonneg (by linarith : 0 ≤ r - l - q) (by linarith : 0 ≤ 1 - t),
        mul_nonneg (by linarith : 0 ≤ r - l + q) (by linarith : 0 ≤ 1 + t)]
    nlinarith [mul_nonneg (by linarith : 0 ≤ y - x) this]
  · right
    intro x y h0 h1 h2
    have := parab_diff c l r x y
    rw [abs_of_nonpos (by linarith : r - l ≤ 0), abs_le] at h
    have : 0 ≤ -((r - l) + 6 * (c - (l + r) / 2) * (1 - (x + y))) := by
      generalize 6 * (c - (l + r) / 2) = q at *
      have a1 : -1 ≤ 1 - (x + y) := by linarith
      have a2 : 1 - (x + y) ≤ 1 := by linarith
      generalize 1 - (x + y) = t at *
      nlinarith [mul_nonneg (by linarith : 0 ≤ l - r - q) (by linarith : 0 ≤ 1 + t),
        mul_nonneg (by linarith : 0 ≤ l - r + q) (by linarith : 0 ≤ 1 - t)]
    nlinarith [mul_nonneg (by linarith : 0 ≤ y - x) this]

theorem mono3_profile (c l r : ℝ) : MonotoneProfile c (mono3 c l r).1 (mono3 c l r).2 := by
  apply profile_of
  unfold mono3
  dsimp only
  split_ifs with h1 h2 h3
  · norm_num
  · dsimp only
    rw [show 6 * (c - (3 * c - 2 * r + r) / 2) = r - (3 * c - 2 * r) by ring]
  · dsimp only
    rw [show 6 * (c - (l + (3 * c - 2 * l)) / 2) = -(3 * c - 2 * l - l) by ring, abs_neg]
  · dsimp only
    rw [show (l + r) / 2 = 1/2 * (l + r) by ring]
    have hb : r - l ≠ 0 := by
      intro h
      have : r = l := by linarith
      subst this
      exact h1 (by nlinarith [sq_nonneg (r - c)])
    clear h1
    generalize 6 * (c - 1/2 * (l + r)) = q at *
    generalize r - l = b at *
    push Not at h2 h3
    have : |b * q| ≤ b * b := abs_le.2 ⟨h3, h2⟩
    rw [abs_mul] at this
    have e : b * b = |b| * |b| := (abs_mul_abs_self b).symm
    rw [e] at this
    exact le_of_mul_le_mul_left this (abs_pos.2 hb)

/-- How the zones' edge values relate to a monotone parabola: the left edge value of zone `i` (`Wr[i]`) and its right edge value (`Wl[i+1]`) are
the edge values of a parabola whose mean is the zone's value and which has no extremum inside the zone, each brought
into the interval between the zone's value and the neighbour's. -/
def MonotoneProfiles (W : ℤ → Vec k ns) (il iu : ℤ) (o : Out k ns) : Prop :=
  ∀ i n, il ≤ i → i ≤ iu → ∃ l r, MonotoneProfile (W i n) l r ∧
    o.Wr i n = nearest (W i n) (W (i - 1) n) l ∧ o.Wl (i + 1) n = nearest (W i n) (W (i + 1) n) r

/-- C36: third order in the primitive variables. -/
theorem prim3_profile (cf : Cfg) (hc : cf.ctu = false) (es : Vec k ns → ℝ → Eig k) (q : ℝ) (W : ℤ → Vec k ns) (Bxc : ℤ → ℝ) (il iu : ℤ)
    (Wh : ℤ → Vec k ns) (o : Out k ns) : MonotoneProfiles W il iu (lrPrim3 cf es q W Bxc il iu Wh o) := by
  intro i n h1 h2
  rw [(prim3_states cf es q W Bxc il iu Wh o i h1 (by omega)).2, (prim3_states cf es q W Bxc il iu Wh o (i + 1) (by omega) (by omega)).1]
  simp only [out3, hc, Bool.false_eq_true, if_false, z3, prim3Zone, add_sub_cancel_right]
  exact ⟨_, _, mono3_profile _ _ _, clip_nearest _ _ _, clip_nearest _ _ _⟩

/-- C36: piecewise parabolic in the characteristic variables. -/
theorem ppm_profile (cf : Cfg) (hc : cf.ctu = false) (es : Vec k ns → ℝ → Eig k) (q : ℝ) (W : ℤ → Vec k ns) (Bxc : ℤ → ℝ) (il iu : ℤ)
    (s : PpmSt k ns) : MonotoneProfiles W il iu (lrPpm cf es q W Bxc il iu s).o := by
  intro i n h1 h2
  rw [(ppm_states cf es q W Bxc il iu s i h1 (by omega)).2, (ppm_states cf es q W Bxc il iu s (i + 1) (by omega) (by omega)).1]
  simp only [outP, hc, Bool.false_eq_true, if_false, zP, add_sub_cancel_right]
  exact ⟨_, _, mono3_profile _ _ _, clip_nearest _ _ _, clip_nearest _ _ _⟩

/-- The condition excludes profiles: mean `4/5` between edge values `0` and `1` is not a monotone parabola; the limiter moves the left edge to `2/5`. -/
example : ¬ MonotoneProfile (4/5) 0 1 ∧ mono3 (4/5) 0 1 = (2/5, 1) := by
  constructor
  · rintro (h | h)
    · have := h (9/10) 1 (by norm_num) (by norm_num) (by norm_num); norm_num [parabola] at this
    · have := h 0 1 (by norm_num) (by norm_num) (by norm_num); norm_num [parabola] at this
  · norm_num [mono3]

end
end Athena.Recon
