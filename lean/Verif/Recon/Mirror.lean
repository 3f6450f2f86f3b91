import Verif.Recon.Props3
import Mathlib.Logic.Equiv.Basic
import Mathlib.Algebra.BigOperators.Ring.Finset

/-!
# C67: reconstruction does not distinguish left from right

Each reconstruction, from zones in reversed order with the normal velocity reversed, gives the images of the states it gives from the zones
themselves, left and right exchanged; reversing a transverse direction reverses the transverse components of the result.
-/

namespace Athena.Recon
noncomputable section
open Athena.Hydro
variable {k ns : ℕ}

/-! ## One variable -/

theorem fmin_comm (a b : ℝ) : fmin a b = fmin b a := by rw [fmin_eq, fmin_eq, min_comm]
theorem fmax_comm (a b : ℝ) : fmax a b = fmax b a := by rw [fmax_eq, fmax_eq, max_comm]
theorem fmax_neg (a b : ℝ) : fmax (-a) (-b) = -fmin a b := by rw [fmin_eq, fmax_eq, max_neg_neg]
theorem fmin_neg (a b : ℝ) : fmin (-a) (-b) = -fmax a b := by rw [fmin_eq, fmax_eq, min_neg_neg]

theorem sgn_mul_neg {c x : ℝ} (h : c = 0 → x = 0) : sgn (-c) * x = -(sgn c * x) := by
  rcases lt_trichotomy c 0 with h0 | h0 | h0
  · rw [sgn, sgn, if_neg (by linarith), if_pos h0]; ring
  · rw [h h0]; ring
  · rw [sgn, sgn, if_pos (by linarith), if_neg (by linarith)]; ring

theorem fmin_abs_zero {x c : ℝ} (hx : 0 ≤ x) (h : c = 0) : fmin x |c| = 0 := by
  rw [h, abs_zero, fmin_eq, min_eq_right hx]

theorem fmin_nn {x y : ℝ} (hx : 0 ≤ x) (hy : 0 ≤ y) : 0 ≤ fmin x y := by rw [fmin_eq]; exact le_min hx hy

theorem limit_neg (c l r g : ℝ) : limit (-c) (-l) (-r) (-g) = -limit c l r g := by
  unfold limit
  rw [neg_mul_neg, abs_neg, abs_neg, abs_neg, abs_neg]
  split_ifs
  · apply sgn_mul_neg
    intro h
    have h1 : fmin (1/2 * |c|) |g| = 0 := by rw [h, abs_zero, mul_zero, fmin_eq, min_eq_left (abs_nonneg _)]
    rw [h1, fmin_eq, min_eq_right]
    have := fmin_nn (abs_nonneg l) (abs_nonneg r)
    linarith
  · simp

theorem limit_swap (c l r g : ℝ) : limit c r l g = limit c l r g := by
  unfold limit; rw [mul_comm r l, fmin_comm |r| |l|]

theorem vanLeer_neg (l r : ℝ) : vanLeer (-l) (-r) = -vanLeer l r := by
  unfold vanLeer
  rw [neg_mul_neg]
  split_ifs with h
  · have hs : l + r ≠ 0 := by intro h0; rw [show l = -r by linarith] at h; nlinarith [mul_self_nonneg r]
    have hs' : -l + -r ≠ 0 := by intro h0; apply hs; linarith
    rw [div_eq_iff hs', neg_mul, div_mul_eq_mul_div, neg_div', eq_div_iff hs]; ring
  · simp

theorem vanLeer_swap (l r : ℝ) : vanLeer r l = vanLeer l r := by
  unfold vanLeer; rw [mul_comm r l, add_comm r l, show 2 * r * l = 2 * l * r by ring]

theorem clip_neg (a b x : ℝ) : clip (-a) (-b) (-x) = -clip a b x := by
  unfold clip
  rw [fmax_neg, fmin_neg, fmax_neg, fmin_neg]
  simp only [fmin_eq, fmax_eq]
  rw [max_min_distrib_left, max_eq_right (min_le_max)]

theorem limit_rev (a b c : ℝ) :
    limit (a - c) (b - c) (a - b) (vanLeer (b - c) (a - b)) = -limit (c - a) (b - a) (c - b) (vanLeer (b - a) (c - b)) := by
  rw [← neg_sub c a, ← neg_sub c b, ← neg_sub b a, vanLeer_neg, limit_neg, vanLeer_swap, limit_swap]

theorem prim2Zone_swap (a b c : ℝ) : prim2Zone c b a = ((prim2Zone a b c).2, (prim2Zone a b c).1) := by
  unfold prim2Zone
  dsimp only
  rw [limit_rev]
  congr 2 <;> ring

theorem prim2Zone_neg (a b c : ℝ) : prim2Zone (-a) (-b) (-c) = (-(prim2Zone a b c).1, -(prim2Zone a b c).2) := by
  unfold prim2Zone
  dsimp only
  rw [← clip_neg, ← clip_neg, show -c - -a = -(c - a) by ring, show -b - -a = -(b - a) by ring, show -c - -b = -(c - b) by ring,
    vanLeer_neg, limit_neg]
  congr 2 <;> ring

theorem half3_rev (a b c d : ℝ) : half3 d c b a = half3 a b c d := by
  unfold half3
  dsimp only
  have e1 : (7 * (c + b) - (d + a)) / 12 = (7 * (b + c) - (a + d)) / 12 := by ring
  have e2 : ∀ w, 3 * (c - 2 * w + b) = 3 * (b - 2 * w + c) := fun w => by ring
  rw [e1, e2, show d - 2 * c + b = b - 2 * c + d by ring, show c - 2 * b + a = a - 2 * b + c by ring, fmin_comm |b - 2 * c + d|, add_comm c b]
  simp only [and_comm (a := b - 2 * c + d > 0), and_comm (a := b - 2 * c + d < 0)]

theorem gt_neg_iff (x : ℝ) : (-x > 0 ↔ x < 0) ∧ (-x < 0 ↔ x > 0) := ⟨neg_pos, neg_lt_zero⟩

theorem half3_neg (a b c d : ℝ) : half3 (-a) (-b) (-c) (-d) = -half3 a b c d := by
  unfold half3
  dsimp only
  have e1 : (7 * (-b + -c) - (-a + -d)) / 12 = -((7 * (b + c) - (a + d)) / 12) := by ring
  rw [e1]
  generalize (7 * (b + c) - (a + d)) / 12 = w
  rw [show 3 * (-b - 2 * -w + -c) = -(3 * (b - 2 * w + c)) by ring, show -a - 2 * -b + -c = -(a - 2 * b + c) by ring,
    show -b - 2 * -c + -d = -(b - 2 * c + d) by ring]
  generalize 3 * (b - 2 * w + c) = x
  generalize a - 2 * b + c = y
  generalize b - 2 * c + d = z
  have hm : 0 ≤ 5/4 * fmin |y| |z| := by have := fmin_nn (abs_nonneg y) (abs_nonneg z); linarith
  simp only [abs_neg, (gt_neg_iff _).1, (gt_neg_iff _).2]
  rw [sgn_mul_neg (fun h => fmin_abs_zero hm h)]
  by_cases h1 : x < 0 ∧ y < 0 ∧ z < 0
  · rw [if_pos h1, if_pos h1, if_neg (by rintro ⟨h, -⟩; linarith [h1.1])]; ring
  · rw [if_neg h1, if_neg h1]
    split_ifs <;> ring

theorem parab3_swap (a b c d e l r : ℝ) : parab3 e d c b a r l = ((parab3 a b c d e l r).2, (parab3 a b c d e l r).1) := by
  unfold parab3
  dsimp only
  rw [show (l - c) * (c - r) = (r - c) * (c - l) by ring, show (d - c) * (c - b) = (b - c) * (c - d) by ring, add_comm r l,
    show d - 2 * c + b = b - 2 * c + d by ring, show e - 2 * d + c = c - 2 * d + e by ring, show c - 2 * b + a = a - 2 * b + c by ring,
    fmin_comm |c - 2 * d + e|]
  simp only [and_left_comm (a := c - 2 * d + e > 0), and_left_comm (a := c - 2 * d + e < 0)]
  split_ifs <;> rfl

theorem parab3_neg (a b c d e l r : ℝ) :
    parab3 (-a) (-b) (-c) (-d) (-e) (-l) (-r) = (-(parab3 a b c d e l r).1, -(parab3 a b c d e l r).2) := by
  unfold parab3
  dsimp only
  rw [show (-r - -c) * (-c - -l) = (r - c) * (c - l) by ring, show (-b - -c) * (-c - -d) = (b - c) * (c - d) by ring,
    show -2 * (6 * (-c - 1 / 2 * (-l + -r))) = -(-2 * (6 * (c - 1 / 2 * (l + r)))) by ring,
    show -a - 2 * -b + -c = -(a - 2 * b + c) by ring,
    show -b - 2 * -c + -d = -(b - 2 * c + d) by ring, show -c - 2 * -d + -e = -(c - 2 * d + e) by ring,
    show -l - -c = -(l - c) by ring, show -r - -c = -(r - c) by ring]
  generalize -2 * (6 * (c - 1 / 2 * (l + r))) = x
  generalize a - 2 * b + c = y
  generalize b - 2 * c + d = z
  generalize c - 2 * d + e = w
  have hm : 0 ≤ 5/4 * fmin |z| (fmin |y| |w|) := by
    have := fmin_nn (abs_nonneg z) (fmin_nn (abs_nonneg y) (abs_nonneg w)); linarith
  simp only [abs_neg, (gt_neg_iff _).1, (gt_neg_iff _).2, neg_eq_zero]
  rw [sgn_mul_neg (fun h => fmin_abs_zero hm h)]
  have key : (if z > 0 ∧ y > 0 ∧ w > 0 ∧ x > 0 then -(sgn x * fmin (5 / 4 * fmin |z| (fmin |y| |w|)) |x|)
      else if z < 0 ∧ y < 0 ∧ w < 0 ∧ x < 0 then -(sgn x * fmin (5 / 4 * fmin |z| (fmin |y| |w|)) |x|) else 0) =
      -(if z < 0 ∧ y < 0 ∧ w < 0 ∧ x < 0 then sgn x * fmin (5 / 4 * fmin |z| (fmin |y| |w|)) |x|
        else if z > 0 ∧ y > 0 ∧ w > 0 ∧ x > 0 then sgn x * fmin (5 / 4 * fmin |z| (fmin |y| |w|)) |x| else 0) := by
    by_cases h1 : z < 0 ∧ y < 0 ∧ w < 0 ∧ x < 0
    · rw [if_pos h1, if_pos h1, if_neg (by rintro ⟨h, -⟩; linarith [h1.1])]
    · rw [if_neg h1, if_neg h1]
      split_ifs <;> ring
  rw [key]
  generalize (if z < 0 ∧ y < 0 ∧ w < 0 ∧ x < 0 then sgn x * fmin (5 / 4 * fmin |z| (fmin |y| |w|)) |x|
        else if z > 0 ∧ y > 0 ∧ w > 0 ∧ x > 0 then sgn x * fmin (5 / 4 * fmin |z| (fmin |y| |w|)) |x| else 0) = v
  split_ifs with h1 h2
  · rfl
  · simp only [neg_mul_neg, div_neg, Prod.mk.injEq]
    constructor <;> ring
  · rfl

theorem mono3_swap (c l r : ℝ) : mono3 c r l = ((mono3 c l r).2, (mono3 c l r).1) := by
  unfold mono3
  dsimp only
  rw [show (l - c) * (c - r) = (r - c) * (c - l) by ring, add_comm r l]
  by_cases h : (r - c) * (c - l) ≤ 0
  · rw [if_pos h, if_pos h]
  · rw [if_neg h, if_neg h]
    have e : (l - r) * (6 * (c - 1 / 2 * (l + r))) = -((r - l) * (6 * (c - 1 / 2 * (l + r)))) := by ring
    have e' : (l - r) * (l - r) = (r - l) * (r - l) := by ring
    rw [e, e']
    have hne : 0 < (r - l) * (r - l) := by
      refine mul_self_pos.2 fun h0 => h ?_
      have : r = l := by linarith
      subst this; nlinarith [mul_self_nonneg (r - c)]
    generalize (r - l) * (6 * (c - 1 / 2 * (l + r))) = x at *
    generalize (r - l) * (r - l) = y at *
    by_cases h1 : x > y
    · rw [if_pos h1, if_neg (by linarith), if_pos (by linarith)]
    · by_cases h2 : x < -y
      · rw [if_neg h1, if_pos h2, if_pos (by linarith)]
      · rw [if_neg h1, if_neg h2, if_neg (by linarith), if_neg (by linarith)]

theorem mono3_neg (c l r : ℝ) : mono3 (-c) (-l) (-r) = (-(mono3 c l r).1, -(mono3 c l r).2) := by
  unfold mono3
  dsimp only
  rw [show (-r - -c) * (-c - -l) = (r - c) * (c - l) by ring,
    show (-r - -l) * (6 * (-c - 1 / 2 * (-l + -r))) = (r - l) * (6 * (c - 1 / 2 * (l + r))) by ring,
    show (-r - -l) * (-r - -l) = (r - l) * (r - l) by ring]
  split_ifs <;> simp <;> ring

theorem prim3Zone_swap (a b c d e l r : ℝ) : prim3Zone e d c b a r l = ((prim3Zone a b c d e l r).2, (prim3Zone a b c d e l r).1) := by
  unfold prim3Zone; rw [parab3_swap]; dsimp only; rw [mono3_swap]

theorem prim3Zone_neg (a b c d e l r : ℝ) :
    prim3Zone (-a) (-b) (-c) (-d) (-e) (-l) (-r) = (-(prim3Zone a b c d e l r).1, -(prim3Zone a b c d e l r).2) := by
  unfold prim3Zone; rw [parab3_neg]; dsimp only; rw [mono3_neg, clip_neg, clip_neg]

theorem plmZone_neg (a b c m : ℝ) : plmZone (-a) (-b) (-c) (-m) = (-(plmZone a b c m).1, -(plmZone a b c m).2) := by
  unfold plmZone
  dsimp only
  have e1 : -b - 1/2 * -m = -(b - 1/2 * m) := by ring
  have e2 : (-b + 1/2 * -m) + -(b - 1/2 * m) = -((b + 1/2 * m) + (b - 1/2 * m)) := by ring
  rw [e1, e2, clip_neg]
  generalize (b + 1/2 * m) + (b - 1/2 * m) = C
  generalize clip b a (b - 1/2 * m) = x
  rw [show -C - -x = -(C - x) by ring, clip_neg]
  congr 1; ring

theorem clip_shift (a b x t : ℝ) : clip (t + a) (t + b) (t + x) = t + clip a b x := by
  simp only [clip, fmin_eq, fmax_eq]
  rw [max_add_add_left, min_add_add_left, max_add_add_left, min_add_add_left]

theorem clip_nn {u x : ℝ} (hu : 0 ≤ u) : clip 0 u x = min u (max 0 x) := by
  simp only [clip, fmin_eq, fmax_eq]; rw [max_eq_right hu, min_eq_left hu]

theorem clip_comm_nn {u v x : ℝ} (hu : 0 ≤ u) (hv : 0 ≤ v) : clip 0 u (clip 0 v x) = clip 0 v (clip 0 u x) := by
  have h : ∀ {w : ℝ}, 0 ≤ w → max 0 (min w (max 0 x)) = min w (max 0 x) := fun hw => max_eq_right (le_min hw (le_max_left _ _))
  rw [clip_nn hu, clip_nn hv, clip_nn hv, clip_nn hu, h hu, h hv, min_left_comm]

theorem clip_comm_np {u v x : ℝ} (hu : 0 ≤ u) (hv : v ≤ 0) : clip 0 u (clip 0 v x) = 0 ∧ clip 0 v (clip 0 u x) = 0 := by
  have e : ∀ y, clip 0 v y = -clip 0 (-v) (-y) := fun y => by have := clip_neg 0 (-v) (-y); rw [neg_neg, neg_neg, neg_zero] at this; exact this
  have hv' : 0 ≤ -v := by linarith
  rw [e, e, clip_nn hu, clip_nn hu, clip_nn hv', clip_nn hv']
  have h1 : 0 ≤ min (-v) (max 0 (-x)) := le_min hv' (le_max_left _ _)
  have h2 : 0 ≤ min u (max 0 x) := le_min hu (le_max_left _ _)
  constructor
  · rw [max_eq_left (by linarith), min_eq_right hu]
  · rw [max_eq_left (by linarith), min_eq_right hv', neg_zero]

theorem clip_comm (u v x : ℝ) : clip 0 u (clip 0 v x) = clip 0 v (clip 0 u x) := by
  rcases le_total 0 u with hu | hu <;> rcases le_total 0 v with hv | hv
  · exact clip_comm_nn hu hv
  · rw [(clip_comm_np hu hv).1, (clip_comm_np hu hv).2]
  · rw [(clip_comm_np hv hu).1, (clip_comm_np hv hu).2]
  · have e : ∀ w y, clip 0 w y = -clip 0 (-w) (-y) := fun w y => by
      have := clip_neg 0 (-w) (-y); rw [neg_neg, neg_neg, neg_zero] at this; exact this
    rw [e u, e v x, e v, e u x, neg_neg, neg_neg, clip_comm_nn (by linarith) (by linarith)]

/-- The slope that is left after the two limits. -/
theorem plmZone_eq (a b c m : ℝ) :
    plmZone a b c m = (b - clip 0 (c - b) (clip 0 (b - a) (1/2 * m)), b + clip 0 (c - b) (clip 0 (b - a) (1/2 * m))) := by
  unfold plmZone
  dsimp only
  have e1 : ∀ y, clip b a (b - y) = b - clip 0 (b - a) y := by
    intro y
    have h := clip_shift 0 (-(b - a)) (-y) b
    have h' := clip_neg 0 (b - a) y
    rw [neg_zero] at h'
    rw [h', add_zero, show b + -(b - a) = a by ring, ← sub_eq_add_neg, ← sub_eq_add_neg] at h
    exact h
  have e2 : ∀ y, clip b c (b + y) = b + clip 0 (c - b) y := by
    intro y
    have h := clip_shift 0 (c - b) y b
    rw [add_zero, show b + (c - b) = c by ring] at h
    exact h
  rw [e1, show b + 1/2 * m + (b - 1/2 * m) - (b - clip 0 (b - a) (1/2 * m)) = b + clip 0 (b - a) (1/2 * m) by ring, e2]
  congr 1; ring

theorem plmZone_swap (a b c m : ℝ) : plmZone c b a (-m) = ((plmZone a b c m).2, (plmZone a b c m).1) := by
  have h : clip 0 (a - b) (clip 0 (b - c) (1/2 * -m)) = -clip 0 (c - b) (clip 0 (b - a) (1/2 * m)) := by
    have e : ∀ w y, clip 0 (-w) (-y) = -clip 0 w y := fun w y => by have := clip_neg 0 w y; rwa [neg_zero] at this
    rw [show 1/2 * -m = -(1/2 * m) by ring, ← neg_sub b a, ← neg_sub c b, e, e, clip_comm]
  rw [plmZone_eq, plmZone_eq, h]
  congr 1 <;> ring

theorem ppmHalf_swap (a b da db : ℝ) : ppmHalf b a (-db) (-da) = ppmHalf a b da db := by unfold ppmHalf; ring
theorem ppmHalf_neg (a b da db : ℝ) : ppmHalf (-a) (-b) (-da) (-db) = -ppmHalf a b da db := by unfold ppmHalf; ring

theorem theta_neg {x y : ℝ} (h : y ≠ 0) : theta (-x) (-y) = theta x y := by
  have := sgn_mul_neg (c := y) (x := x / (|y| + eps)) (fun h0 => absurd h0 h)
  unfold theta
  rw [abs_neg, neg_div, mul_comm, mul_neg, this]; ring

/-- The correction of `lr_states_p3c.c`. -/
def p3cLim (limo3 : Bool) (eta away towards : ℝ) : ℝ :=
  (if limo3 then limO3 (theta away towards) eta else koren (theta away towards)) * towards

theorem p3cLim_neg (limo3 : Bool) (eta x y : ℝ) : p3cLim limo3 eta (-x) (-y) = -p3cLim limo3 eta x y := by
  unfold p3cLim
  by_cases h : y = 0
  · rw [h]; simp
  · rw [theta_neg h]; ring

/-! ## All variables -/

/-- The signs of all members: those of the scalars do not change. -/
def sg (σ : Fin (k + 4) → ℝ) : Fin (k + 4) ⊕ Fin ns → ℝ := Sum.elim σ (fun _ => 1)

/-- The variables with signs changed. -/
def flipV (σ : Fin (k + 4) → ℝ) (W : Vec k ns) : Vec k ns := fun n => sg σ n * W n

/-- Every sign is 1 or -1. -/
def Signs (σ : Fin (k + 4) → ℝ) : Prop := ∀ n, σ n = 1 ∨ σ n = -1

theorem Signs.sg {σ : Fin (k + 4) → ℝ} (h : Signs σ) (n : Fin (k + 4) ⊕ Fin ns) : sg σ n = 1 ∨ sg σ n = -1 := by
  cases n with
  | inl m => exact h m
  | inr s => exact Or.inl rfl

/-- `E'` is the eigensystem `E` seen with the signs `σ` of the variables changed, up to the order and orientation of the waves; with `s = -1` the
direction of propagation is reversed. -/
def Img (s : ℝ) (σ : Fin (k + 4) → ℝ) (E E' : Eig k) : Prop :=
  ∃ (π : Equiv.Perm (Fin (k + 4))) (ε : Fin (k + 4) → ℝ), (∀ n, ε n = 1 ∨ ε n = -1) ∧ (∀ n, E'.ev n = s * E.ev (π n)) ∧
    (∀ n m, E'.lem n m = ε n * σ m * E.lem (π n) m) ∧ (∀ n m, E'.rem m n = ε n * σ m * E.rem m (π n))

theorem sq_one {x : ℝ} (h : x = 1 ∨ x = -1) : x * x = 1 := by rcases h with rfl | rfl <;> norm_num

variable {σ : Fin (k + 4) → ℝ} {E E' : Eig k}

theorem waves_img {s : ℝ} (hσ : Signs σ) (h : Img s σ E E') (sel sel' : ℝ → Prop) [DecidablePred sel] [DecidablePred sel']
    (hsel : ∀ v, sel' (s * v) ↔ sel v) (x x' : ℝ → Fin (k + 4) → ℝ) (hx : ∀ v m, x' (s * v) m = σ m * x v m) (m : Fin (k + 4)) :
    waves E' sel' (fun n m => x' (E'.ev n) m) m = σ m * waves E sel (fun n m => x (E.ev n) m) m := by
  obtain ⟨π, ε, hε, hev, hl, hr⟩ := h
  unfold waves
  rw [Finset.mul_sum]
  refine (Finset.sum_congr rfl fun n _ => ?_).trans (Equiv.sum_comp π _)
  simp only [hev, hr, hsel]
  split_ifs
  · have e : ∑ m', E'.lem n m' * x' (s * E.ev (π n)) m' = ε n * ∑ m', E.lem (π n) m' * x (E.ev (π n)) m' := by
      rw [Finset.mul_sum]
      refine Finset.sum_congr rfl fun m' _ => ?_
      rw [hl, hx]
      linear_combination (ε n * E.lem (π n) m' * x (E.ev (π n)) m') * sq_one (hσ m')
    rw [e]
    linear_combination (∑ m', E.lem (π n) m' * x (E.ev (π n)) m') * σ m * E.rem m (π n) * sq_one (hε n)
  · ring

theorem limit_sg {s : ℝ} (h : s = 1 ∨ s = -1) (c l r g : ℝ) : limit (s * c) (s * l) (s * r) (s * g) = s * limit c l r g := by
  rcases h with rfl | rfl
  · simp only [one_mul]
  · simp only [neg_mul, one_mul, limit_neg]

theorem vanLeer_sg {s : ℝ} (h : s = 1 ∨ s = -1) (l r : ℝ) : vanLeer (s * l) (s * r) = s * vanLeer l r := by
  rcases h with rfl | rfl
  · simp only [one_mul]
  · simp only [neg_mul, one_mul, vanLeer_neg]

/-- The limited slopes with signs changed. -/
theorem charSlope_img {s : ℝ} (hσ : Signs σ) (h : Img s σ E E') (a b c : Vec k ns) :
    charSlope E' (flipV σ a) (flipV σ b) (flipV σ c) = flipV σ (charSlope E a b c) := by
  obtain ⟨π, ε, hε, hev, hl, hr⟩ := h
  have hd : ∀ (x y : Vec k ns) n, flipV σ x n - flipV σ y n = sg σ n * (x n - y n) := fun x y n => by unfold flipV; ring
  have hp : ∀ (d d' : Vec k ns), (∀ n, d' n = sg σ n * d n) → ∀ n,
      ∑ m, E'.lem n m * d' (Sum.inl m) = ε n * ∑ m, E.lem (π n) m * d (Sum.inl m) := by
    intro d d' hdd n
    rw [Finset.mul_sum]
    refine Finset.sum_congr rfl fun m _ => ?_
    rw [hl, hdd, show sg σ (Sum.inl m : Fin (k + 4) ⊕ Fin ns) = σ m from rfl]
    linear_combination (ε n * E.lem (π n) m * d (Sum.inl m)) * sq_one (hσ m)
  funext n
  cases n with
  | inr s => simp only [charSlope, flipV, sg, Sum.elim_inr, one_mul]
  | inl m =>
    unfold charSlope
    dsimp only
    rw [flipV, show sg σ (Sum.inl m : Fin (k + 4) ⊕ Fin ns) = σ m from rfl]
    dsimp only
    rw [Finset.mul_sum]
    refine (Finset.sum_congr rfl fun n _ => ?_).trans (Equiv.sum_comp π _)
    rw [hr, hp (fun n => c n - a n) _ (fun n => hd c a n), hp (fun n => b n - a n) _ (fun n => hd b a n),
      hp (fun n => c n - b n) _ (fun n => hd c b n),
      hp (fun n => vanLeer (b n - a n) (c n - b n)) (fun n => vanLeer (flipV σ b n - flipV σ a n) (flipV σ c n - flipV σ b n)) (fun n => by rw [hd, hd, vanLeer_sg (hσ.sg n)]), limit_sg (hε n)]
    linear_combination (limit (∑ m, E.lem (π n) m * (c (Sum.inl m) - a (Sum.inl m))) (∑ m, E.lem (π n) m * (b (Sum.inl m) - a (Sum.inl m)))
      (∑ m, E.lem (π n) m * (c (Sum.inl m) - b (Sum.inl m)))
      (∑ m, E.lem (π n) m * (vanLeer (b (Sum.inl m) - a (Sum.inl m)) (c (Sum.inl m) - b (Sum.inl m))))) * σ m * E.rem m (π n) * sq_one (hε n)

/-- The limited slopes from the zones in reversed order. -/
theorem charSlope_rev (E : Eig k) (a b c : Vec k ns) : charSlope E c b a = fun n => -charSlope E a b c n := by
  have hp : ∀ (n : Fin (k + 4)) (d d' : Vec k ns), (∀ n, d' n = -d n) → ∑ m, E.lem n m * d' (Sum.inl m) = -∑ m, E.lem n m * d (Sum.inl m) := by
    intro n d d' hdd
    rw [← Finset.sum_neg_distrib]
    refine Finset.sum_congr rfl fun m _ => ?_
    rw [hdd]; ring
  have hv : ∀ n, vanLeer (b n - c n) (a n - b n) = -vanLeer (b n - a n) (c n - b n) := fun n => by
    rw [← neg_sub (c n) (b n), ← neg_sub (b n) (a n), vanLeer_neg, vanLeer_swap]
  funext n
  cases n with
  | inr s =>
    unfold charSlope
    exact limit_rev _ _ _
  | inl m =>
    unfold charSlope
    dsimp only
    rw [← Finset.sum_neg_distrib]
    refine Finset.sum_congr rfl fun n _ => ?_
    rw [hp n (fun n => c n - a n) (fun n => a n - c n) (fun n => by ring), hp n (fun n => c n - b n) (fun n => b n - c n) (fun n => by ring),
      hp n (fun n => b n - a n) (fun n => a n - b n) (fun n => by ring), hp n (fun n => vanLeer (b n - a n) (c n - b n)) (fun n => vanLeer (b n - c n) (a n - b n)) hv, limit_neg, limit_swap]
    ring

/-! ## Tracing along the characteristics -/

theorem fmax_rev (a : ℝ) : fmax (-a) 0 = -fmin a 0 := by have := fmax_neg a 0; rwa [neg_zero] at this
theorem fmin_rev (a : ℝ) : fmin (-a) 0 = -fmax a 0 := by have := fmin_neg a 0; rwa [neg_zero] at this

theorem prim2Trace_rev (hσ : Signs σ) (h : Img (-1) σ E E') (hl : E'.lo = -E.hi) (hh : E'.hi = -E.lo) (hll : Bool) (q v : ℝ) (l r : Vec k ns) :
    prim2Trace hll q E' (-v) (flipV σ r) (flipV σ l) = (flipV σ (prim2Trace hll q E v l r).2, flipV σ (prim2Trace hll q E v l r).1) := by
  unfold prim2Trace
  refine Prod.ext ?_ ?_
  · funext n
    cases n with
    | inr s =>
      simp only [flipV, sg, Sum.elim_inr, one_mul, hh, fmax_rev, gt_iff_lt, neg_pos]
      rcases lt_trichotomy v 0 with h0 | h0 | h0
      · rw [if_pos h0, if_neg (by linarith), if_pos h0]; ring
      · rw [if_neg (by linarith), if_neg (by linarith), if_neg (by linarith)]; ring
      · rw [if_neg (by linarith), if_pos h0]; ring
    | inl m =>
      simp only [flipV, sg, Sum.elim_inl]
      rw [waves_img hσ h (· < 0) (· > 0) (fun v => by simp) (fun v m => 1/2 * q * (E.lo - v) * (r (Sum.inl m) - l (Sum.inl m)))
          (fun v m => 1/2 * q * (E'.hi - v) * (σ m * l (Sum.inl m) - σ m * r (Sum.inl m))) (fun v m => by rw [hh]; ring),
        waves_img hσ h (· > 0) (· < 0) (fun v => by simp) (fun v m => 1/2 * q * (E.lo - v) * (r (Sum.inl m) - l (Sum.inl m)))
          (fun v m => 1/2 * q * (E'.hi - v) * (σ m * l (Sum.inl m) - σ m * r (Sum.inl m))) (fun v m => by rw [hh]; ring), hh, fmax_rev]
      split_ifs <;> ring
  · funext n
    cases n with
    | inr s =>
      simp only [flipV, sg, Sum.elim_inr, one_mul, hl, fmin_rev, gt_iff_lt, neg_pos, neg_lt_zero]
      rcases lt_trichotomy v 0 with h0 | h0 | h0
      · rw [if_pos h0, if_neg (by linarith)]; ring
      · rw [if_neg (by linarith), if_neg (by linarith), if_neg (by linarith)]; ring
      · rw [if_neg (by linarith), if_pos h0, if_pos h0]; ring
    | inl m =>
      simp only [flipV, sg, Sum.elim_inl]
      rw [waves_img hσ h (· < 0) (· > 0) (fun v => by simp) (fun v m => 1/2 * q * (E.hi - v) * (r (Sum.inl m) - l (Sum.inl m)))
          (fun v m => 1/2 * q * (E'.lo - v) * (σ m * l (Sum.inl m) - σ m * r (Sum.inl m))) (fun v m => by rw [hl]; ring),
        waves_img hσ h (· > 0) (· < 0) (fun v => by simp) (fun v m => 1/2 * q * (E.hi - v) * (r (Sum.inl m) - l (Sum.inl m)))
          (fun v m => 1/2 * q * (E'.lo - v) * (σ m * l (Sum.inl m) - σ m * r (Sum.inl m))) (fun v m => by rw [hl]; ring), hl, fmin_rev]
      split_ifs <;> ring

theorem prim2Trace_flip (hσ : Signs σ) (h : Img 1 σ E E') (hl : E'.lo = E.lo) (hh : E'.hi = E.hi) (hll : Bool) (q v : ℝ) (l r : Vec k ns) :
    prim2Trace hll q E' v (flipV σ l) (flipV σ r) = (flipV σ (prim2Trace hll q E v l r).1, flipV σ (prim2Trace hll q E v l r).2) := by
  unfold prim2Trace
  refine Prod.ext ?_ ?_
  · funext n
    cases n with
    | inr s => simp only [flipV, sg, Sum.elim_inr, one_mul, hh]
    | inl m =>
      simp only [flipV, sg, Sum.elim_inl]
      rw [waves_img hσ h (· > 0) (· > 0) (fun v => by simp) (fun v m => 1/2 * q * (E.hi - v) * (r (Sum.inl m) - l (Sum.inl m)))
          (fun v m => 1/2 * q * (E'.hi - v) * (σ m * r (Sum.inl m) - σ m * l (Sum.inl m))) (fun v m => by rw [hh]; ring),
        waves_img hσ h (· < 0) (· < 0) (fun v => by simp) (fun v m => 1/2 * q * (E.hi - v) * (r (Sum.inl m) - l (Sum.inl m)))
          (fun v m => 1/2 * q * (E'.hi - v) * (σ m * r (Sum.inl m) - σ m * l (Sum.inl m))) (fun v m => by rw [hh]; ring), hh]
      split_ifs <;> ring
  · funext n
    cases n with
    | inr s => simp only [flipV, sg, Sum.elim_inr, one_mul, hl]
    | inl m =>
      simp only [flipV, sg, Sum.elim_inl]
      rw [waves_img hσ h (· < 0) (· < 0) (fun v => by simp) (fun v m => 1/2 * q * (E.lo - v) * (r (Sum.inl m) - l (Sum.inl m)))
          (fun v m => 1/2 * q * (E'.lo - v) * (σ m * r (Sum.inl m) - σ m * l (Sum.inl m))) (fun v m => by rw [hl]; ring),
        waves_img hσ h (· > 0) (· > 0) (fun v => by simp) (fun v m => 1/2 * q * (E.lo - v) * (r (Sum.inl m) - l (Sum.inl m)))
          (fun v m => 1/2 * q * (E'.lo - v) * (σ m * r (Sum.inl m) - σ m * l (Sum.inl m))) (fun v m => by rw [hl]; ring), hl]
      split_ifs <;> ring

theorem plmTrace_rev (hσ : Signs σ) (h : Img (-1) σ E E') (hl : E'.lo = -E.hi) (hh : E'.hi = -E.lo) (hll : Bool) (q v : ℝ) (l r : Vec k ns) :
    plmTrace hll q E' (-v) (flipV σ r) (flipV σ l) =
      (flipV σ (plmTrace hll q E v l r).2, flipV σ (plmTrace hll q E v l r).1) := by
  unfold plmTrace
  refine Prod.ext ?_ ?_
  · funext n
    cases n with
    | inr s =>
      simp only [flipV, sg, Sum.elim_inr, one_mul, hh, fmax_rev, gt_iff_lt, neg_pos]
      rcases lt_trichotomy v 0 with h0 | h0 | h0
      · rw [if_pos h0, if_neg (by linarith), if_pos h0]; ring
      · rw [if_neg (by linarith), if_neg (by linarith), if_neg (by linarith)]; ring
      · rw [if_neg (by linarith), if_pos h0]; ring
    | inl m =>
      simp only [flipV, sg, Sum.elim_inl]
      rw [waves_img hσ h (· ≤ 0) (· ≥ 0) (fun v => by simp) (fun v m => (1/2 * q * E.lo - 1/2 * q * v) * (r (Sum.inl m) - l (Sum.inl m)))
          (fun v m => (1/2 * q * E'.hi - 1/2 * q * v) * (σ m * l (Sum.inl m) - σ m * r (Sum.inl m))) (fun v m => by rw [hh]; ring),
        waves_img hσ h (· ≥ 0) (· ≤ 0) (fun v => by simp) (fun v m => (1/2 * q * E.lo - 1/2 * q * v) * (r (Sum.inl m) - l (Sum.inl m)))
          (fun v m => (1/2 * q * E'.hi - 1/2 * q * v) * (σ m * l (Sum.inl m) - σ m * r (Sum.inl m))) (fun v m => by rw [hh]; ring), hh, fmax_rev]
      split_ifs <;> ring
  · funext n
    cases n with
    | inr s =>
      simp only [flipV, sg, Sum.elim_inr, one_mul, hl, fmin_rev, gt_iff_lt, neg_pos, neg_lt_zero]
      rcases lt_trichotomy v 0 with h0 | h0 | h0
      · rw [if_pos h0, if_neg (by linarith)]; ring
      · rw [if_neg (by linarith), if_neg (by linarith), if_neg (by linarith)]; ring
      · rw [if_neg (by linarith), if_pos h0, if_pos h0]; ring
    | inl m =>
      simp only [flipV, sg, Sum.elim_inl]
      rw [waves_img hσ h (· ≥ 0) (· ≤ 0) (fun v => by simp) (fun v m => (1/2 * q * E.hi - 1/2 * q * v) * (r (Sum.inl m) - l (Sum.inl m)))
          (fun v m => (1/2 * q * E'.lo - 1/2 * q * v) * (σ m * l (Sum.inl m) - σ m * r (Sum.inl m))) (fun v m => by rw [hl]; ring),
        waves_img hσ h (· ≤ 0) (· ≥ 0) (fun v => by simp) (fun v m => (1/2 * q * E.hi - 1/2 * q * v) * (r (Sum.inl m) - l (Sum.inl m)))
          (fun v m => (1/2 * q * E'.lo - 1/2 * q * v) * (σ m * l (Sum.inl m) - σ m * r (Sum.inl m))) (fun v m => by rw [hl]; ring), hl, fmin_rev]
      split_ifs <;> ring

theorem plmTrace_flip (hσ : Signs σ) (h : Img (1) σ E E') (hl : E'.lo = E.lo) (hh : E'.hi = E.hi) (hll : Bool) (q v : ℝ) (l r : Vec k ns) :
    plmTrace hll q E' v (flipV σ l) (flipV σ r) =
      (flipV σ (plmTrace hll q E v l r).1, flipV σ (plmTrace hll q E v l r).2) := by
  unfold plmTrace
  refine Prod.ext ?_ ?_
  · funext n
    cases n with
    | inr s =>
      simp only [flipV, sg, Sum.elim_inr, one_mul, hh]
    | inl m =>
      simp only [flipV, sg, Sum.elim_inl]
      rw [waves_img hσ h (· ≥ 0) (· ≥ 0) (fun v => by simp) (fun v m => (1/2 * q * E.hi - 1/2 * q * v) * (r (Sum.inl m) - l (Sum.inl m)))
          (fun v m => (1/2 * q * E'.hi - 1/2 * q * v) * (σ m * r (Sum.inl m) - σ m * l (Sum.inl m))) (fun v m => by rw [hh]; ring),
        waves_img hσ h (· ≤ 0) (· ≤ 0) (fun v => by simp) (fun v m => (1/2 * q * E.hi - 1/2 * q * v) * (r (Sum.inl m) - l (Sum.inl m)))
          (fun v m => (1/2 * q * E'.hi - 1/2 * q * v) * (σ m * r (Sum.inl m) - σ m * l (Sum.inl m))) (fun v m => by rw [hh]; ring), hh]
      split_ifs <;> ring
  · funext n
    cases n with
    | inr s =>
      simp only [flipV, sg, Sum.elim_inr, one_mul, hl]
    | inl m =>
      simp only [flipV, sg, Sum.elim_inl]
      rw [waves_img hσ h (· ≤ 0) (· ≤ 0) (fun v => by simp) (fun v m => (1/2 * q * E.lo - 1/2 * q * v) * (r (Sum.inl m) - l (Sum.inl m)))
          (fun v m => (1/2 * q * E'.lo - 1/2 * q * v) * (σ m * r (Sum.inl m) - σ m * l (Sum.inl m))) (fun v m => by rw [hl]; ring),
        waves_img hσ h (· ≥ 0) (· ≥ 0) (fun v => by simp) (fun v m => (1/2 * q * E.lo - 1/2 * q * v) * (r (Sum.inl m) - l (Sum.inl m)))
          (fun v m => (1/2 * q * E'.lo - 1/2 * q * v) * (σ m * r (Sum.inl m) - σ m * l (Sum.inl m))) (fun v m => by rw [hl]; ring), hl]
      split_ifs <;> ring

theorem prim3Trace_rev (hσ : Signs σ) (h : Img (-1) σ E E') (hl : E'.lo = -E.hi) (hh : E'.hi = -E.lo) (hll : Bool) (q v : ℝ) (w l r : Vec k ns) :
    prim3Trace hll q E' (-v) (flipV σ w) (flipV σ r) (flipV σ l) =
      (flipV σ (prim3Trace hll q E v w l r).2, flipV σ (prim3Trace hll q E v w l r).1) := by
  unfold prim3Trace
  refine Prod.ext ?_ ?_
  · funext n
    cases n with
    | inr s =>
      simp only [flipV, sg, Sum.elim_inr, one_mul, hh, fmax_rev, gt_iff_lt, neg_pos]
      rcases lt_trichotomy v 0 with h0 | h0 | h0
      · rw [if_pos h0, if_neg (by linarith), if_pos h0]; ring
      · rw [if_neg (by linarith), if_neg (by linarith), if_neg (by linarith)]; ring
      · rw [if_neg (by linarith), if_pos h0]; ring
    | inl m =>
      simp only [flipV, sg, Sum.elim_inl]
      rw [waves_img hσ h (· < 0) (· > 0) (fun v => by simp) (fun v m => 1/2 * q * (E.lo - v) * ((r (Sum.inl m) - l (Sum.inl m)) + (6 * (w (Sum.inl m) - 1/2 * (l (Sum.inl m) + r (Sum.inl m))))) + 1/2 * q * q * two3rds * (E.lo * E.lo - v * v) * (6 * (w (Sum.inl m) - 1/2 * (l (Sum.inl m) + r (Sum.inl m)))))
          (fun v m => 1/2 * q * (E'.hi - v) * ((σ m * l (Sum.inl m) - σ m * r (Sum.inl m)) - (6 * (σ m * w (Sum.inl m) - 1/2 * (σ m * r (Sum.inl m) + σ m * l (Sum.inl m))))) + 1/2 * q * q * two3rds * (E'.hi * E'.hi - v * v) * (6 * (σ m * w (Sum.inl m) - 1/2 * (σ m * r (Sum.inl m) + σ m * l (Sum.inl m))))) (fun v m => by rw [hh]; ring),
        waves_img hσ h (· > 0) (· < 0) (fun v => by simp) (fun v m => 1/2 * q * (E.lo - v) * (r (Sum.inl m) - l (Sum.inl m)))
          (fun v m => 1/2 * q * (E'.hi - v) * (σ m * l (Sum.inl m) - σ m * r (Sum.inl m))) (fun v m => by rw [hh]; ring), hh, fmax_rev]
      split_ifs <;> ring
  · funext n
    cases n with
    | inr s =>
      simp only [flipV, sg, Sum.elim_inr, one_mul, hl, fmin_rev, gt_iff_lt, neg_pos, neg_lt_zero]
      rcases lt_trichotomy v 0 with h0 | h0 | h0
      · rw [if_pos h0, if_neg (by linarith)]; ring
      · rw [if_neg (by linarith), if_neg (by linarith), if_neg (by linarith)]; ring
      · rw [if_neg (by linarith), if_pos h0, if_pos h0]; ring
    | inl m =>
      simp only [flipV, sg, Sum.elim_inl]
      rw [waves_img hσ h (· > 0) (· < 0) (fun v => by simp) (fun v m => 1/2 * q * (E.hi - v) * ((r (Sum.inl m) - l (Sum.inl m)) - (6 * (w (Sum.inl m) - 1/2 * (l (Sum.inl m) + r (Sum.inl m))))) + 1/2 * q * q * two3rds * (E.hi * E.hi - v * v) * (6 * (w (Sum.inl m) - 1/2 * (l (Sum.inl m) + r (Sum.inl m)))))
          (fun v m => 1/2 * q * (E'.lo - v) * ((σ m * l (Sum.inl m) - σ m * r (Sum.inl m)) + (6 * (σ m * w (Sum.inl m) - 1/2 * (σ m * r (Sum.inl m) + σ m * l (Sum.inl m))))) + 1/2 * q * q * two3rds * (E'.lo * E'.lo - v * v) * (6 * (σ m * w (Sum.inl m) - 1/2 * (σ m * r (Sum.inl m) + σ m * l (Sum.inl m))))) (fun v m => by rw [hl]; ring),
        waves_img hσ h (· < 0) (· > 0) (fun v => by simp) (fun v m => 1/2 * q * (E.hi - v) * (r (Sum.inl m) - l (Sum.inl m)))
          (fun v m => 1/2 * q * (E'.lo - v) * (σ m * l (Sum.inl m) - σ m * r (Sum.inl m))) (fun v m => by rw [hl]; ring), hl, fmin_rev]
      split_ifs <;> ring

theorem prim3Trace_flip (hσ : Signs σ) (h : Img (1) σ E E') (hl : E'.lo = E.lo) (hh : E'.hi = E.hi) (hll : Bool) (q v : ℝ) (w l r : Vec k ns) :
    prim3Trace hll q E' v (flipV σ w) (flipV σ l) (flipV σ r) =
      (flipV σ (prim3Trace hll q E v w l r).1, flipV σ (prim3Trace hll q E v w l r).2) := by
  unfold prim3Trace
  refine Prod.ext ?_ ?_
  · funext n
    cases n with
    | inr s =>
      simp only [flipV, sg, Sum.elim_inr, one_mul, hh]
    | inl m =>
      simp only [flipV, sg, Sum.elim_inl]
      rw [waves_img hσ h (· > 0) (· > 0) (fun v => by simp) (fun v m => 1/2 * q * (E.hi - v) * ((r (Sum.inl m) - l (Sum.inl m)) - (6 * (w (Sum.inl m) - 1/2 * (l (Sum.inl m) + r (Sum.inl m))))) + 1/2 * q * q * two3rds * (E.hi * E.hi - v * v) * (6 * (w (Sum.inl m) - 1/2 * (l (Sum.inl m) + r (Sum.inl m)))))
          (fun v m => 1/2 * q * (E'.hi - v) * ((σ m * r (Sum.inl m) - σ m * l (Sum.inl m)) - (6 * (σ m * w (Sum.inl m) - 1/2 * (σ m * l (Sum.inl m) + σ m * r (Sum.inl m))))) + 1/2 * q * q * two3rds * (E'.hi * E'.hi - v * v) * (6 * (σ m * w (Sum.inl m) - 1/2 * (σ m * l (Sum.inl m) + σ m * r (Sum.inl m))))) (fun v m => by rw [hh]; ring),
        waves_img hσ h (· < 0) (· < 0) (fun v => by simp) (fun v m => 1/2 * q * (E.hi - v) * (r (Sum.inl m) - l (Sum.inl m)))
          (fun v m => 1/2 * q * (E'.hi - v) * (σ m * r (Sum.inl m) - σ m * l (Sum.inl m))) (fun v m => by rw [hh]; ring), hh]
      split_ifs <;> ring
  · funext n
    cases n with
    | inr s =>
      simp only [flipV, sg, Sum.elim_inr, one_mul, hl]
    | inl m =>
      simp only [flipV, sg, Sum.elim_inl]
      rw [waves_img hσ h (· < 0) (· < 0) (fun v => by simp) (fun v m => 1/2 * q * (E.lo - v) * ((r (Sum.inl m) - l (Sum.inl m)) + (6 * (w (Sum.inl m) - 1/2 * (l (Sum.inl m) + r (Sum.inl m))))) + 1/2 * q * q * two3rds * (E.lo * E.lo - v * v) * (6 * (w (Sum.inl m) - 1/2 * (l (Sum.inl m) + r (Sum.inl m)))))
          (fun v m => 1/2 * q * (E'.lo - v) * ((σ m * r (Sum.inl m) - σ m * l (Sum.inl m)) + (6 * (σ m * w (Sum.inl m) - 1/2 * (σ m * l (Sum.inl m) + σ m * r (Sum.inl m))))) + 1/2 * q * q * two3rds * (E'.lo * E'.lo - v * v) * (6 * (σ m * w (Sum.inl m) - 1/2 * (σ m * l (Sum.inl m) + σ m * r (Sum.inl m))))) (fun v m => by rw [hl]; ring),
        waves_img hσ h (· > 0) (· > 0) (fun v => by simp) (fun v m => 1/2 * q * (E.lo - v) * (r (Sum.inl m) - l (Sum.inl m)))
          (fun v m => 1/2 * q * (E'.lo - v) * (σ m * r (Sum.inl m) - σ m * l (Sum.inl m))) (fun v m => by rw [hl]; ring), hl]
      split_ifs <;> ring

theorem ppmTrace_rev (hσ : Signs σ) (h : Img (-1) σ E E') (hl : E'.lo = -E.hi) (hh : E'.hi = -E.lo) (hll : Bool) (q v : ℝ) (w l r : Vec k ns) :
    ppmTrace hll q E' (-v) (flipV σ w) (flipV σ r) (flipV σ l) =
      (flipV σ (ppmTrace hll q E v w l r).2, flipV σ (ppmTrace hll q E v w l r).1) := by
  unfold ppmTrace
  refine Prod.ext ?_ ?_
  · funext n
    cases n with
    | inr s =>
      simp only [flipV, sg, Sum.elim_inr, one_mul, hh, fmax_rev, gt_iff_lt, neg_pos]
      rcases lt_trichotomy v 0 with h0 | h0 | h0
      · rw [if_pos h0, if_neg (by linarith), if_pos h0]; ring
      · rw [if_neg (by linarith), if_neg (by linarith), if_neg (by linarith)]; ring
      · rw [if_neg (by linarith), if_pos h0]; ring
    | inl m =>
      simp only [flipV, sg, Sum.elim_inl]
      rw [waves_img hσ h (· ≤ 0) (· ≥ 0) (fun v => by simp) (fun v m => (1/2 * q * E.lo - 1/2 * q * v) * ((r (Sum.inl m) - l (Sum.inl m)) + (6 * (w (Sum.inl m) - 1/2 * (l (Sum.inl m) + r (Sum.inl m))))) + four3rds * ((1/2 * q * E.lo) * (1/2 * q * E.lo) - (1/2 * q * v) * (1/2 * q * v)) * (6 * (w (Sum.inl m) - 1/2 * (l (Sum.inl m) + r (Sum.inl m)))))
          (fun v m => (1/2 * q * E'.hi - 1/2 * q * v) * ((σ m * l (Sum.inl m) - σ m * r (Sum.inl m)) - (6 * (σ m * w (Sum.inl m) - 1/2 * (σ m * r (Sum.inl m) + σ m * l (Sum.inl m))))) + four3rds * ((1/2 * q * E'.hi) * (1/2 * q * E'.hi) - (1/2 * q * v) * (1/2 * q * v)) * (6 * (σ m * w (Sum.inl m) - 1/2 * (σ m * r (Sum.inl m) + σ m * l (Sum.inl m))))) (fun v m => by rw [hh]; ring),
        waves_img hσ h (· ≥ 0) (· ≤ 0) (fun v => by simp) (fun v m => (1/2 * q * E.lo - 1/2 * q * v) * (r (Sum.inl m) - l (Sum.inl m)))
          (fun v m => (1/2 * q * E'.hi - 1/2 * q * v) * (σ m * l (Sum.inl m) - σ m * r (Sum.inl m))) (fun v m => by rw [hh]; ring), hh, fmax_rev]
      split_ifs <;> ring
  · funext n
    cases n with
    | inr s =>
      simp only [flipV, sg, Sum.elim_inr, one_mul, hl, fmin_rev, gt_iff_lt, neg_pos, neg_lt_zero]
      rcases lt_trichotomy v 0 with h0 | h0 | h0
      · rw [if_pos h0, if_neg (by linarith)]; ring
      · rw [if_neg (by linarith), if_neg (by linarith), if_neg (by linarith)]; ring
      · rw [if_neg (by linarith), if_pos h0, if_pos h0]; ring
    | inl m =>
      simp only [flipV, sg, Sum.elim_inl]
      rw [waves_img hσ h (· ≥ 0) (· ≤ 0) (fun v => by simp) (fun v m => (1/2 * q * E.hi - 1/2 * q * v) * ((r (Sum.inl m) - l (Sum.inl m)) - (6 * (w (Sum.inl m) - 1/2 * (l (Sum.inl m) + r (Sum.inl m))))) + four3rds * ((1/2 * q * E.hi) * (1/2 * q * E.hi) - (1/2 * q * v) * (1/2 * q * v)) * (6 * (w (Sum.inl m) - 1/2 * (l (Sum.inl m) + r (Sum.inl m)))))
          (fun v m => (1/2 * q * E'.lo - 1/2 * q * v) * ((σ m * l (Sum.inl m) - σ m * r (Sum.inl m)) + (6 * (σ m * w (Sum.inl m) - 1/2 * (σ m * r (Sum.inl m) + σ m * l (Sum.inl m))))) + four3rds * ((1/2 * q * E'.lo) * (1/2 * q * E'.lo) - (1/2 * q * v) * (1/2 * q * v)) * (6 * (σ m * w (Sum.inl m) - 1/2 * (σ m * r (Sum.inl m) + σ m * l (Sum.inl m))))) (fun v m => by rw [hl]; ring),
        waves_img hσ h (· ≤ 0) (· ≥ 0) (fun v => by simp) (fun v m => (1/2 * q * E.hi - 1/2 * q * v) * (r (Sum.inl m) - l (Sum.inl m)))
          (fun v m => (1/2 * q * E'.lo - 1/2 * q * v) * (σ m * l (Sum.inl m) - σ m * r (Sum.inl m))) (fun v m => by rw [hl]; ring), hl, fmin_rev]
      split_ifs <;> ring

theorem ppmTrace_flip (hσ : Signs σ) (h : Img (1) σ E E') (hl : E'.lo = E.lo) (hh : E'.hi = E.hi) (hll : Bool) (q v : ℝ) (w l r : Vec k ns) :
    ppmTrace hll q E' v (flipV σ w) (flipV σ l) (flipV σ r) =
      (flipV σ (ppmTrace hll q E v w l r).1, flipV σ (ppmTrace hll q E v w l r).2) := by
  unfold ppmTrace
  refine Prod.ext ?_ ?_
  · funext n
    cases n with
    | inr s =>
      simp only [flipV, sg, Sum.elim_inr, one_mul, hh]
    | inl m =>
      simp only [flipV, sg, Sum.elim_inl]
      rw [waves_img hσ h (· ≥ 0) (· ≥ 0) (fun v => by simp) (fun v m => (1/2 * q * E.hi - 1/2 * q * v) * ((r (Sum.inl m) - l (Sum.inl m)) - (6 * (w (Sum.inl m) - 1/2 * (l (Sum.inl m) + r (Sum.inl m))))) + four3rds * ((1/2 * q * E.hi) * (1/2 * q * E.hi) - (1/2 * q * v) * (1/2 * q * v)) * (6 * (w (Sum.inl m) - 1/2 * (l (Sum.inl m) + r (Sum.inl m)))))
          (fun v m => (1/2 * q * E'.hi - 1/2 * q * v) * ((σ m * r (Sum.inl m) - σ m * l (Sum.inl m)) - (6 * (σ m * w (Sum.inl m) - 1/2 * (σ m * l (Sum.inl m) + σ m * r (Sum.inl m))))) + four3rds * ((1/2 * q * E'.hi) * (1/2 * q * E'.hi) - (1/2 * q * v) * (1/2 * q * v)) * (6 * (σ m * w (Sum.inl m) - 1/2 * (σ m * l (Sum.inl m) + σ m * r (Sum.inl m))))) (fun v m => by rw [hh]; ring),
        waves_img hσ h (· ≤ 0) (· ≤ 0) (fun v => by simp) (fun v m => (1/2 * q * E.hi - 1/2 * q * v) * (r (Sum.inl m) - l (Sum.inl m)))
          (fun v m => (1/2 * q * E'.hi - 1/2 * q * v) * (σ m * r (Sum.inl m) - σ m * l (Sum.inl m))) (fun v m => by rw [hh]; ring), hh]
      split_ifs <;> ring
  · funext n
    cases n with
    | inr s =>
      simp only [flipV, sg, Sum.elim_inr, one_mul, hl]
    | inl m =>
      simp only [flipV, sg, Sum.elim_inl]
      rw [waves_img hσ h (· ≤ 0) (· ≤ 0) (fun v => by simp) (fun v m => (1/2 * q * E.lo - 1/2 * q * v) * ((r (Sum.inl m) - l (Sum.inl m)) + (6 * (w (Sum.inl m) - 1/2 * (l (Sum.inl m) + r (Sum.inl m))))) + four3rds * ((1/2 * q * E.lo) * (1/2 * q * E.lo) - (1/2 * q * v) * (1/2 * q * v)) * (6 * (w (Sum.inl m) - 1/2 * (l (Sum.inl m) + r (Sum.inl m)))))
          (fun v m => (1/2 * q * E'.lo - 1/2 * q * v) * ((σ m * r (Sum.inl m) - σ m * l (Sum.inl m)) + (6 * (σ m * w (Sum.inl m) - 1/2 * (σ m * l (Sum.inl m) + σ m * r (Sum.inl m))))) + four3rds * ((1/2 * q * E'.lo) * (1/2 * q * E'.lo) - (1/2 * q * v) * (1/2 * q * v)) * (6 * (σ m * w (Sum.inl m) - 1/2 * (σ m * l (Sum.inl m) + σ m * r (Sum.inl m))))) (fun v m => by rw [hl]; ring),
        waves_img hσ h (· ≥ 0) (· ≥ 0) (fun v => by simp) (fun v m => (1/2 * q * E.lo - 1/2 * q * v) * (r (Sum.inl m) - l (Sum.inl m)))
          (fun v m => (1/2 * q * E'.lo - 1/2 * q * v) * (σ m * r (Sum.inl m) - σ m * l (Sum.inl m))) (fun v m => by rw [hl]; ring), hl]
      split_ifs <;> ring

end
end Athena.Recon
