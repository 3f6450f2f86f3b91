import Verif.Recon.MirrorEs

/-!
# C130, C131: `lr_states` and the units of the variables

Each member of `Prim1DS` multiplied by a factor of its own, `f n`, the speeds by a factor `s`, the ratio `dt/dx` by `1/s`: the reconstructed
states are multiplied by the same factors.  Factors may be negative, except that of the speeds.
-/

namespace Athena.Recon
noncomputable section
open Athena.Hydro
variable {k ns : ℕ}

/-! ## One variable -/

theorem fmin_sp {s : ℝ} (h : 0 < s) (a b : ℝ) : fmin (s * a) (s * b) = s * fmin a b := by rw [fmin_eq, fmin_eq, mul_min_of_nonneg _ _ h.le]
theorem fmax_sp {s : ℝ} (h : 0 < s) (a b : ℝ) : fmax (s * a) (s * b) = s * fmax a b := by rw [fmax_eq, fmax_eq, mul_max_of_nonneg _ _ h.le]
theorem abs_sp {s : ℝ} (h : 0 < s) (a : ℝ) : |s * a| = s * |a| := by rw [abs_mul, abs_of_pos h]
theorem pos_sp {s : ℝ} (h : 0 < s) (a : ℝ) : s * a > 0 ↔ a > 0 := by
  simp only [gt_iff_lt]; exact mul_pos_iff_of_pos_left h
theorem neg_sp {s : ℝ} (h : 0 < s) (a : ℝ) : s * a < 0 ↔ a < 0 := by
  constructor
  · intro h1; by_contra h2; push Not at h2; exact absurd h1 (not_lt.2 (mul_nonneg h.le h2))
  · intro h1; exact mul_neg_of_pos_of_neg h h1
theorem nn_sp {s : ℝ} (h : 0 < s) (a : ℝ) : s * a ≥ 0 ↔ a ≥ 0 := by
  rw [ge_iff_le, ge_iff_le, ← not_lt, ← not_lt, neg_sp h]
theorem np_sp {s : ℝ} (h : 0 < s) (a : ℝ) : s * a ≤ 0 ↔ a ≤ 0 := by
  rw [← not_lt, ← not_lt]; exact not_congr (pos_sp h a)
theorem zero_sp {s : ℝ} (h : 0 < s) (a : ℝ) : s * a = 0 ↔ a = 0 := by
  rw [mul_eq_zero]; exact ⟨fun h' => h'.resolve_left h.ne', Or.inr⟩
theorem sgn_sp {s : ℝ} (h : 0 < s) (a : ℝ) : sgn (s * a) = sgn a := by
  unfold sgn; simp only [neg_sp h]

/-- From positive factors to all. -/
theorem sc_of {P : ℝ → Prop} (hp : ∀ s, 0 < s → P s) (hn : ∀ s, 0 < s → P s → P (-s)) {s : ℝ} (h : s ≠ 0) : P s := by
  rcases lt_or_gt_of_ne h with h0 | h0
  · have := hn (-s) (by linarith) (hp (-s) (by linarith)); rwa [neg_neg] at this
  · exact hp s h0

theorem limit_sc {s : ℝ} (h : s ≠ 0) (c l r g : ℝ) : limit (s * c) (s * l) (s * r) (s * g) = s * limit c l r g := by
  refine sc_of (P := fun s => limit (s * c) (s * l) (s * r) (s * g) = s * limit c l r g) (fun s h => ?_) (fun s _ e => ?_) h
  · unfold limit
    simp only [abs_sp h, sgn_sp h, show s * l * (s * r) = (s * s) * (l * r) by ring, pos_sp (mul_pos h h), fmin_sp h,
      show 1/2 * (s * |c|) = s * (1/2 * |c|) by ring, show 2 * (s * fmin |l| |r|) = s * (2 * fmin |l| |r|) by ring]
    split_ifs <;> ring
  · simp only [neg_mul, limit_neg, e]

theorem vanLeer_sc {s : ℝ} (h : s ≠ 0) (l r : ℝ) : vanLeer (s * l) (s * r) = s * vanLeer l r := by
  refine sc_of (P := fun s => vanLeer (s * l) (s * r) = s * vanLeer l r) (fun s h => ?_) (fun s _ e => ?_) h
  · unfold vanLeer
    simp only [show s * l * (s * r) = (s * s) * (l * r) by ring, pos_sp (mul_pos h h)]
    split_ifs
    · rw [show 2 * (s * l) * (s * r) = s * (s * (2 * l * r)) by ring, ← mul_add, mul_div_assoc, mul_div_mul_left _ _ h.ne']
    · simp
  · simp only [neg_mul, vanLeer_neg, e]

theorem clip_sc {s : ℝ} (h : s ≠ 0) (a b x : ℝ) : clip (s * a) (s * b) (s * x) = s * clip a b x := by
  refine sc_of (P := fun s => clip (s * a) (s * b) (s * x) = s * clip a b x) (fun s h => ?_) (fun s _ e => ?_) h
  · simp only [clip, fmax_sp h, fmin_sp h]
  · simp only [neg_mul, clip_neg, e]

theorem prim2Zone_sc {s : ℝ} (h : s ≠ 0) (a b c : ℝ) : prim2Zone (s * a) (s * b) (s * c) = (s * (prim2Zone a b c).1, s * (prim2Zone a b c).2) := by
  unfold prim2Zone
  dsimp only
  rw [← mul_sub, ← mul_sub, ← mul_sub, vanLeer_sc h, limit_sc h, show ∀ y, s * b - 1/2 * (s * y) = s * (b - 1/2 * y) by intro y; ring,
    show ∀ y, s * b + 1/2 * (s * y) = s * (b + 1/2 * y) by intro y; ring, clip_sc h, clip_sc h]

theorem plmZone_sc {s : ℝ} (h : s ≠ 0) (a b c m : ℝ) : plmZone (s * a) (s * b) (s * c) (s * m) = (s * (plmZone a b c m).1, s * (plmZone a b c m).2) := by
  rw [plmZone_eq, plmZone_eq]
  have e : clip 0 (s * c - s * b) (clip 0 (s * b - s * a) (1/2 * (s * m))) = s * clip 0 (c - b) (clip 0 (b - a) (1/2 * m)) := by
    have z : ∀ u x, clip 0 (s * u) (s * x) = s * clip 0 u x := fun u x => by have := clip_sc h 0 u x; rwa [mul_zero] at this
    rw [← mul_sub, ← mul_sub, show 1/2 * (s * m) = s * (1/2 * m) by ring, z, z]
  rw [e]; congr 1 <;> ring

theorem ppmHalf_sc (s a b c d : ℝ) : ppmHalf (s * a) (s * b) (s * c) (s * d) = s * ppmHalf a b c d := by unfold ppmHalf; ring

theorem half3_sc {s : ℝ} (h : s ≠ 0) (a b c d : ℝ) : half3 (s * a) (s * b) (s * c) (s * d) = s * half3 a b c d := by
  refine sc_of (P := fun s => half3 (s * a) (s * b) (s * c) (s * d) = s * half3 a b c d) (fun s h => ?_) (fun s _ e => ?_) h
  · unfold half3
    dsimp only
    rw [show (7 * (s * b + s * c) - (s * a + s * d)) / 12 = s * ((7 * (b + c) - (a + d)) / 12) by ring]
    generalize (7 * (b + c) - (a + d)) / 12 = w
    rw [show 3 * (s * b - 2 * (s * w) + s * c) = s * (3 * (b - 2 * w + c)) by ring, show s * a - 2 * (s * b) + s * c = s * (a - 2 * b + c) by ring,
      show s * b - 2 * (s * c) + s * d = s * (b - 2 * c + d) by ring]
    generalize 3 * (b - 2 * w + c) = x
    generalize a - 2 * b + c = y
    generalize b - 2 * c + d = z
    simp only [abs_sp h, sgn_sp h, pos_sp h, neg_sp h, fmin_sp h, show 5/4 * (s * fmin |y| |z|) = s * (5/4 * fmin |y| |z|) by ring]
    split_ifs <;> ring
  · simp only [neg_mul, half3_neg, e]

theorem parab3_sc {s : ℝ} (h : s ≠ 0) (a b c d e l r : ℝ) : parab3 (s * a) (s * b) (s * c) (s * d) (s * e) (s * l) (s * r) =
    (s * (parab3 a b c d e l r).1, s * (parab3 a b c d e l r).2) := by
  refine sc_of (P := fun s => parab3 (s * a) (s * b) (s * c) (s * d) (s * e) (s * l) (s * r) =
    (s * (parab3 a b c d e l r).1, s * (parab3 a b c d e l r).2)) (fun s h => ?_) (fun s _ e => ?_) h
  · unfold parab3
    dsimp only
    rw [show (s * r - s * c) * (s * c - s * l) = (s * s) * ((r - c) * (c - l)) by ring,
      show (s * b - s * c) * (s * c - s * d) = (s * s) * ((b - c) * (c - d)) by ring,
      show -2 * (6 * (s * c - 1 / 2 * (s * l + s * r))) = s * (-2 * (6 * (c - 1 / 2 * (l + r)))) by ring,
      show s * a - 2 * (s * b) + s * c = s * (a - 2 * b + c) by ring,
      show s * b - 2 * (s * c) + s * d = s * (b - 2 * c + d) by ring, show s * c - 2 * (s * d) + s * e = s * (c - 2 * d + e) by ring,
      show s * l - s * c = s * (l - c) by ring, show s * r - s * c = s * (r - c) by ring]
    generalize -2 * (6 * (c - 1 / 2 * (l + r))) = x
    generalize a - 2 * b + c = y
    generalize b - 2 * c + d = z
    generalize c - 2 * d + e = w
    simp only [abs_sp h, sgn_sp h, pos_sp h, neg_sp h, fmin_sp h, np_sp (mul_pos h h), zero_sp h,
      show ∀ q, 5/4 * (s * q) = s * (5/4 * q) by intro q; ring]
    have key : ∀ t, (if z < 0 ∧ y < 0 ∧ w < 0 ∧ x < 0 then s * t else if z > 0 ∧ y > 0 ∧ w > 0 ∧ x > 0 then s * t else 0) =
        s * (if z < 0 ∧ y < 0 ∧ w < 0 ∧ x < 0 then t else if z > 0 ∧ y > 0 ∧ w > 0 ∧ x > 0 then t else 0) := by
      intro t; split_ifs <;> simp
    rw [show ∀ t, sgn x * (s * t) = s * (sgn x * t) by intro t; ring, key]
    generalize (if z < 0 ∧ y < 0 ∧ w < 0 ∧ x < 0 then sgn x * fmin (5 / 4 * fmin |z| (fmin |y| |w|)) |x|
        else if z > 0 ∧ y > 0 ∧ w > 0 ∧ x > 0 then sgn x * fmin (5 / 4 * fmin |z| (fmin |y| |w|)) |x| else 0) = t
    have e3 : ∀ u, s * u * (s * t) / (s * x) = s * (u * t / x) := fun u => by
      rw [show s * u * (s * t) = s * (s * (u * t)) by ring, mul_div_mul_left _ _ h.ne', mul_div_assoc]
    split_ifs
    · rfl
    · rw [e3, e3]; congr 1 <;> ring
    · rfl
  · simp only [neg_mul, parab3_neg, e]

theorem mono3_sc {s : ℝ} (h : s ≠ 0) (c l r : ℝ) : mono3 (s * c) (s * l) (s * r) = (s * (mono3 c l r).1, s * (mono3 c l r).2) := by
  have hs : 0 < s * s := mul_self_pos.2 h
  unfold mono3
  dsimp only
  rw [show (s * r - s * c) * (s * c - s * l) = (s * s) * ((r - c) * (c - l)) by ring,
    show (s * r - s * l) * (6 * (s * c - 1 / 2 * (s * l + s * r))) = (s * s) * ((r - l) * (6 * (c - 1 / 2 * (l + r)))) by ring,
    show (s * r - s * l) * (s * r - s * l) = (s * s) * ((r - l) * (r - l)) by ring]
  simp only [np_sp hs, gt_iff_lt, mul_lt_mul_iff_right₀ hs, show ∀ x, -(s * s * x) = (s * s) * -x by intro x; ring]
  split_ifs <;> first | rfl | (congr 1; ring)

theorem prim3Zone_sc {s : ℝ} (h : s ≠ 0) (a b c d e l r : ℝ) : prim3Zone (s * a) (s * b) (s * c) (s * d) (s * e) (s * l) (s * r) =
    (s * (prim3Zone a b c d e l r).1, s * (prim3Zone a b c d e l r).2) := by
  unfold prim3Zone; rw [parab3_sc h]; dsimp only; rw [mono3_sc h, clip_sc h, clip_sc h]

/-! ## All variables -/

/-- `E'` is the eigensystem `E` in units in which the speeds are multiplied by `s` and the variables by `f`, up to the order and length of the
waves. -/
def ImgU (s : ℝ) (f : Fin (k + 4) → ℝ) (E E' : Eig k) : Prop :=
  ∃ (π : Equiv.Perm (Fin (k + 4))) (c : Fin (k + 4) → ℝ), (∀ n, c n ≠ 0) ∧ (∀ n, E'.ev n = s * E.ev (π n)) ∧
    (∀ n m, E'.lem n m * f m = c n * E.lem (π n) m) ∧ (∀ n m, c n * E'.rem m n = f m * E.rem m (π n))

/-- The waves of a state in other units are its waves. -/
structure UnitSym (s β : ℝ) (f : Fin (k + 4) → ℝ) (es es' : Vec k ns → ℝ → Eig k) : Prop where
  img : ∀ W b, ImgU s f (es W b) (es' (flipV f W) (β * b))
  lo : ∀ W b, (es' (flipV f W) (β * b)).lo = s * (es W b).lo
  hi : ∀ W b, (es' (flipV f W) (β * b)).hi = s * (es W b).hi

/-- No factor is 0. -/
def NoZero (f : Fin (k + 4) → ℝ) : Prop := ∀ n, f n ≠ 0

theorem NoZero.sg {f : Fin (k + 4) → ℝ} (h : NoZero f) (n : Fin (k + 4) ⊕ Fin ns) : sg f n ≠ 0 := by
  cases n with
  | inl m => exact h m
  | inr s => exact one_ne_zero

variable {f : Fin (k + 4) → ℝ} {E E' : Eig k} {s β : ℝ}

theorem waves_sc (h : ImgU s f E E') (sel : ℝ → Prop) [DecidablePred sel]
    (hsel : ∀ v, sel (s * v) ↔ sel v) (x x' : ℝ → Fin (k + 4) → ℝ) (hx : ∀ v m, x' (s * v) m = f m * x v m) (m : Fin (k + 4)) :
    waves E' sel (fun n m => x' (E'.ev n) m) m = f m * waves E sel (fun n m => x (E.ev n) m) m := by
  obtain ⟨π, c, hc, hev, hl, hr⟩ := h
  unfold waves
  rw [Finset.mul_sum]
  refine (Finset.sum_congr rfl fun n _ => ?_).trans (Equiv.sum_comp π _)
  simp only [hev, hsel]
  split_ifs
  · have e : ∑ m', E'.lem n m' * x' (s * E.ev (π n)) m' = c n * ∑ m', E.lem (π n) m' * x (E.ev (π n)) m' := by
      rw [Finset.mul_sum]
      refine Finset.sum_congr rfl fun m' _ => ?_
      rw [hx]
      linear_combination (x (E.ev (π n)) m') * hl n m'
    rw [e]
    linear_combination (∑ m', E.lem (π n) m' * x (E.ev (π n)) m') * hr n m
  · ring

/-- The limited slopes in other units. -/
theorem charSlope_sc (hf : NoZero f) (h : ImgU s f E E') (a b c : Vec k ns) :
    charSlope E' (flipV f a) (flipV f b) (flipV f c) = flipV f (charSlope E a b c) := by
  obtain ⟨π, ε, hε, hev, hl, hr⟩ := h
  have hd : ∀ (x y : Vec k ns) n, flipV f x n - flipV f y n = sg f n * (x n - y n) := fun x y n => by unfold flipV; ring
  have hp : ∀ (d d' : Vec k ns), (∀ n, d' n = sg f n * d n) → ∀ n,
      ∑ m, E'.lem n m * d' (Sum.inl m) = ε n * ∑ m, E.lem (π n) m * d (Sum.inl m) := by
    intro d d' hdd n
    rw [Finset.mul_sum]
    refine Finset.sum_congr rfl fun m _ => ?_
    rw [hdd, show sg f (Sum.inl m : Fin (k + 4) ⊕ Fin ns) = f m from rfl]
    linear_combination (d (Sum.inl m)) * hl n m
  funext n
  cases n with
  | inr s => simp only [charSlope, flipV, sg, Sum.elim_inr, one_mul]
  | inl m =>
    unfold charSlope
    dsimp only
    rw [flipV, show sg f (Sum.inl m : Fin (k + 4) ⊕ Fin ns) = f m from rfl]
    dsimp only
    rw [Finset.mul_sum]
    refine (Finset.sum_congr rfl fun n _ => ?_).trans (Equiv.sum_comp π _)
    rw [hp (fun n => c n - a n) _ (fun n => hd c a n), hp (fun n => b n - a n) _ (fun n => hd b a n),
      hp (fun n => c n - b n) _ (fun n => hd c b n),
      hp (fun n => vanLeer (b n - a n) (c n - b n)) (fun n => vanLeer (flipV f b n - flipV f a n) (flipV f c n - flipV f b n)) (fun n => by rw [hd, hd, vanLeer_sc (hf.sg n)]), limit_sc (hε n)]
    linear_combination (limit (∑ m, E.lem (π n) m * (c (Sum.inl m) - a (Sum.inl m))) (∑ m, E.lem (π n) m * (b (Sum.inl m) - a (Sum.inl m)))
      (∑ m, E.lem (π n) m * (c (Sum.inl m) - b (Sum.inl m)))
      (∑ m, E.lem (π n) m * (vanLeer (b (Sum.inl m) - a (Sum.inl m)) (c (Sum.inl m) - b (Sum.inl m))))) * hr n m

/-! ## Tracing along the characteristics -/

theorem fmax_s0 (h : 0 < s) (a : ℝ) : fmax (s * a) 0 = s * fmax a 0 := by have := fmax_sp h a 0; rwa [mul_zero] at this
theorem fmin_s0 (h : 0 < s) (a : ℝ) : fmin (s * a) 0 = s * fmin a 0 := by have := fmin_sp h a 0; rwa [mul_zero] at this

theorem prim2Trace_sc (hs : 0 < s) (h : ImgU s f E E') (hl : E'.lo = s * E.lo) (hh : E'.hi = s * E.hi) (hll : Bool) (q v : ℝ) (l r : Vec k ns) :
    prim2Trace hll q E' (s * v) (flipV f l) (flipV f r) = (flipV f (prim2Trace hll (s * q) E v l r).1, flipV f (prim2Trace hll (s * q) E v l r).2) := by
  unfold prim2Trace
  refine Prod.ext ?_ ?_
  · funext n
    cases n with
    | inr s => simp only [flipV, sg, Sum.elim_inr, one_mul, hh, pos_sp hs, neg_sp hs, fmax_s0 hs]; split_ifs <;> ring
    | inl m =>
      simp only [flipV, sg, Sum.elim_inl]
      rw [waves_sc h (· > 0) (pos_sp hs) (fun v m => 1/2 * (s * q) * (E.hi - v) * (r (Sum.inl m) - l (Sum.inl m)))
          (fun v m => 1/2 * q * (E'.hi - v) * (f m * r (Sum.inl m) - f m * l (Sum.inl m))) (fun v m => by rw [hh]; ring),
        waves_sc h (· < 0) (neg_sp hs) (fun v m => 1/2 * (s * q) * (E.hi - v) * (r (Sum.inl m) - l (Sum.inl m)))
          (fun v m => 1/2 * q * (E'.hi - v) * (f m * r (Sum.inl m) - f m * l (Sum.inl m))) (fun v m => by rw [hh]; ring), hh, fmax_s0 hs]
      split_ifs <;> ring
  · funext n
    cases n with
    | inr s => simp only [flipV, sg, Sum.elim_inr, one_mul, hl, pos_sp hs, neg_sp hs, fmin_s0 hs]; split_ifs <;> ring
    | inl m =>
      simp only [flipV, sg, Sum.elim_inl]
      rw [waves_sc h (· < 0) (neg_sp hs) (fun v m => 1/2 * (s * q) * (E.lo - v) * (r (Sum.inl m) - l (Sum.inl m)))
          (fun v m => 1/2 * q * (E'.lo - v) * (f m * r (Sum.inl m) - f m * l (Sum.inl m))) (fun v m => by rw [hl]; ring),
        waves_sc h (· > 0) (pos_sp hs) (fun v m => 1/2 * (s * q) * (E.lo - v) * (r (Sum.inl m) - l (Sum.inl m)))
          (fun v m => 1/2 * q * (E'.lo - v) * (f m * r (Sum.inl m) - f m * l (Sum.inl m))) (fun v m => by rw [hl]; ring), hl, fmin_s0 hs]
      split_ifs <;> ring

theorem plmTrace_sc (hs : 0 < s) (h : ImgU s f E E') (hl : E'.lo = s * E.lo) (hh : E'.hi = s * E.hi) (hll : Bool) (q v : ℝ) (l r : Vec k ns) :
    plmTrace hll q E' (s * v) (flipV f l) (flipV f r) =
      (flipV f (plmTrace hll (s * q) E v l r).1, flipV f (plmTrace hll (s * q) E v l r).2) := by
  unfold plmTrace
  refine Prod.ext ?_ ?_
  · funext n
    cases n with
    | inr s =>
      simp only [flipV, sg, Sum.elim_inr, one_mul, hh, pos_sp hs, neg_sp hs, fmax_s0 hs]; split_ifs <;> ring
    | inl m =>
      simp only [flipV, sg, Sum.elim_inl]
      rw [waves_sc h (· ≥ 0) (nn_sp hs) (fun v m => (1/2 * (s * q) * E.hi - 1/2 * (s * q) * v) * (r (Sum.inl m) - l (Sum.inl m)))
          (fun v m => (1/2 * q * E'.hi - 1/2 * q * v) * (f m * r (Sum.inl m) - f m * l (Sum.inl m))) (fun v m => by rw [hh]; ring),
        waves_sc h (· ≤ 0) (np_sp hs) (fun v m => (1/2 * (s * q) * E.hi - 1/2 * (s * q) * v) * (r (Sum.inl m) - l (Sum.inl m)))
          (fun v m => (1/2 * q * E'.hi - 1/2 * q * v) * (f m * r (Sum.inl m) - f m * l (Sum.inl m))) (fun v m => by rw [hh]; ring), hh, fmax_s0 hs]
      split_ifs <;> ring
  · funext n
    cases n with
    | inr s =>
      simp only [flipV, sg, Sum.elim_inr, one_mul, hl, pos_sp hs, neg_sp hs, fmin_s0 hs]; split_ifs <;> ring
    | inl m =>
      simp only [flipV, sg, Sum.elim_inl]
      rw [waves_sc h (· ≤ 0) (np_sp hs) (fun v m => (1/2 * (s * q) * E.lo - 1/2 * (s * q) * v) * (r (Sum.inl m) - l (Sum.inl m)))
          (fun v m => (1/2 * q * E'.lo - 1/2 * q * v) * (f m * r (Sum.inl m) - f m * l (Sum.inl m))) (fun v m => by rw [hl]; ring),
        waves_sc h (· ≥ 0) (nn_sp hs) (fun v m => (1/2 * (s * q) * E.lo - 1/2 * (s * q) * v) * (r (Sum.inl m) - l (Sum.inl m)))
          (fun v m => (1/2 * q * E'.lo - 1/2 * q * v) * (f m * r (Sum.inl m) - f m * l (Sum.inl m))) (fun v m => by rw [hl]; ring), hl, fmin_s0 hs]
      split_ifs <;> ring

theorem prim3Trace_sc (hs : 0 < s) (h : ImgU s f E E') (hl : E'.lo = s * E.lo) (hh : E'.hi = s * E.hi) (hll : Bool) (q v : ℝ) (w l r : Vec k ns) :
    prim3Trace hll q E' (s * v) (flipV f w) (flipV f l) (flipV f r) =
      (flipV f (prim3Trace hll (s * q) E v w l r).1, flipV f (prim3Trace hll (s * q) E v w l r).2) := by
  unfold prim3Trace
  refine Prod.ext ?_ ?_
  · funext n
    cases n with
    | inr s =>
      simp only [flipV, sg, Sum.elim_inr, one_mul, hh, pos_sp hs, neg_sp hs, fmax_s0 hs]; split_ifs <;> ring
    | inl m =>
      simp only [flipV, sg, Sum.elim_inl]
      rw [waves_sc h (· > 0) (pos_sp hs) (fun v m => 1/2 * (s * q) * (E.hi - v) * ((r (Sum.inl m) - l (Sum.inl m)) - (6 * (w (Sum.inl m) - 1/2 * (l (Sum.inl m) + r (Sum.inl m))))) + 1/2 * (s * q) * (s * q) * two3rds * (E.hi * E.hi - v * v) * (6 * (w (Sum.inl m) - 1/2 * (l (Sum.inl m) + r (Sum.inl m)))))
          (fun v m => 1/2 * q * (E'.hi - v) * ((f m * r (Sum.inl m) - f m * l (Sum.inl m)) - (6 * (f m * w (Sum.inl m) - 1/2 * (f m * l (Sum.inl m) + f m * r (Sum.inl m))))) + 1/2 * q * q * two3rds * (E'.hi * E'.hi - v * v) * (6 * (f m * w (Sum.inl m) - 1/2 * (f m * l (Sum.inl m) + f m * r (Sum.inl m))))) (fun v m => by rw [hh]; ring),
        waves_sc h (· < 0) (neg_sp hs) (fun v m => 1/2 * (s * q) * (E.hi - v) * (r (Sum.inl m) - l (Sum.inl m)))
          (fun v m => 1/2 * q * (E'.hi - v) * (f m * r (Sum.inl m) - f m * l (Sum.inl m))) (fun v m => by rw [hh]; ring), hh, fmax_s0 hs]
      split_ifs <;> ring
  · funext n
    cases n with
    | inr s =>
      simp only [flipV, sg, Sum.elim_inr, one_mul, hl, pos_sp hs, neg_sp hs, fmin_s0 hs]; split_ifs <;> ring
    | inl m =>
      simp only [flipV, sg, Sum.elim_inl]
      rw [waves_sc h (· < 0) (neg_sp hs) (fun v m => 1/2 * (s * q) * (E.lo - v) * ((r (Sum.inl m) - l (Sum.inl m)) + (6 * (w (Sum.inl m) - 1/2 * (l (Sum.inl m) + r (Sum.inl m))))) + 1/2 * (s * q) * (s * q) * two3rds * (E.lo * E.lo - v * v) * (6 * (w (Sum.inl m) - 1/2 * (l (Sum.inl m) + r (Sum.inl m)))))
          (fun v m => 1/2 * q * (E'.lo - v) * ((f m * r (Sum.inl m) - f m * l (Sum.inl m)) + (6 * (f m * w (Sum.inl m) - 1/2 * (f m * l (Sum.inl m) + f m * r (Sum.inl m))))) + 1/2 * q * q * two3rds * (E'.lo * E'.lo - v * v) * (6 * (f m * w (Sum.inl m) - 1/2 * (f m * l (Sum.inl m) + f m * r (Sum.inl m))))) (fun v m => by rw [hl]; ring),
        waves_sc h (· > 0) (pos_sp hs) (fun v m => 1/2 * (s * q) * (E.lo - v) * (r (Sum.inl m) - l (Sum.inl m)))
          (fun v m => 1/2 * q * (E'.lo - v) * (f m * r (Sum.inl m) - f m * l (Sum.inl m))) (fun v m => by rw [hl]; ring), hl, fmin_s0 hs]
      split_ifs <;> ring

theorem ppmTrace_sc (hs : 0 < s) (h : ImgU s f E E') (hl : E'.lo = s * E.lo) (hh : E'.hi = s * E.hi) (hll : Bool) (q v : ℝ) (w l r : Vec k ns) :
    ppmTrace hll q E' (s * v) (flipV f w) (flipV f l) (flipV f r) =
      (flipV f (ppmTrace hll (s * q) E v w l r).1, flipV f (ppmTrace hll (s * q) E v w l r).2) := by
  unfold ppmTrace
  refine Prod.ext ?_ ?_
  · funext n
    cases n with
    | inr s =>
      simp only [flipV, sg, Sum.elim_inr, one_mul, hh, pos_sp hs, neg_sp hs, fmax_s0 hs]; split_ifs <;> ring
    | inl m =>
      simp only [flipV, sg, Sum.elim_inl]
      rw [waves_sc h (· ≥ 0) (nn_sp hs) (fun v m => (1/2 * (s * q) * E.hi - 1/2 * (s * q) * v) * ((r (Sum.inl m) - l (Sum.inl m)) - (6 * (w (Sum.inl m) - 1/2 * (l (Sum.inl m) + r (Sum.inl m))))) + four3rds * ((1/2 * (s * q) * E.hi) * (1/2 * (s * q) * E.hi) - (1/2 * (s * q) * v) * (1/2 * (s * q) * v)) * (6 * (w (Sum.inl m) - 1/2 * (l (Sum.inl m) + r (Sum.inl m)))))
          (fun v m => (1/2 * q * E'.hi - 1/2 * q * v) * ((f m * r (Sum.inl m) - f m * l (Sum.inl m)) - (6 * (f m * w (Sum.inl m) - 1/2 * (f m * l (Sum.inl m) + f m * r (Sum.inl m))))) + four3rds * ((1/2 * q * E'.hi) * (1/2 * q * E'.hi) - (1/2 * q * v) * (1/2 * q * v)) * (6 * (f m * w (Sum.inl m) - 1/2 * (f m * l (Sum.inl m) + f m * r (Sum.inl m))))) (fun v m => by rw [hh]; ring),
        waves_sc h (· ≤ 0) (np_sp hs) (fun v m => (1/2 * (s * q) * E.hi - 1/2 * (s * q) * v) * (r (Sum.inl m) - l (Sum.inl m)))
          (fun v m => (1/2 * q * E'.hi - 1/2 * q * v) * (f m * r (Sum.inl m) - f m * l (Sum.inl m))) (fun v m => by rw [hh]; ring), hh, fmax_s0 hs]
      split_ifs <;> ring
  · funext n
    cases n with
    | inr s =>
      simp only [flipV, sg, Sum.elim_inr, one_mul, hl, pos_sp hs, neg_sp hs, fmin_s0 hs]; split_ifs <;> ring
    | inl m =>
      simp only [flipV, sg, Sum.elim_inl]
      rw [waves_sc h (· ≤ 0) (np_sp hs) (fun v m => (1/2 * (s * q) * E.lo - 1/2 * (s * q) * v) * ((r (Sum.inl m) - l (Sum.inl m)) + (6 * (w (Sum.inl m) - 1/2 * (l (Sum.inl m) + r (Sum.inl m))))) + four3rds * ((1/2 * (s * q) * E.lo) * (1/2 * (s * q) * E.lo) - (1/2 * (s * q) * v) * (1/2 * (s * q) * v)) * (6 * (w (Sum.inl m) - 1/2 * (l (Sum.inl m) + r (Sum.inl m)))))
          (fun v m => (1/2 * q * E'.lo - 1/2 * q * v) * ((f m * r (Sum.inl m) - f m * l (Sum.inl m)) + (6 * (f m * w (Sum.inl m) - 1/2 * (f m * l (Sum.inl m) + f m * r (Sum.inl m))))) + four3rds * ((1/2 * q * E'.lo) * (1/2 * q * E'.lo) - (1/2 * q * v) * (1/2 * q * v)) * (6 * (f m * w (Sum.inl m) - 1/2 * (f m * l (Sum.inl m) + f m * r (Sum.inl m))))) (fun v m => by rw [hl]; ring),
        waves_sc h (· ≥ 0) (nn_sp hs) (fun v m => (1/2 * (s * q) * E.lo - 1/2 * (s * q) * v) * (r (Sum.inl m) - l (Sum.inl m)))
          (fun v m => (1/2 * q * E'.lo - 1/2 * q * v) * (f m * r (Sum.inl m) - f m * l (Sum.inl m))) (fun v m => by rw [hl]; ring), hl, fmin_s0 hs]
      split_ifs <;> ring


end
end Athena.Recon
