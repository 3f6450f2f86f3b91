import Verif.Recon.Model
import Mathlib.Tactic.SplitIfs

/-! Lemmas for the reconstruction: loops, limiters, clipping. -/

namespace Athena.Recon
noncomputable section
open Athena.Hydro

/-- `x` lies between `a` and `b`. -/
def Between (a b x : ℝ) : Prop := min a b ≤ x ∧ x ≤ max a b

theorem Between.symm {a b x : ℝ} (h : Between a b x) : Between b a x := by
  unfold Between at *; rwa [min_comm, max_comm]

theorem Between.self {a x : ℝ} (h : Between a a x) : x = a := by
  unfold Between at h; simp at h; linarith

theorem between_left (a b : ℝ) : Between a b a := ⟨min_le_left _ _, le_max_left _ _⟩
theorem between_right (a b : ℝ) : Between a b b := ⟨min_le_right _ _, le_max_right _ _⟩

theorem clip_between (a b x : ℝ) : Between a b (clip a b x) := by
  unfold clip Between
  rw [fmin_eq, fmin_eq, fmax_eq, fmax_eq]
  have := min_le_max (a := a) (b := b)
  exact ⟨le_min this (le_max_left _ _), min_le_left _ _⟩

theorem clip_id {a b x : ℝ} (h : Between a b x) : clip a b x = x := by
  unfold clip
  rw [fmin_eq, fmin_eq, fmax_eq, fmax_eq, max_eq_right h.1, min_eq_right h.2]

theorem clip_same (a x : ℝ) : clip a a x = a := (clip_between a a x).self

theorem between_lerp {a b t : ℝ} (h0 : 0 ≤ t) (h1 : t ≤ 1) : Between a b (a + t * (b - a)) := by
  unfold Between
  rcases le_total a b with h | h
  · rw [min_eq_left h, max_eq_right h]; constructor <;> nlinarith
  · rw [min_eq_right h, max_eq_left h]; constructor <;> nlinarith

variable {k ns : ℕ}

/-! ## Loops -/

theorem forLoop_step {σ : Type} (lo hi : ℤ) (body : ℤ → σ → σ) (s : σ) (h : lo ≤ hi + 1) :
    forLoop lo (hi + 1) body s = body (hi + 1) (forLoop lo hi body s) := by
  unfold forLoop
  have e : (hi + 1 + 1 - lo).toNat = (hi + 1 - lo).toNat + 1 := by omega
  rw [e, List.range_succ, List.foldl_append]
  simp only [List.foldl_cons, List.foldl_nil]
  congr 1
  omega

theorem forLoop_empty {σ : Type} (lo hi : ℤ) (body : ℤ → σ → σ) (s : σ) (h : hi < lo) : forLoop lo hi body s = s := by
  unfold forLoop
  rw [show (hi + 1 - lo).toNat = 0 by omega]; rfl

/-- Induction over the turns of a loop. -/
theorem forLoop_ind {σ : Type} (lo : ℤ) (body : ℤ → σ → σ) (s : σ) (P : ℤ → σ → Prop) (h0 : P lo s)
    (hs : ∀ i s, lo ≤ i → P i s → P (i + 1) (body i s)) (hi : ℤ) (h : lo ≤ hi + 1) : P (hi + 1) (forLoop lo hi body s) := by
  obtain ⟨n, hn⟩ : ∃ n : ℕ, hi + 1 = lo + n := ⟨(hi + 1 - lo).toNat, by omega⟩
  induction n generalizing hi with
  | zero => rw [forLoop_empty _ _ _ _ (by omega)]; rw [hn]; simpa using h0
  | succ n ih =>
    obtain ⟨hj, rfl⟩ : ∃ hj, hi = hj + 1 := ⟨hi - 1, by ring⟩
    rw [forLoop_step _ _ _ _ (by omega)]
    exact hs _ _ (by omega) (ih hj (by omega) (by push_cast at hn; omega))

theorem forLoop_upd {α : Type} (f : ℤ → α) (lo hi : ℤ) (a : ℤ → α) (j : ℤ) :
    forLoop lo hi (fun i a => upd a i (f i)) a j = if lo ≤ j ∧ j ≤ hi then f j else a j := by
  by_cases h : lo ≤ hi + 1
  · have := forLoop_ind lo (fun i a => upd a i (f i)) a (fun i a' => ∀ j, a' j = if lo ≤ j ∧ j < i then f j else a j)
      (fun j => by rw [if_neg (by omega)])
      (fun i s hi ih j => by
        unfold upd
        by_cases e : j = i
        · subst e; rw [if_pos rfl, if_pos (by omega)]
        · rw [if_neg e, ih]
          by_cases c : lo ≤ j ∧ j < i
          · rw [if_pos c, if_pos (by omega)]
          · rw [if_neg c, if_neg (by omega)]) hi h j
    rw [this]
    by_cases c : lo ≤ j ∧ j ≤ hi
    · rw [if_pos (by omega), if_pos c]
    · rw [if_neg (by omega), if_neg c]
  · rw [forLoop_empty _ _ _ _ (by omega), if_neg (by omega)]

/-- The output of a loop that stores `f i` in `Wl[i+1]`, `Wr[i]`. -/
theorem forLoop_put (f : ℤ → Vec k ns × Vec k ns) (lo hi : ℤ) (o : Out k ns) (j : ℤ) :
    (forLoop lo hi (fun i o => o.put i (f i)) o).Wl j = (if lo + 1 ≤ j ∧ j ≤ hi + 1 then (f (j - 1)).1 else o.Wl j) ∧
    (forLoop lo hi (fun i o => o.put i (f i)) o).Wr j = (if lo ≤ j ∧ j ≤ hi then (f j).2 else o.Wr j) := by
  by_cases h : lo ≤ hi + 1
  · have := forLoop_ind lo (fun i o => o.put i (f i)) o
      (fun i o' => ∀ j, o'.Wl j = (if lo + 1 ≤ j ∧ j < i + 1 then (f (j - 1)).1 else o.Wl j) ∧
        o'.Wr j = if lo ≤ j ∧ j < i then (f j).2 else o.Wr j)
      (fun j => by rw [if_neg (by omega), if_neg (by omega)]; exact ⟨rfl, rfl⟩)
      (fun i s hi ih j => by
        unfold Out.put upd
        dsimp only
        constructor
        · by_cases e : j = i + 1
          · subst e; rw [if_pos rfl, if_pos (by omega)]; simp
          · rw [if_neg e, (ih j).1]
            by_cases c : lo + 1 ≤ j ∧ j < i + 1
            · rw [if_pos c, if_pos (by omega)]
            · rw [if_neg c, if_neg (by omega)]
        · by_cases e : j = i
          · subst e; rw [if_pos rfl, if_pos (by omega)]
          · rw [if_neg e, (ih j).2]
            by_cases c : lo ≤ j ∧ j < i
            · rw [if_pos c, if_pos (by omega)]
            · rw [if_neg c, if_neg (by omega)]) hi h j
    rw [this.1, this.2]
    constructor
    · by_cases c : lo + 1 ≤ j ∧ j ≤ hi + 1
      · rw [if_pos (by omega), if_pos c]
      · rw [if_neg (by omega), if_neg c]
    · by_cases c : lo ≤ j ∧ j ≤ hi
      · rw [if_pos (by omega), if_pos c]
      · rw [if_neg (by omega), if_neg c]
  · rw [forLoop_empty _ _ _ _ (by omega), if_neg (by omega), if_neg (by omega)]; exact ⟨rfl, rfl⟩

/-! ## Limiters -/

theorem vanLeer_le {l r : ℝ} (h : l * r > 0) : |vanLeer l r| ≤ 1/2 * |l + r| ∧ |vanLeer l r| ≤ 2 * |l| ∧ |vanLeer l r| ≤ 2 * |r| := by
  unfold vanLeer
  rw [if_pos h]
  have key : ∀ l r : ℝ, 0 < l → 0 < r → 2 * l * r / (l + r) ≤ 1/2 * (l + r) ∧ 2 * l * r / (l + r) ≤ 2 * l ∧ 2 * l * r / (l + r) ≤ 2 * r ∧
      0 ≤ 2 * l * r / (l + r) := by
    intro l r hl hr
    have hs : 0 < l + r := by linarith
    refine ⟨?_, ?_, ?_, by positivity⟩ <;> rw [div_le_iff₀ hs]
    · nlinarith [sq_nonneg (l - r)]
    · nlinarith
    · nlinarith
  rcases pos_and_pos_or_neg_and_neg_of_mul_pos h with ⟨hl, hr⟩ | ⟨hl, hr⟩
  · obtain ⟨a, b, c, d⟩ := key l r hl hr
    rw [abs_of_nonneg d, abs_of_pos hl, abs_of_pos hr, abs_of_pos (by linarith)]
    exact ⟨a, b, c⟩
  · obtain ⟨a, b, c, d⟩ := key (-l) (-r) (by linarith) (by linarith)
    have e : 2 * l * r / (l + r) = -(2 * -l * -r / (-l + -r)) := by
      rw [show -l + -r = -(l + r) by ring, div_neg, neg_neg]; congr 1; ring
    rw [e, abs_neg, abs_of_nonneg d, abs_of_neg hl, abs_of_neg hr, abs_of_neg (by linarith)]
    refine ⟨by linarith, by linarith, by linarith⟩

/-- The limited slope of differences `l`, `r` of the same sign has their sign and is at most twice either. -/
theorem limit_spec (l r g : ℝ) : ∃ t u : ℝ, 0 ≤ t ∧ t ≤ 1 ∧ 0 ≤ u ∧ u ≤ 1 ∧ 1/2 * limit (l + r) l r g = t * l ∧
    1/2 * limit (l + r) l r g = u * r := by
  unfold limit
  by_cases h : l * r > 0
  · rw [if_pos h]
    simp only [fmin_eq]
    set m := min (2 * min |l| |r|) (min (1/2 * |l + r|) |g|)
    have m0 : 0 ≤ m := by
      apply le_min
      · have := le_min (abs_nonneg l) (abs_nonneg r); linarith
      · exact le_min (by positivity) (abs_nonneg _)
    have ml : m ≤ 2 * |l| := (min_le_left _ _).trans (by have := min_le_left |l| |r|; linarith)
    have mr : m ≤ 2 * |r| := (min_le_left _ _).trans (by have := min_le_right |l| |r|; linarith)
    rcases pos_and_pos_or_neg_and_neg_of_mul_pos h with ⟨hl, hr⟩ | ⟨hl, hr⟩
    · rw [abs_of_pos hl] at ml; rw [abs_of_pos hr] at mr
      have : sgn (l + r) = 1 := by unfold sgn; rw [if_neg (by linarith)]
      rw [this]
      refine ⟨m / (2 * l), m / (2 * r), by positivity, ?_, by positivity, ?_, by field_simp, by field_simp⟩
      · rw [div_le_one (by positivity)]; exact ml
      · rw [div_le_one (by positivity)]; exact mr
    · rw [abs_of_neg hl] at ml; rw [abs_of_neg hr] at mr
      have : sgn (l + r) = -1 := by unfold sgn; rw [if_pos (by linarith)]
      rw [this]
      have hl' : 0 < -l := by linarith
      have hr' : 0 < -r := by linarith
      have hl2 := hl.ne
      have hr2 := hr.ne
      refine ⟨m / (2 * -l), m / (2 * -r), by positivity, ?_, by positivity, ?_, by field_simp, by field_simp⟩
      · rw [div_le_one (by positivity)]; linarith
      · rw [div_le_one (by positivity)]; linarith
  · rw [if_neg h]; exact ⟨0, 0, le_rfl, by norm_num, le_rfl, by norm_num, by ring, by ring⟩

theorem limit_zero (g : ℝ) : limit 0 0 0 g = 0 := by unfold limit; simp

theorem limit_linear (s : ℝ) : limit (2 * s) s s (vanLeer s s) = s := by
  unfold limit vanLeer
  by_cases h : s * s > 0
  · rw [if_pos h, if_pos h]
    have hs : s ≠ 0 := by rintro rfl; simp at h
    have e : 2 * s * s / (s + s) = s := by field_simp; ring
    rw [e]
    simp only [fmin_eq, min_self, abs_mul]
    rw [show (1/2 : ℝ) * (|2| * |s|) = |s| by norm_num; ring, min_self, min_eq_right (by have := abs_nonneg s; linarith)]
    unfold sgn
    rcases lt_or_gt_of_ne hs with c | c
    · rw [if_pos (by linarith), abs_of_neg c]; ring
    · rw [if_neg (by linarith), abs_of_pos c]; ring
  · rw [if_neg h]
    nlinarith [mul_self_nonneg s, mul_self_eq_zero.mp (le_antisymm (not_lt.mp h) (mul_self_nonneg s))]

/-! ## Single zones -/

theorem prim2Zone_between (a b c : ℝ) : Between b a (prim2Zone a b c).1 ∧ Between b c (prim2Zone a b c).2 :=
  ⟨clip_between _ _ _, clip_between _ _ _⟩

/-- The profile in a zone is centred on the zone's value: the final clipping never acts. -/
theorem prim2Zone_mean (a b c : ℝ) : ((prim2Zone a b c).1 + (prim2Zone a b c).2) / 2 = b := by
  unfold prim2Zone
  dsimp only
  obtain ⟨t, u, ht0, ht1, hu0, hu1, et, eu⟩ := limit_spec (b - a) (c - b) (vanLeer (b - a) (c - b))
  rw [show b - a + (c - b) = c - a by ring] at et eu
  rw [clip_id, clip_id]
  · ring
  · rw [eu]; exact between_lerp hu0 hu1
  · rw [et, show b - t * (b - a) = b + t * (a - b) by ring]; exact between_lerp ht0 ht1

theorem plmZone_mean (a b c m : ℝ) : ((plmZone a b c m).1 + (plmZone a b c m).2) / 2 = b := by
  unfold plmZone; dsimp only; ring

theorem plmZone_between (a b c m : ℝ) : Between b a (plmZone a b c m).1 ∧ Between b c (plmZone a b c m).2 := by
  unfold plmZone
  dsimp only
  refine ⟨?_, clip_between _ _ _⟩
  rw [show b + 1/2 * m + (b - 1/2 * m) = 2 * b by ring]
  have h1 := clip_between b a (b - 1/2 * m)
  set x := clip b a (b - 1/2 * m)
  unfold clip Between at *
  simp only [fmin_eq, fmax_eq]
  rcases le_total b a with ha | ha <;> rcases le_total b c with hc | hc <;>
    simp only [min_eq_left, min_eq_right, max_eq_left, max_eq_right, ha, hc] at h1 ⊢
  · rw [max_eq_left (show 2 * b - x ≤ b by linarith), min_eq_right hc]; constructor <;> linarith
  · rw [min_eq_right (show max c (2 * b - x) ≤ b from max_le hc (by linarith))]
    rcases le_total c (2 * b - x) with h | h
    · rw [max_eq_right h]; constructor <;> linarith
    · rw [max_eq_left h]; constructor <;> linarith
  · rw [max_eq_right (show b ≤ 2 * b - x by linarith)]
    rcases le_total c (2 * b - x) with h | h
    · rw [min_eq_left h]; constructor <;> linarith
    · rw [min_eq_right h]; constructor <;> linarith
  · rw [min_eq_left (show b ≤ max c (2 * b - x) from (by linarith : b ≤ 2 * b - x).trans (le_max_right _ _))]; constructor <;> linarith

theorem koren_spec (th : ℝ) : 0 ≤ koren th ∧ koren th ≤ 1 := by
  unfold koren
  rw [fmax_eq]
  refine ⟨le_max_right _ _, max_le ?_ (by norm_num)⟩
  rw [fmin_eq]; exact min_le_right _ _

theorem limO3_spec {th eta : ℝ} (h : eta ≥ 1) : 0 ≤ limO3 th eta ∧ limO3 th eta ≤ 1 := by
  unfold limO3
  dsimp only
  rw [if_pos h]
  simp only [fmax_eq, fmin_eq]
  refine ⟨le_max_right _ _, max_le ?_ (by norm_num)⟩
  rcases le_total 0 th with h0 | h0
  · refine (min_le_right _ _).trans (max_le (by linarith) ?_)
    exact (min_le_right _ _).trans ((min_le_right _ _).trans (by norm_num))
  · exact (min_le_left _ _).trans (by linarith)

end
end Athena.Recon
