import Verif.Io.Pdf
import Mathlib.Algebra.BigOperators.Group.Finset.Basic
import Mathlib.Algebra.Order.BigOperators.Group.List
import Mathlib.Algebra.BigOperators.Field
import Mathlib.Tactic.NormNum

/-!
# C96: the file of the distribution of a variable describes the data
-/

namespace Athena.Pdf
open Athena.Pos (toInt)

/-! ## Specification -/

/-- The mean. -/
noncomputable def avg (x : List ℝ) : ℝ := x.sum / x.length
/-- The sum of the powers of the deviations from the mean. -/
noncomputable def dev (k : ℕ) (x : List ℝ) : ℝ := (x.map fun y => (y - avg x) ^ k).sum
/-- The variance, 0 for a single value. -/
noncomputable def variance (x : List ℝ) : ℝ := if x.length = 1 then 0 else dev 2 x / ((x.length : ℝ) - 1)

/-- `y` lies in bin `n` of `B` equal bins from `a` to `b`; the last is closed. -/
def InBin (a b : ℝ) (B n : ℕ) (y : ℝ) : Prop :=
  a + n * ((b - a) / B) ≤ y ∧ (y < a + (n + 1) * ((b - a) / B) ∨ n + 1 = B)

open Classical in
/-- The number of values in bin `n`. -/
noncomputable def countIn (a b : ℝ) (B n : ℕ) (x : List ℝ) : ℕ := x.countP fun y => decide (InBin a b B n y)

/-- The file holds extremes, mean, variance, standard deviation, skewness and kurtosis of the values `x`, and the distribution on `B` bins. -/
structure Shape (f : File) (B : ℕ) (x : List ℝ) : Prop where
  lo : f.dmin ∈ x ∧ ∀ y ∈ x, f.dmin ≤ y
  hi : f.dmax ∈ x ∧ ∀ y ∈ x, y ≤ f.dmax
  mean : f.mean = avg x
  var : f.var = variance x
  sdev : f.sdev = √(variance x)
  skew : f.skew = if variance x = 0 then 0 else dev 3 x / (x.length * √(variance x) ^ 3)
  kurt : f.kurt = if variance x = 0 then 0 else dev 4 x / (x.length * √(variance x) ^ 4) - 3
  nbin : f.nbin = if f.dmin < f.dmax then B else 1
  rows : f.rows = if f.dmin < f.dmax then
      (List.range B).map fun n : ℕ => (f.dmin + ((n : ℝ) + 1/2) * ((f.dmax - f.dmin) / B),
        (countIn f.dmin f.dmax B n x : ℝ) / (x.length * ((f.dmax - f.dmin) / B)))
    else [(f.dmax, 1)]
  /-- The distribution integrates to one. -/
  mass : f.dmin < f.dmax → (f.rows.map fun r => r.2 * ((f.dmax - f.dmin) / B)).sum = 1

/-- The file also holds the mean absolute deviation. -/
def AvgDev (f : File) (x : List ℝ) : Prop := f.adev = (x.map fun y => |y - avg x|).sum / x.length

/-! ## Lemmas -/

theorem minOf_spec (d : ℝ) (l : List ℝ) : (minOf d l = d ∨ minOf d l ∈ l) ∧ minOf d l ≤ d ∧ ∀ y ∈ l, minOf d l ≤ y := by
  induction l generalizing d with
  | nil => exact ⟨.inl rfl, le_rfl, by simp⟩
  | cons x l ih =>
    have e : minOf d (x :: l) = minOf (if x < d then x else d) l := rfl
    rw [e]
    obtain ⟨h1, h2, h3⟩ := ih (if x < d then x else d)
    split_ifs at * with h
    · refine ⟨?_, by linarith, ?_⟩
      · rcases h1 with h1 | h1
        · exact .inr (by rw [h1]; exact List.mem_cons_self)
        · exact .inr (List.mem_cons_of_mem _ h1)
      · intro y hy
        rcases List.mem_cons.1 hy with rfl | hy
        · exact h2
        · exact h3 y hy
    · refine ⟨?_, h2, ?_⟩
      · rcases h1 with h1 | h1
        · exact .inl h1
        · exact .inr (List.mem_cons_of_mem _ h1)
      · intro y hy
        rcases List.mem_cons.1 hy with rfl | hy
        · linarith
        · exact h3 y hy

theorem maxOf_spec (d : ℝ) (l : List ℝ) : (maxOf d l = d ∨ maxOf d l ∈ l) ∧ d ≤ maxOf d l ∧ ∀ y ∈ l, y ≤ maxOf d l := by
  induction l generalizing d with
  | nil => exact ⟨.inl rfl, le_rfl, by simp⟩
  | cons x l ih =>
    have e : maxOf d (x :: l) = maxOf (if x > d then x else d) l := rfl
    rw [e]
    obtain ⟨h1, h2, h3⟩ := ih (if x > d then x else d)
    split_ifs at * with h
    · refine ⟨?_, by linarith, ?_⟩
      · rcases h1 with h1 | h1
        · exact .inr (by rw [h1]; exact List.mem_cons_self)
        · exact .inr (List.mem_cons_of_mem _ h1)
      · intro y hy
        rcases List.mem_cons.1 hy with rfl | hy
        · exact h2
        · exact h3 y hy
    · refine ⟨?_, h2, ?_⟩
      · rcases h1 with h1 | h1
        · exact .inl h1
        · exact .inr (List.mem_cons_of_mem _ h1)
      · intro y hy
        rcases List.mem_cons.1 hy with rfl | hy
        · linarith
        · exact h3 y hy

/-- `m` is the least of `x`. -/
def Least (m : ℝ) (x : List ℝ) : Prop := m ∈ x ∧ ∀ y ∈ x, m ≤ y
/-- `m` is the greatest of `x`. -/
def Greatest (m : ℝ) (x : List ℝ) : Prop := m ∈ x ∧ ∀ y ∈ x, y ≤ m

theorem Least.unique {m m' : ℝ} {x : List ℝ} (h : Least m x) (h' : Least m' x) : m = m' :=
  le_antisymm (h.2 _ h'.1) (h'.2 _ h.1)
theorem Greatest.unique {m m' : ℝ} {x : List ℝ} (h : Greatest m x) (h' : Greatest m' x) : m = m' :=
  le_antisymm (h'.2 _ h.1) (h.2 _ h'.1)

theorem minOf_least (d : ℝ) (l : List ℝ) : Least (minOf d (d :: l)) (d :: l) := by
  obtain ⟨h1, -, h3⟩ := minOf_spec d (d :: l)
  refine ⟨?_, h3⟩
  rcases h1 with h1 | h1
  · rw [h1]; exact List.mem_cons_self
  · exact h1
theorem maxOf_greatest (d : ℝ) (l : List ℝ) : Greatest (maxOf d (d :: l)) (d :: l) := by
  obtain ⟨h1, -, h3⟩ := maxOf_spec d (d :: l)
  refine ⟨?_, h3⟩
  rcases h1 with h1 | h1
  · rw [h1]; exact List.mem_cons_self
  · exact h1

theorem sumFrom_eq (m : ℝ) (l : List ℝ) : sumFrom m l = m + l.sum := by
  induction l generalizing m with
  | nil => simp [sumFrom]
  | cons x l ih =>
    have e : sumFrom m (x :: l) = sumFrom (m + x) l := rfl
    rw [e, ih, List.sum_cons]; ring

theorem moments_eq (m : ℝ) (a : Acc) (l : List ℝ) : moments m a l =
    { a with adev := a.adev + (l.map fun y => |y - m|).sum, ep := a.ep + (l.map fun y => (y - m) ^ 1).sum
             var := a.var + (l.map fun y => (y - m) ^ 2).sum, skew := a.skew + (l.map fun y => (y - m) ^ 3).sum
             kurt := a.kurt + (l.map fun y => (y - m) ^ 4).sum } := by
  induction l generalizing a with
  | nil => simp [moments]
  | cons x l ih =>
    have e : moments m a (x :: l) = moments m { a with adev := a.adev + |x - m|, ep := a.ep + (x - m), var := a.var + (x - m) * (x - m), skew := a.skew + (x - m) * (x - m) * (x - m), kurt := a.kurt + (x - m) * (x - m) * (x - m) * (x - m) } l := rfl
    rw [e, ih]
    simp only [List.map_cons, List.sum_cons, Acc.mk.injEq, true_and, and_true]
    refine ⟨by ring, by ring, by ring, by ring, by ring⟩

theorem dev_one (x : List ℝ) (hx : x ≠ []) : dev 1 x = 0 := by
  have e : ∀ (m : ℝ) (l : List ℝ), (l.map fun y => (y - m) ^ 1).sum = l.sum - l.length * m := by
    intro m l
    induction l with
    | nil => simp
    | cons y l ih => simp only [List.map_cons, List.sum_cons, ih, List.length_cons]; push_cast; ring
  have hN : (x.length : ℝ) ≠ 0 := by
    have := List.length_pos_iff.2 hx
    positivity
  unfold dev
  rw [e]
  unfold avg
  field_simp
  ring

theorem dev_two_nonneg (x : List ℝ) : 0 ≤ dev 2 x := by
  unfold dev
  apply List.sum_nonneg
  intro z hz
  obtain ⟨y, -, rfl⟩ := List.mem_map.1 hz
  positivity

theorem variance_nonneg (x : List ℝ) (hx : x ≠ []) : 0 ≤ variance x := by
  unfold variance
  split_ifs with h
  · exact le_rfl
  · have h1 := List.length_pos_iff.2 hx
    have : (2 : ℝ) ≤ x.length := by exact_mod_cast (by omega : 2 ≤ x.length)
    exact div_nonneg (dev_two_nonneg x) (by linarith)

/-- No variance: all values equal the mean. -/
theorem dev_zero (x : List ℝ) (hx : x ≠ []) (h : variance x = 0) {k : ℕ} (hk : k ≠ 0) : dev k x = 0 := by
  have key : ∀ y ∈ x, y - avg x = 0 := by
    unfold variance at h
    split_ifs at h with h1
    · obtain ⟨z, rfl⟩ := List.length_eq_one_iff.1 h1
      intro y hy
      rw [List.mem_singleton.1 hy]
      simp [avg]
    · have h0 := List.length_pos_iff.2 hx
      have : (2 : ℝ) ≤ x.length := by exact_mod_cast (by omega : 2 ≤ x.length)
      have h2 : dev 2 x = 0 := by
        rcases div_eq_zero_iff.1 h with h | h
        · exact h
        · linarith
      intro y hy
      have h3 : (y - avg x) ^ 2 ≤ dev 2 x := by
        unfold dev
        refine List.single_le_sum ?_ _ (List.mem_map.2 ⟨y, hy, rfl⟩)
        intro z hz
        obtain ⟨w, -, rfl⟩ := List.mem_map.1 hz
        positivity
      rw [h2] at h3
      exact pow_eq_zero_iff (two_ne_zero) |>.1 (le_antisymm h3 (sq_nonneg _))
  unfold dev
  apply List.sum_eq_zero
  intro z hz
  obtain ⟨y, hy, rfl⟩ := List.mem_map.1 hz
  rw [key y hy, zero_pow hk]

/-- The statistics of the data. -/
theorem norms_spec (x : List ℝ) (hx : 1 < x.length) (a : Acc) (hm : a.mean = avg x) (he : a.ep = dev 1 x) (hv : a.var = dev 2 x)
    (hs : a.skew = dev 3 x) (hk : a.kurt = dev 4 x) :
    let b := norms x.length a
    b.mean = avg x ∧ b.var = variance x ∧ b.sdev = √(variance x) ∧ b.adev = a.adev / x.length ∧
    b.skew = (if variance x = 0 then 0 else dev 3 x / (x.length * √(variance x) ^ 3)) ∧
    b.kurt = (if variance x = 0 then 0 else dev 4 x / (x.length * √(variance x) ^ 4) - 3) := by
  have hne : x ≠ [] := List.length_pos_iff.1 (by omega)
  have e : (a.var - a.ep * a.ep / x.length) / ((x.length : ℝ) - 1) = variance x := by
    unfold variance
    rw [if_neg (by omega), he, dev_one x hne, hv]
    simp
  have h0 := variance_nonneg x hne
  intro b
  change (norms x.length a).mean = _ ∧ (norms x.length a).var = _ ∧ (norms x.length a).sdev = _ ∧ (norms x.length a).adev = _ ∧
    (norms x.length a).skew = _ ∧ (norms x.length a).kurt = _
  unfold norms
  simp only [e]
  by_cases hz : variance x = 0
  · have : ¬ √(variance x) > 0 := by rw [hz]; simp
    rw [if_neg this, if_pos hz, if_pos hz]
    exact ⟨hm, rfl, rfl, rfl, by rw [hs]; exact dev_zero x hne hz (by norm_num), by rw [hk]; exact dev_zero x hne hz (by norm_num)⟩
  · have : √(variance x) > 0 := Real.sqrt_pos.2 (lt_of_le_of_ne h0 (Ne.symm hz))
    rw [if_pos this, if_neg hz, if_neg hz]
    have q : √(variance x) * √(variance x) = variance x := Real.mul_self_sqrt h0
    have q3 : variance x * √(variance x) * (x.length : ℝ) = x.length * √(variance x) ^ 3 := by
      calc _ = (√(variance x) * √(variance x)) * √(variance x) * (x.length : ℝ) := by rw [q]
        _ = _ := by ring
    have q4 : variance x * variance x * (x.length : ℝ) = x.length * √(variance x) ^ 4 := by
      calc _ = (√(variance x) * √(variance x)) * (√(variance x) * √(variance x)) * (x.length : ℝ) := by rw [q]
        _ = _ := by ring
    exact ⟨hm, rfl, rfl, rfl, by rw [hs, ← q3], by rw [hk, ← q4]⟩

/-- The index of the bin of `y`. -/
theorem bin_index {a b y : ℝ} {B : ℕ} (hab : a < b) (hB : 0 < B) (hB' : B ≤ 2147483647) (h1 : a ≤ y) (h2 : y ≤ b) :
    ∃ i : ℕ, i < B ∧ (do
      let i ← toInt (B / (b - a) * (y - a))
      let i := if i < B then i else (B : ℤ) - 1
      return i : Res ℤ) = .ok (i : ℤ) ∧ ∀ n, n < B → (InBin a b B n y ↔ n = i) := by
  have hd : 0 < b - a := by linarith
  have hBr : (0 : ℝ) < B := by exact_mod_cast hB
  obtain ⟨t, ht⟩ : ∃ t, t = (B : ℝ) / (b - a) * (y - a) := ⟨_, rfl⟩
  have ht0 : 0 ≤ t := by rw [ht]; exact mul_nonneg (div_nonneg hBr.le hd.le) (by linarith)
  have htB : t ≤ B := by
    rw [ht, div_mul_eq_mul_div, div_le_iff₀ hd]
    exact mul_le_mul_of_nonneg_left (by linarith) hBr.le
  have hy : y = a + t * ((b - a) / B) := by rw [ht]; field_simp; ring
  have hδ : 0 < (b - a) / B := div_pos hd hBr
  have hin : ∀ n : ℕ, InBin a b B n y ↔ ((n : ℝ) ≤ t ∧ (t < n + 1 ∨ n + 1 = B)) := by
    intro n
    unfold InBin
    rw [hy]
    constructor
    · rintro ⟨p, q⟩
      refine ⟨le_of_mul_le_mul_right (by linarith) hδ, q.imp (fun q => lt_of_mul_lt_mul_right (by linarith) hδ.le) id⟩
    · rintro ⟨p, q⟩
      refine ⟨by have := mul_le_mul_of_nonneg_right p hδ.le; linarith, q.imp (fun q => ?_) id⟩
      have := mul_lt_mul_of_pos_right q hδ
      linarith
  obtain ⟨f, hf⟩ : ∃ f, f = ⌊t⌋ := ⟨_, rfl⟩
  have f0 : 0 ≤ f := by rw [hf]; exact Int.floor_nonneg.2 ht0
  have f1 : (f : ℝ) ≤ t := by rw [hf]; exact Int.floor_le t
  have f2 : t < f + 1 := by rw [hf]; exact Int.lt_floor_add_one t
  have fB : f ≤ B := by
    have : (f : ℝ) ≤ (B : ℤ) := le_trans f1 (by exact_mod_cast htB)
    exact_mod_cast this
  have hto : toInt (B / (b - a) * (y - a)) = .ok f := by
    rw [← ht]
    exact Pos.toInt_floor f0 (by omega) f1 f2
  rw [hto]
  by_cases c : f < B
  · refine ⟨f.toNat, by omega, ?_, ?_⟩
    · simp only [Res.bind_ok, Res.pure_eq_ok, if_pos c]
      rw [Int.toNat_of_nonneg f0]
    · intro n hn
      rw [hin]
      have hfn : ((f.toNat : ℕ) : ℝ) = (f : ℝ) := by
        have : ((f.toNat : ℤ) : ℝ) = (f : ℝ) := by rw [Int.toNat_of_nonneg f0]
        exact_mod_cast this
      constructor
      · rintro ⟨p, q⟩
        have u1 : (n : ℤ) ≤ f := by
          rw [hf]; exact Int.le_floor.2 (by exact_mod_cast p)
        rcases q with q | q
        · have u2 : f < n + 1 := by
            have : (f : ℝ) < ((n + 1 : ℤ) : ℝ) := lt_of_le_of_lt f1 (by push_cast; exact_mod_cast q)
            exact_mod_cast this
          omega
        · omega
      · rintro rfl
        rw [hfn]
        exact ⟨f1, .inl f2⟩
  · have hfB : f = B := by omega
    refine ⟨B - 1, by omega, ?_, ?_⟩
    · simp only [Res.bind_ok, Res.pure_eq_ok, if_neg c]
      congr 1
      omega
    · intro n hn
      rw [hin]
      have htB' : t = B := le_antisymm htB (by rw [hfB] at f1; exact_mod_cast f1)
      constructor
      · rintro ⟨p, q⟩
        rcases q with q | q
        · rw [htB'] at q
          have : B < n + 1 := by exact_mod_cast q
          omega
        · omega
      · rintro rfl
        refine ⟨?_, .inr (by omega)⟩
        rw [htB']
        exact_mod_cast Nat.sub_le B 1

theorem hist_ok {a b : ℝ} {B : ℕ} (hab : a < b) (hB : 0 < B) (hB' : B ≤ 2147483647) (l : List ℝ) (h : ∀ y ∈ l, a ≤ y ∧ y ≤ b) (p : ℕ → ℕ) :
    ∃ q, hist B a (B / (b - a)) p l = .ok q ∧ (∀ n, n < B → q n = p n + countIn a b B n l) ∧
      ∑ n ∈ Finset.range B, q n = ∑ n ∈ Finset.range B, p n + l.length := by
  induction l generalizing p with
  | nil => exact ⟨p, rfl, fun n _ => by simp [countIn], by simp⟩
  | cons y l ih =>
    obtain ⟨h1, h2⟩ := h y List.mem_cons_self
    obtain ⟨i, hi, ei, hin⟩ := bin_index hab hB hB' h1 h2
    obtain ⟨q, hq, hc, hs⟩ := ih (fun z hz => h z (List.mem_cons_of_mem _ hz)) (Function.update p i (p i + 1))
    refine ⟨q, ?_, ?_, ?_⟩
    · unfold hist
      cases e : toInt (B / (b - a) * (y - a)) with
      | fatal => rw [e] at ei; cases ei
      | ub => rw [e] at ei; cases ei
      | ok j =>
        rw [e] at ei
        simp only [Res.bind_ok, Res.pure_eq_ok, Res.ok.injEq] at ei
        rw [Res.bind_ok]
        simp only [ei]
        unfold incr
        rw [if_pos ⟨by omega, by omega⟩, Res.bind_ok]
        simp only [Int.toNat_natCast]
        exact hq
    · intro n hn
      rw [hc n hn]
      have e : countIn a b B n (y :: l) = countIn a b B n l + if n = i then 1 else 0 := by
        unfold countIn
        rw [List.countP_cons]
        simp only [decide_eq_true_eq, hin n hn]
      rw [e]
      by_cases hni : n = i
      · subst hni; simp; omega
      · simp [hni]
    · rw [hs]
      have e : ∀ n, Function.update p i (p i + 1) n = p n + if n = i then 1 else 0 := by
        intro n
        by_cases hni : n = i
        · subst hni; simp
        · simp [hni]
      simp only [e, Finset.sum_add_distrib, Finset.sum_ite_eq', Finset.mem_range, hi, if_true, List.length_cons]
      omega

theorem range_sum (f : ℕ → ℝ) (B : ℕ) : ((List.range B).map f).sum = ∑ n ∈ Finset.range B, f n := by
  induction B with
  | zero => simp
  | succ B ih => rw [List.range_succ, List.map_append, List.sum_append, ih, Finset.sum_range_succ]; simp

/-- The columns of the file. -/
theorem write_rows {x : List ℝ} {a b : ℝ} {B : ℕ} {acc : Acc} {p : ℕ → ℕ} (hx : x ≠ []) (hab : a < b) (hB : 0 < B)
    (hp : ∀ n, n < B → p n = countIn a b B n x) (hs : ∑ n ∈ Finset.range B, p n = x.length) :
    (write B x.length a b acc p).rows = (List.range B).map (fun n : ℕ => (a + ((n : ℝ) + 1/2) * ((b - a) / B),
        (countIn a b B n x : ℝ) / (x.length * ((b - a) / B)))) ∧
    ((write B x.length a b acc p).rows.map fun r => r.2 * ((b - a) / B)).sum = 1 := by
  have hd : b - a > 0 := by linarith
  have hBr : (B : ℝ) ≠ 0 := by positivity
  have hN : (x.length : ℝ) ≠ 0 := by have := List.length_pos_iff.2 hx; positivity
  have hd' := hd.ne'
  have e1 : (write B x.length a b acc p).rows = (List.range B).map (fun n : ℕ => (a + ((n : ℝ) + 1/2) * ((b - a) / B),
        (countIn a b B n x : ℝ) / (x.length * ((b - a) / B)))) := by
    simp only [write, if_pos hd]
    apply List.map_congr_left
    intro n hn
    rw [hp n (List.mem_range.1 hn)]
    simp only [Prod.mk.injEq, true_and]
    field_simp
  refine ⟨e1, ?_⟩
  rw [e1, List.map_map]
  simp only [Function.comp_def]
  rw [range_sum]
  have e2 : ∀ n ∈ Finset.range B, (countIn a b B n x : ℝ) / (x.length * ((b - a) / B)) * ((b - a) / B) = (p n : ℝ) / x.length := by
    intro n hn
    rw [hp n (Finset.mem_range.1 hn)]
    field_simp
  rw [Finset.sum_congr rfl e2, ← Finset.sum_div, ← Nat.cast_sum, hs, div_self hN]

theorem bins_ok {x : List ℝ} {a b : ℝ} {B : ℕ} (hB : 0 < B) (hB' : B ≤ 2147483647) (h : ∀ y ∈ x, a ≤ y ∧ y ≤ b) :
    ∃ q, bins B a b x = .ok q ∧ (a < b → (∀ n, n < B → q n = countIn a b B n x) ∧ ∑ n ∈ Finset.range B, q n = x.length) := by
  unfold bins
  by_cases hab : a < b
  · rw [if_pos (by linarith)]
    obtain ⟨q, hq, h1, h2⟩ := hist_ok hab hB hB' x h (fun _ => 0)
    exact ⟨q, hq, fun _ => ⟨fun n hn => by rw [h1 n hn]; omega, by rw [h2]; simp⟩⟩
  · rw [if_neg (by linarith)]
    exact ⟨_, rfl, fun h' => absurd h' hab⟩

/-- A file with the right extremes, statistics and bins has the right shape. -/
theorem write_shape {x : List ℝ} {a b : ℝ} {B : ℕ} {acc : Acc} {p : ℕ → ℕ} (hx : x ≠ []) (hB : 0 < B) (hlo : Least a x) (hhi : Greatest b x)
    (hm : acc.mean = avg x) (hv : acc.var = variance x) (hsd : acc.sdev = √(variance x))
    (hsk : acc.skew = if variance x = 0 then 0 else dev 3 x / (x.length * √(variance x) ^ 3))
    (hku : acc.kurt = if variance x = 0 then 0 else dev 4 x / (x.length * √(variance x) ^ 4) - 3)
    (hp : a < b → (∀ n, n < B → p n = countIn a b B n x) ∧ ∑ n ∈ Finset.range B, p n = x.length) :
    Shape (write B x.length a b acc p) B x where
  lo := hlo
  hi := hhi
  mean := hm
  var := hv
  sdev := hsd
  skew := hsk
  kurt := hku
  nbin := by
    change (if b - a > 0 then B else 1) = if a < b then B else 1
    simp only [gt_iff_lt, sub_pos]
  rows := by
    change (write B x.length a b acc p).rows = if a < b then _ else [(b, 1)]
    by_cases hab : a < b
    · rw [if_pos hab]
      exact (write_rows hx hab hB (hp hab).1 (hp hab).2).1
    · rw [if_neg hab]
      simp only [write]
      rw [if_neg (by linarith)]
  mass := fun hab => (write_rows hx hab hB (hp hab).1 (hp hab).2).2

/-! ## Without MPI -/

/-- The state of the arrays before the call fits Domains of `N` zones: not allocated, or allocated for `N` zones. -/
def Fits (N : ℕ) (st : Option Sizes) : Prop := st = none ∨ st = some ⟨N, N.sqrt⟩

/-- **C96.** Without MPI and without refined Domains: at every output, whatever the values on the zones, the file holds their extremes, mean, variance, standard and
mean deviation, skewness and kurtosis, and the fraction of zones in each of `√N` equal bins divided by the width of the bin; this distribution integrates to
one.  Missing: refined Domains, where it is false. -/
theorem pdf_exact_partial (st : Option Sizes) (d : ℝ) (l : List ℝ) (hN : (d :: l).length ≤ 2147483647) (hst : Fits (d :: l).length st) :
    ∃ f st', output st [(d, l)] = .ok ([f], st') ∧ Fits (d :: l).length st' ∧ Shape f (d :: l).length.sqrt (d :: l) ∧ AvgDev f (d :: l) := by
  obtain ⟨x, hx⟩ : ∃ x, x = d :: l := ⟨_, rfl⟩
  have hne : x ≠ [] := by rw [hx]; exact List.cons_ne_nil _ _
  have hpos := List.length_pos_iff.2 hne
  have hB : 0 < x.length.sqrt := Nat.sqrt_pos.2 hpos
  have hB' : x.length.sqrt ≤ 2147483647 := le_trans (Nat.sqrt_le_self _) (hx ▸ hN)
  have hlo : Least (minOf d x) x := by rw [hx]; exact minOf_least d l
  have hhi : Greatest (maxOf d x) x := by rw [hx]; exact maxOf_greatest d l
  obtain ⟨q, hq, hp⟩ := bins_ok hB hB' (x := x) (a := minOf d x) (b := maxOf d x) fun y hy => ⟨hlo.2 y hy, hhi.2 y hy⟩
  rw [← hx] at hst
  have hmean : sumFrom Acc.zero.mean x / x.length = avg x := by
    rw [sumFrom_eq]; simp [Acc.zero, avg]
  have key : ∃ a, domain st Acc.zero d l = .ok (write x.length.sqrt x.length (minOf d x) (maxOf d x) a q, ⟨x.length, x.length.sqrt⟩, a) ∧
      a.mean = avg x ∧ a.var = variance x ∧ a.sdev = √(variance x) ∧ a.adev = (x.map fun y => |y - avg x|).sum / x.length ∧
      a.skew = (if variance x = 0 then 0 else dev 3 x / (x.length * √(variance x) ^ 3)) ∧
      a.kurt = (if variance x = 0 then 0 else dev 4 x / (x.length * √(variance x) ^ 4) - 3) := by
    unfold domain
    dsimp only
    rw [← hx]
    have hsz : st.getD ⟨x.length, x.length.sqrt⟩ = ⟨x.length, x.length.sqrt⟩ := by
      rcases hst with h | h <;> rw [h] <;> rfl
    rw [hmean, hsz]
    dsimp only
    rw [if_neg (lt_irrefl _), hq]
    by_cases h1 : 1 < x.length
    · rw [if_pos h1]
      refine ⟨_, rfl, ?_⟩
      rw [moments_eq]
      have := norms_spec x h1 { Acc.zero with
          mean := avg x
          adev := Acc.zero.adev + (x.map fun y => |y - avg x|).sum, ep := Acc.zero.ep + (x.map fun y => (y - avg x) ^ 1).sum
          var := Acc.zero.var + (x.map fun y => (y - avg x) ^ 2).sum, skew := Acc.zero.skew + (x.map fun y => (y - avg x) ^ 3).sum
          kurt := Acc.zero.kurt + (x.map fun y => (y - avg x) ^ 4).sum } rfl (by simp [Acc.zero, dev]) (by simp [Acc.zero, dev])
          (by simp [Acc.zero, dev]) (by simp [Acc.zero, dev])
      obtain ⟨r1, r2, r3, r4, r5, r6⟩ := this
      exact ⟨r1, r2, r3, by rw [r4]; simp [Acc.zero], r5, r6⟩
    · rw [if_neg h1]
      refine ⟨_, rfl, rfl, ?_⟩
      have h1' : x.length = 1 := by omega
      have hv : variance x = 0 := by unfold variance; rw [if_pos h1']
      obtain ⟨z, hz⟩ := List.length_eq_one_iff.1 h1'
      rw [hv]
      refine ⟨rfl, by simp [Acc.zero], ?_, by simp [Acc.zero], by simp [Acc.zero]⟩
      rw [hz]
      simp [Acc.zero, avg]
  obtain ⟨a, ha, r1, r2, r3, r4, r5, r6⟩ := key
  rw [← hx]
  refine ⟨_, some ⟨x.length, x.length.sqrt⟩, ?_, .inr rfl, write_shape hne hB hlo hhi r1 r2 r3 r5 r6 hp, r4⟩
  unfold output domains
  rw [ha]
  rfl

/-! ## With MPI -/

/-- The values of all zones of the Domain, Grid by Grid. -/
def allData (G : List (ℝ × List ℝ)) : List ℝ := G.flatMap fun g => g.1 :: g.2

theorem redMin_least : ∀ (G : List (ℝ × List ℝ)), G ≠ [] → Least (redMin (G.map fun g => minOf g.1 (g.1 :: g.2))) (allData G)
  | [], h => absurd rfl h
  | [g], _ => by simpa [redMin, allData] using minOf_least g.1 g.2
  | g :: g' :: G, _ => by
    have ih := redMin_least (g' :: G) (List.cons_ne_nil _ _)
    have hg := minOf_least g.1 g.2
    have e : redMin ((g :: g' :: G).map fun g => minOf g.1 (g.1 :: g.2)) =
        min (minOf g.1 (g.1 :: g.2)) (redMin ((g' :: G).map fun g => minOf g.1 (g.1 :: g.2))) := by
      have fold : ∀ (l : List ℝ) (p q : ℝ), l.foldl min (min p q) = min p (l.foldl min q) := by
        intro l
        induction l with
        | nil => intros; rfl
        | cons z l ih => intro p q; simp only [List.foldl_cons]; rw [min_assoc, ih]
      simp only [List.map_cons, redMin, List.foldl_cons]
      exact fold _ _ _
    rw [e]
    have hd : allData (g :: g' :: G) = (g.1 :: g.2) ++ allData (g' :: G) := rfl
    rw [hd]
    constructor
    · rcases min_choice (minOf g.1 (g.1 :: g.2)) (redMin ((g' :: G).map fun g => minOf g.1 (g.1 :: g.2))) with h | h
      · rw [h]; exact List.mem_append_left _ hg.1
      · rw [h]; exact List.mem_append_right _ ih.1
    · intro y hy
      rcases List.mem_append.1 hy with hy | hy
      · exact le_trans (min_le_left _ _) (hg.2 y hy)
      · exact le_trans (min_le_right _ _) (ih.2 y hy)

theorem redMax_greatest : ∀ (G : List (ℝ × List ℝ)), G ≠ [] → Greatest (redMax (G.map fun g => maxOf g.1 (g.1 :: g.2))) (allData G)
  | [], h => absurd rfl h
  | [g], _ => by simpa [redMax, allData] using maxOf_greatest g.1 g.2
  | g :: g' :: G, _ => by
    have ih := redMax_greatest (g' :: G) (List.cons_ne_nil _ _)
    have hg := maxOf_greatest g.1 g.2
    have e : redMax ((g :: g' :: G).map fun g => maxOf g.1 (g.1 :: g.2)) =
        max (maxOf g.1 (g.1 :: g.2)) (redMax ((g' :: G).map fun g => maxOf g.1 (g.1 :: g.2))) := by
      have fold : ∀ (l : List ℝ) (p q : ℝ), l.foldl max (max p q) = max p (l.foldl max q) := by
        intro l
        induction l with
        | nil => intros; rfl
        | cons z l ih => intro p q; simp only [List.foldl_cons]; rw [max_assoc, ih]
      simp only [List.map_cons, redMax, List.foldl_cons]
      exact fold _ _ _
    rw [e]
    have hd : allData (g :: g' :: G) = (g.1 :: g.2) ++ allData (g' :: G) := rfl
    rw [hd]
    constructor
    · rcases max_choice (maxOf g.1 (g.1 :: g.2)) (redMax ((g' :: G).map fun g => maxOf g.1 (g.1 :: g.2))) with h | h
      · rw [h]; exact List.mem_append_left _ hg.1
      · rw [h]; exact List.mem_append_right _ ih.1
    · intro y hy
      rcases List.mem_append.1 hy with hy | hy
      · exact le_trans (hg.2 y hy) (le_max_left _ _)
      · exact le_trans (ih.2 y hy) (le_max_right _ _)

theorem allData_length (G : List (ℝ × List ℝ)) : (G.map fun g => (g.1 :: g.2).length).sum = (allData G).length := by
  induction G with
  | nil => rfl
  | cons g G ih =>
    have hd : allData (g :: G) = (g.1 :: g.2) ++ allData G := rfl
    rw [hd, List.map_cons, List.sum_cons, ih, List.length_append]

theorem allData_sum (F : ℝ → ℝ) (G : List (ℝ × List ℝ)) : (G.map fun g => ((g.1 :: g.2).map F).sum).sum = ((allData G).map F).sum := by
  induction G with
  | nil => rfl
  | cons g G ih =>
    have hd : allData (g :: G) = (g.1 :: g.2) ++ allData G := rfl
    rw [hd, List.map_cons, List.sum_cons, ih, List.map_append, List.sum_append]

theorem countIn_append (a b : ℝ) (B n : ℕ) (x y : List ℝ) : countIn a b B n (x ++ y) = countIn a b B n x + countIn a b B n y := by
  unfold countIn; exact List.countP_append

theorem binsAll_ok {a b : ℝ} {B : ℕ} (hB : 0 < B) (hB' : B ≤ 2147483647) (G : List (ℝ × List ℝ)) (h : ∀ y ∈ allData G, a ≤ y ∧ y ≤ b) :
    ∃ q, binsAll B a b G = .ok q ∧ (a < b → (∀ n, n < B → q n = countIn a b B n (allData G)) ∧ ∑ n ∈ Finset.range B, q n = (allData G).length) := by
  induction G with
  | nil => exact ⟨_, rfl, fun _ => ⟨fun n _ => by simp [countIn, allData], by simp [allData]⟩⟩
  | cons g G ih =>
    have hd : allData (g :: G) = (g.1 :: g.2) ++ allData G := rfl
    rw [hd] at h ⊢
    obtain ⟨q, hq, hc⟩ := ih fun y hy => h y (List.mem_append_right _ hy)
    obtain ⟨p, hp, hc'⟩ := bins_ok hB hB' (x := g.1 :: g.2) (a := a) (b := b) fun y hy => h y (List.mem_append_left _ hy)
    refine ⟨fun n => p n + q n, ?_, fun hab => ⟨fun n hn => ?_, ?_⟩⟩
    · unfold binsAll
      rw [hp, hq]
      rfl
    · dsimp only
      rw [(hc' hab).1 n hn, (hc hab).1 n hn, countIn_append]
    · rw [Finset.sum_add_distrib, (hc' hab).2, (hc hab).2, List.length_append]

/-- The whole file but for the mean deviation. -/
theorem mpi_shape (d : ℝ) (l : List ℝ) (G : List (ℝ × List ℝ)) (hN : (allData ((d, l) :: G)).length ≤ 2147483647)
    (h2 : ∀ g ∈ (d, l) :: G, 1 < (g.1 :: g.2).length) :
    ∃ f, outputMpi d l G = .ok f ∧ Shape f (allData ((d, l) :: G)).length.sqrt (allData ((d, l) :: G)) ∧
      f.adev = ((d :: l).map fun y => |y - avg (allData ((d, l) :: G))|).sum / (allData ((d, l) :: G)).length := by
  obtain ⟨A, hA⟩ : ∃ A, A = (d, l) :: G := ⟨_, rfl⟩
  rw [← hA] at hN h2 ⊢
  have hAne : A ≠ [] := by rw [hA]; exact List.cons_ne_nil _ _
  obtain ⟨x, hx⟩ : ∃ x, x = allData A := ⟨_, rfl⟩
  rw [← hx] at hN ⊢
  have hroot : 1 < (d :: l).length := h2 (d, l) (by rw [hA]; exact List.mem_cons_self)
  have hlen : (d :: l).length ≤ x.length := by
    rw [hx, hA]
    change _ ≤ ((d :: l) ++ allData G).length
    rw [List.length_append]
    omega
  have h1 : 1 < x.length := by omega
  have hne : x ≠ [] := List.length_pos_iff.1 (by omega)
  have hB : 0 < x.length.sqrt := Nat.sqrt_pos.2 (by omega)
  have hB' : x.length.sqrt ≤ 2147483647 := le_trans (Nat.sqrt_le_self _) hN
  have hlo := redMin_least A hAne
  have hhi := redMax_greatest A hAne
  rw [← hx] at hlo hhi
  have hmean : (A.map fun g => sumFrom 0 (g.1 :: g.2)).sum / x.length = avg x := by
    have : (A.map fun g => sumFrom 0 (g.1 :: g.2)) = A.map fun g => ((g.1 :: g.2).map id).sum := by
      apply List.map_congr_left
      intro g _
      rw [sumFrom_eq]; simp
    rw [this, allData_sum id A, ← hx]
    simp [avg]
  obtain ⟨q, hq, hp⟩ := binsAll_ok hB hB' A (a := redMin (A.map fun g => minOf g.1 (g.1 :: g.2)))
    (b := redMax (A.map fun g => maxOf g.1 (g.1 :: g.2))) (by rw [← hx]; exact fun y hy => ⟨hlo.2 y hy, hhi.2 y hy⟩)
  rw [← hx] at hp
  have hall : A.all (fun g => decide (1 < (g.1 :: g.2).length)) = true := by
    rw [List.all_eq_true]; intro g hg; exact decide_eq_true (h2 g hg)
  have hany : A.any (fun g => decide (1 < (g.1 :: g.2).length)) = true := by
    rw [List.any_eq_true]; exact ⟨(d, l), by rw [hA]; exact List.mem_cons_self, decide_eq_true hroot⟩
  have hsum : ∀ (sel : Acc → ℝ) (k : ℕ), (∀ g : ℝ × List ℝ, sel (moments (avg x) { Acc.zero with mean := avg x } (g.1 :: g.2)) =
      ((g.1 :: g.2).map fun y => (y - avg x) ^ k).sum) →
      ((A.map fun g => moments (avg x) { Acc.zero with mean := avg x } (g.1 :: g.2)).map sel).sum = dev k x := by
    intro sel k hs
    rw [List.map_map]
    have : A.map (sel ∘ fun g => moments (avg x) { Acc.zero with mean := avg x } (g.1 :: g.2)) =
        A.map fun g => ((g.1 :: g.2).map fun y => (y - avg x) ^ k).sum := List.map_congr_left fun g _ => hs g
    rw [this, allData_sum (fun y => (y - avg x) ^ k) A, ← hx]
    rfl
  have se := hsum Acc.ep 1 fun g => by rw [moments_eq]; simp [Acc.zero]
  have sv := hsum Acc.var 2 fun g => by rw [moments_eq]; simp [Acc.zero]
  have ss := hsum Acc.skew 3 fun g => by rw [moments_eq]; simp [Acc.zero]
  have sk := hsum Acc.kurt 4 fun g => by rw [moments_eq]; simp [Acc.zero]
  have hlen' : (A.map fun g => (g.1 :: g.2).length).sum = x.length := by rw [allData_length, ← hx]
  have hown : moments (avg x) { Acc.zero with mean := avg x } (d :: l) = _ := moments_eq _ _ _
  obtain ⟨r1, r2, r3, r4, r5, r6⟩ := norms_spec x h1 { moments (avg x) { Acc.zero with mean := avg x } (d :: l) with
    ep := dev 1 x, var := dev 2 x, skew := dev 3 x, kurt := dev 4 x } (by rw [hown]) rfl rfl rfl rfl
  refine ⟨_, ?_, write_shape hne hB hlo hhi r1 r2 r3 r5 r6 hp, ?_⟩
  · unfold outputMpi
    dsimp only
    rw [← hA, hlen', hmean, hall, hany, if_neg (by simp), if_pos hroot, se, sv, ss, sk, hq]
    rfl
  · change (norms _ _).adev = _
    rw [r4, hown]
    simp [Acc.zero]

theorem avg_perm {x y : List ℝ} (h : x.Perm y) : avg x = avg y := by
  unfold avg; rw [h.sum_eq, h.length_eq]
theorem dev_perm {x y : List ℝ} (h : x.Perm y) (k : ℕ) : dev k x = dev k y := by
  unfold dev; rw [avg_perm h]; exact (h.map _).sum_eq
theorem variance_perm {x y : List ℝ} (h : x.Perm y) : variance x = variance y := by
  unfold variance; rw [h.length_eq, dev_perm h]

/-- The shape determines the file but for the mean deviation. -/
theorem shape_unique {f g : File} {B : ℕ} {x y : List ℝ} (h : x.Perm y) (hf : Shape f B x) (hg : Shape g B y) : f = { g with adev := f.adev } := by
  have e1 : f.dmin = g.dmin := Least.unique (x := y) ⟨h.mem_iff.1 hf.lo.1, fun z hz => hf.lo.2 z (h.mem_iff.2 hz)⟩ hg.lo
  have e2 : f.dmax = g.dmax := Greatest.unique (x := y) ⟨h.mem_iff.1 hf.hi.1, fun z hz => hf.hi.2 z (h.mem_iff.2 hz)⟩ hg.hi
  have ec : ∀ a b n, countIn a b B n x = countIn a b B n y := fun a b n => h.countP_eq _
  cases f
  cases g
  simp only at e1 e2
  subst e1 e2
  have v := variance_perm h
  simp only [File.mk.injEq, true_and, and_true]
  refine ⟨hf.nbin.trans hg.nbin.symm, hf.mean.trans ((avg_perm h).trans hg.mean.symm), hf.var.trans (v.trans hg.var.symm), ?_, ?_, ?_, ?_⟩
  · exact hf.sdev.trans ((congrArg Real.sqrt v).trans hg.sdev.symm)
  · refine hf.skew.trans (Eq.trans ?_ hg.skew.symm)
    rw [v, dev_perm h, h.length_eq]
  · refine hf.kurt.trans (Eq.trans ?_ hg.kurt.symm)
    rw [v, dev_perm h, h.length_eq]
  · refine hf.rows.trans (Eq.trans ?_ hg.rows.symm)
    simp only [ec, h.length_eq]

/-- **C96.** With MPI and without refined Domains, whatever the decomposition of the Domain into Grids of at least two zones: the root writes the file that a run on one
process would write for the same data in whatever order, but for the mean deviation; that of the file is the sum over the zones of the root alone, divided by the
number of all zones.  Missing: the mean deviation, which is wrong. -/
theorem pdf_mpi_partial (d : ℝ) (l : List ℝ) (G : List (ℝ × List ℝ)) (h2 : ∀ g ∈ (d, l) :: G, 1 < (g.1 :: g.2).length)
    (d' : ℝ) (l' : List ℝ) (hp : (allData ((d, l) :: G)).Perm (d' :: l')) (hN : (d' :: l').length ≤ 2147483647) :
    ∃ f g st, outputMpi d l G = .ok f ∧ output none [(d', l')] = .ok ([g], st) ∧ f = { g with adev := f.adev } ∧
      f.adev = ((d :: l).map fun y => |y - g.mean|).sum / (d' :: l').length := by
  obtain ⟨f, h1, hf, ha⟩ := mpi_shape d l G (by rw [hp.length_eq]; exact hN) h2
  obtain ⟨g, st, h3, -, hg, -⟩ := pdf_exact_partial none d' l' hN (.inl rfl)
  refine ⟨f, g, st, h1, h3, ?_, ?_⟩
  · rw [hp.length_eq] at hf
    exact shape_unique hp hf hg
  · rw [ha, hg.mean, avg_perm hp, hp.length_eq]

/-! ## Where it is false -/

/-- **C96 is false with MPI**: two Grids of two zones. -/
theorem pdf_adev_false : ¬ ∀ (d : ℝ) (l : List ℝ) (G : List (ℝ × List ℝ)) (f : File), (∀ g ∈ (d, l) :: G, 1 < (g.1 :: g.2).length) →
    outputMpi d l G = .ok f → AvgDev f (allData ((d, l) :: G)) := by
  intro h
  obtain ⟨f, h1, -, ha⟩ := mpi_shape 1 [1] [(3, [3])] (by simp [allData]) (by simp)
  have := h 1 [1] [(3, [3])] f (by simp) h1
  unfold AvgDev at this
  rw [ha] at this
  norm_num [allData, avg] at this

/-- **C96 is false with refined Domains**: a Domain after the first with more zones overruns the array of the first. -/
theorem pdf_refined_false (d : ℝ) (l : List ℝ) (d' : ℝ) (l' : List ℝ) (hN : (d :: l).length ≤ 2147483647) (h : (d :: l).length < (d' :: l').length) :
    output none [(d, l), (d', l')] = .ub := by
  obtain ⟨f, st, h1, hst, -⟩ := pdf_exact_partial none d l hN (.inl rfl)
  unfold output domains at h1 ⊢
  cases e : domain none Acc.zero d l with
  | fatal => rw [e] at h1; cases h1
  | ub => rfl
  | ok t =>
    obtain ⟨f', s', a'⟩ := t
    rw [e] at h1
    simp only [Res.bind_ok, domains, Res.pure_eq_ok, Res.ok.injEq, Prod.mk.injEq] at h1
    have hs : s' = ⟨(d :: l).length, (d :: l).length.sqrt⟩ := by
      rcases hst with hst | hst
      · rw [hst] at h1; cases h1.2
      · rw [hst] at h1; exact Option.some.inj h1.2
    simp only [Res.bind_ok]
    have : domain (some s') a' d' l' = .ub := by
      unfold domain
      dsimp only
      rw [hs, Option.getD_some]
      rw [if_pos h]
    unfold domains
    rw [this]
    rfl

/-- **C96 is false with refined Domains**: the mean in the file of the second Domain is that of its values with the mean of the first Domain added to their sum. -/
theorem pdf_mean_false (d : ℝ) (l : List ℝ) (d' : ℝ) (l' : List ℝ) (hN : (d :: l).length ≤ 2147483647) (h : (d' :: l').length = (d :: l).length) :
    ∃ f f' st, output none [(d, l), (d', l')] = .ok ([f, f'], st) ∧ f.mean = avg (d :: l) ∧ f'.mean = (avg (d :: l) + (d' :: l').sum) / (d' :: l').length := by
  obtain ⟨f, st, h1, hst, hf, -⟩ := pdf_exact_partial none d l hN (.inl rfl)
  unfold output domains at h1 ⊢
  cases e : domain none Acc.zero d l with
  | fatal => rw [e] at h1; cases h1
  | ub => rw [e] at h1; cases h1
  | ok t =>
    obtain ⟨f', s', a'⟩ := t
    rw [e] at h1
    simp only [Res.bind_ok, domains, Res.pure_eq_ok, Res.ok.injEq, Prod.mk.injEq, List.cons.injEq, and_true] at h1
    obtain ⟨rfl, h1⟩ := h1
    have hs : s' = ⟨(d :: l).length, (d :: l).length.sqrt⟩ := by
      rcases hst with hst | hst
      · rw [hst] at h1; cases h1
      · rw [hst] at h1; exact Option.some.inj h1
    have ham : a'.mean = f'.mean := by
      unfold domain at e
      dsimp only at e
      rw [Option.getD_none, if_neg (lt_irrefl _)] at e
      cases eb : bins (d :: l).length.sqrt (minOf d (d :: l)) (maxOf d (d :: l)) (d :: l) with
      | fatal => rw [eb] at e; cases e
      | ub => rw [eb] at e; cases e
      | ok p =>
        rw [eb] at e
        simp only [Res.bind_ok, Res.pure_eq_ok, Res.ok.injEq, Prod.mk.injEq] at e
        obtain ⟨rfl, -, rfl⟩ := e
        rfl
    simp only [Res.bind_ok]
    have hne : (d' :: l') ≠ [] := List.cons_ne_nil _ _
    have hB : 0 < (d :: l).length.sqrt := Nat.sqrt_pos.2 (by simp)
    have hlo := minOf_least d' l'
    have hhi := maxOf_greatest d' l'
    obtain ⟨q, hq, -⟩ := bins_ok hB (le_trans (Nat.sqrt_le_self _) hN) (x := d' :: l') (a := minOf d' (d' :: l')) (b := maxOf d' (d' :: l'))
      fun y hy => ⟨hlo.2 y hy, hhi.2 y hy⟩
    have hd2 : ∃ g s a, domain (some s') a' d' l' = .ok (g, s, a) ∧ g.mean = (a'.mean + (d' :: l').sum) / (d' :: l').length := by
      unfold domain
      dsimp only
      rw [hs, Option.getD_some]
      dsimp only
      rw [if_neg (by omega), hq]
      refine ⟨_, _, _, rfl, ?_⟩
      simp only [write]
      split_ifs with h1
      · rw [moments_eq]
        unfold norms
        dsimp only
        split_ifs <;> simp only [sumFrom_eq]
      · simp only [sumFrom_eq]
    obtain ⟨g, s, a, hg, hm⟩ := hd2
    refine ⟨f', g, some s, ?_, hf.mean, by rw [hm, ham, hf.mean]⟩
    unfold domains
    rw [hg]
    rfl

/-- Concrete cases: four values in two bins; and a second Domain of four zones of value 0 whose mean is given as 1/2. -/
example : ∃ f st, output none [(0, [0, 1, 3])] = .ok ([f], st) ∧ f.mean = 1 ∧ f.var = 2 ∧ f.nbin = 2 ∧ f.rows.map Prod.fst = [3/4, 9/4] := by
  obtain ⟨f, st, h, -, hs, -⟩ := pdf_exact_partial none 0 [0, 1, 3] (by simp) (.inl rfl)
  have e0 : f.dmin = 0 := Least.unique (x := [0, 0, 1, 3]) hs.lo ⟨by simp, by simp⟩
  have e1 : f.dmax = 3 := Greatest.unique (x := [0, 0, 1, 3]) hs.hi ⟨by simp, by norm_num⟩
  have hB : ([0, 0, 1, 3] : List ℝ).length.sqrt = 2 := Nat.eq_sqrt.2 ⟨by simp, by simp⟩ |>.symm
  refine ⟨f, st, h, by rw [hs.mean]; norm_num [avg], by rw [hs.var]; norm_num [variance, dev, avg], by rw [hs.nbin, e0, e1, hB]; norm_num, ?_⟩
  rw [hs.rows, e0, e1, hB, if_pos (by norm_num)]
  norm_num [List.range_succ]

example : ∃ f f' st, output none [(2, [2, 2, 2]), (0, [0, 0, 0])] = .ok ([f, f'], st) ∧ f'.mean = 1/2 := by
  obtain ⟨f, f', st, h, -, hm⟩ := pdf_mean_false 2 [2, 2, 2] 0 [0, 0, 0] (by simp) rfl
  exact ⟨f, f', st, h, by rw [hm]; norm_num [avg]⟩

example : ∃ f g st, outputMpi 1 [1] [(3, [3])] = .ok f ∧ output none [(1, [3, 1, 3])] = .ok ([g], st) ∧ f.var = g.var ∧ f.adev ≠ g.adev := by
  have hp : (allData [((1:ℝ), [1]), (3, [3])]).Perm [1, 3, 1, 3] := by
    refine List.Perm.cons 1 ?_
    exact List.Perm.swap 3 1 [3]
  obtain ⟨f, g, st, h1, h2, e, ha⟩ := pdf_mpi_partial 1 [1] [(3, [3])] (by simp) 1 [3, 1, 3] hp (by simp)
  obtain ⟨g', st', h3, -, hs, hd⟩ := pdf_exact_partial none 1 [3, 1, 3] (by simp) (.inl rfl)
  rw [h2] at h3
  simp only [Res.ok.injEq, Prod.mk.injEq, List.cons.injEq, and_true] at h3
  obtain ⟨rfl, -⟩ := h3
  refine ⟨f, g, st, h1, h2, by rw [e], ?_⟩
  unfold AvgDev at hd
  rw [ha, hd, hs.mean]
  norm_num [avg]

end Athena.Pdf
