import Verif.Utils.Model
import Mathlib.Tactic.Ring
import Mathlib.Tactic.Linarith
import Mathlib.Tactic.FieldSimp
import Mathlib.Tactic.NormNum
import Mathlib.Tactic.IntervalCases
import Mathlib.Algebra.BigOperators.Intervals
import Mathlib.Algebra.Order.Field.Basic

/-! Helper lemmas for `Verif.Utils.Props`. -/

namespace Athena.Utils

theorem gcdLoop_pos (a b : Int) (ha : 0 ≤ a) (hb : 0 < b) :
    gcdLoop a b = .ok (Int.gcd a b) := by
  induction hn : b.natAbs using Nat.strong_induction_on generalizing a b with
  | _ n ih =>
    unfold gcdLoop
    have hb0 : b ≠ 0 := by omega
    rw [dif_neg hb0]
    have htm : a.tmod b = a % b := Int.tmod_eq_emod_of_nonneg ha
    by_cases hc : a.tmod b = 0
    · rw [dif_pos hc]
      have hd : b ∣ a := by
        rw [htm] at hc; exact Int.dvd_of_emod_eq_zero hc
      congr 1
      have : Int.gcd a b = b.natAbs := Int.gcd_eq_natAbs_right hd
      rw [this]; omega
    · rw [dif_neg hc]
      have hpos : 0 < a.tmod b := by
        rw [htm] at hc ⊢
        have := Int.emod_nonneg a hb0
        omega
      have hlt : (a.tmod b).natAbs < n := by
        rw [Int.natAbs_tmod, ← hn]; exact Nat.mod_lt _ (Int.natAbs_pos.mpr hb0)
      rw [ih _ hlt b (a.tmod b) (by omega) hpos rfl]
      congr 1
      rw [htm]
      rw [Int.gcd_comm, Int.gcd_emod]

/-! ### byte swapping -/

/-- What one word swap must do. -/
def WordRev {β : Type _} (body : (Nat → β) → Nat → (Nat → β)) (len : Nat) : Prop :=
  ∀ m p x, body m p x = if p ≤ x ∧ x < p + len then m (p + (len - 1 - (x - p))) else m x

theorem swapWord2_rev {β : Type _} : WordRev (β := β) swapWord2 2 := by
  intro m p x
  unfold swapWord2 swapAt
  split_ifs <;> first | rfl | (congr 1; omega) | (exfalso; omega)

theorem swapWord4_rev {β : Type _} : WordRev (β := β) swapWord4 4 := by
  intro m p x
  unfold swapWord4 swapAt
  split_ifs <;> first | rfl | (congr 1; omega) | (exfalso; omega)

theorem swapWord8_rev {β : Type _} : WordRev (β := β) swapWord8 8 := by
  intro m p x
  by_cases h : p ≤ x ∧ x < p + 8
  · obtain ⟨d, rfl⟩ := Nat.exists_eq_add_of_le h.1
    have hd : d < 8 := by omega
    rw [if_pos h]
    unfold swapWord8 swapAt
    interval_cases d <;> simp
  · rw [if_neg h]
    unfold swapWord8 swapAt
    have : ∀ k, k < 8 → x ≠ p + k := fun k hk he => h ⟨by omega, by omega⟩
    simp [this 1, this 2, this 3, this 4, this 5, this 6, this 7]
    intro he
    exact absurd he (by simpa using this 0 (by omega))

theorem swapLoop_spec {β : Type _} (body : (Nat → β) → Nat → (Nat → β)) (len : Nat)
    (hl : 0 < len) (hb : WordRev body len) (cnt p : Nat) (m : Nat → β) (x : Nat) :
    swapLoop body len cnt p m x =
      if p ≤ x ∧ x < p + len * cnt then
        m (p + len * ((x - p) / len) + (len - 1 - (x - p) % len)) else m x := by
  induction cnt generalizing p m with
  | zero =>
    rw [if_neg (by omega)]; rfl
  | succ c ih =>
    show swapLoop body len c (p+len) (body m p) x = _
    rw [ih]
    have hmul : len * (c+1) = len * c + len := by ring
    by_cases h1 : p + len ≤ x ∧ x < p + len + len * c
    · rw [if_pos h1, if_pos ⟨by omega, by omega⟩]
      have hx : x - p = (x - (p+len)) + len := by omega
      have hq : (x - p) / len = (x - (p+len)) / len + 1 := by
        rw [hx, Nat.add_div_right _ hl]
      have hr : (x - p) % len = (x - (p+len)) % len := by
        rw [hx, Nat.add_mod_right]
      rw [hb, if_neg (by omega), hq, hr]
      congr 1
      ring
    · rw [if_neg h1, hb]
      by_cases h2 : p ≤ x ∧ x < p + len
      · rw [if_pos h2, if_pos ⟨by omega, by omega⟩]
        rw [Nat.div_eq_of_lt (by omega), Nat.mod_eq_of_lt (by omega)]
        simp
      · rw [if_neg h2, if_neg (by omega)]

theorem swapGeneral_spec {β : Type _} (len : Nat) (n k : Nat) (m : Nat → β) (x : Nat)
    (h : 2 * (k + n) ≤ len) :
    swapGeneral len n k m x =
      if (k ≤ x ∧ x < k + n) ∨ (len - k - n ≤ x ∧ x < len - k) then m (len - 1 - x) else m x := by
  induction n generalizing k m with
  | zero => rw [if_neg (by omega)]; rfl
  | succ n ih =>
    show swapGeneral len n (k+1) (swapAt m k (len-1-k)) x = _
    rw [ih _ _ (by omega)]
    unfold swapAt
    split_ifs <;> first | rfl | (congr 1; omega) | (exfalso; omega)

/-! ### min/max -/

section
variable {α : Type _} [LinearOrder α]

theorem cMin_eq (a b : α) : cMin a b = min a b := by
  unfold cMin; split
  · rename_i h; exact (min_eq_left h.le).symm
  · rename_i h; exact (min_eq_right (not_lt.mp h)).symm

theorem cMax_eq (a b : α) : cMax a b = max a b := by
  unfold cMax; split
  · rename_i h; exact (max_eq_left h.le).symm
  · rename_i h; exact (max_eq_right (not_lt.mp h)).symm

/-- `(lo,hi)` are the extreme members of a non-empty collection `xs` (given as a list). -/
def Extremes (xs : List α) (r : α × α) : Prop :=
  r.1 ∈ xs ∧ r.2 ∈ xs ∧ ∀ x ∈ xs, r.1 ≤ x ∧ x ≤ r.2

theorem minmaxRow_ext (pre row : List α) (acc : α × α) (h : Extremes pre acc) :
    Extremes (pre ++ row) (minmaxRow acc row) := by
  induction row generalizing pre acc with
  | nil => simpa [minmaxRow] using h
  | cons y ys ih =>
    have : minmaxRow acc (y :: ys) = minmaxRow (cMin acc.1 y, cMax acc.2 y) ys := rfl
    rw [this]
    have h' : Extremes (pre ++ [y]) (cMin acc.1 y, cMax acc.2 y) := by
      obtain ⟨h1, h2, h3⟩ := h
      rw [cMin_eq, cMax_eq]
      refine ⟨?_, ?_, ?_⟩
      · rcases min_choice acc.1 y with h | h <;> rw [h] <;> simp [h1]
      · rcases max_choice acc.2 y with h | h <;> rw [h] <;> simp [h2]
      · intro x hx
        rw [List.mem_append, List.mem_singleton] at hx
        rcases hx with hx | rfl
        · exact ⟨le_trans (min_le_left _ _) (h3 x hx).1, le_trans (h3 x hx).2 (le_max_left _ _)⟩
        · exact ⟨min_le_right _ _, le_max_right _ _⟩
    simpa using ih (pre ++ [y]) _ h'

theorem minmaxPlane_ext (pre : List α) (pl : List (List α)) (acc : α × α)
    (h : Extremes pre acc) : Extremes (pre ++ pl.flatten) (pl.foldl minmaxRow acc) := by
  induction pl generalizing pre acc with
  | nil => simpa using h
  | cons r rs ih =>
    simpa using ih (pre ++ r) _ (minmaxRow_ext pre r acc h)

theorem minmaxVol_ext (pre : List α) (v : List (List (List α))) (acc : α × α)
    (h : Extremes pre acc) :
    Extremes (pre ++ v.flatten.flatten) (v.foldl (fun acc pl => pl.foldl minmaxRow acc) acc) := by
  induction v generalizing pre acc with
  | nil => simpa using h
  | cons r rs ih =>
    simpa using ih (pre ++ r.flatten) _ (minmaxPlane_ext pre r acc h)

/-- A duplicated first element does not matter. -/
theorem Extremes.of_dup {x : α} {xs : List α} {r : α × α} (h : Extremes ([x] ++ xs) r)
    (hx : x ∈ xs) : Extremes xs r := by
  obtain ⟨h1, h2, h3⟩ := h
  refine ⟨?_, ?_, fun y hy => h3 y (by simp [hy])⟩
  · rcases List.mem_append.mp h1 with h | h
    · rw [List.mem_singleton] at h; rw [h]; exact hx
    · exact h
  · rcases List.mem_append.mp h2 with h | h
    · rw [List.mem_singleton] at h; rw [h]; exact hx
    · exact h

theorem Extremes.single (x : α) : Extremes [x] (x, x) := by
  refine ⟨by simp, by simp, ?_⟩
  intro y hy; rw [List.mem_singleton] at hy; subst hy; exact ⟨le_refl _, le_refl _⟩
end
end Athena.Utils
