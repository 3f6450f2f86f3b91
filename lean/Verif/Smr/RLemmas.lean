import Verif.Smr.Restrict
import Mathlib.Data.List.Nodup
import Mathlib.Tactic.SplitIfs

/-!
# Lemmas about loops, messages and updates used by `RestrictCorrect`
-/

namespace Athena.Smr

variable {R : Type*} [Field R] {nf : Nat}

/-! ## Loops -/

theorem mem_rng {a b i : ℤ} : i ∈ rng a b ↔ a ≤ i ∧ i ≤ b := by
  simp only [rng, List.mem_map, List.mem_range]
  constructor
  · rintro ⟨n, h, rfl⟩; omega
  · rintro ⟨h1, h2⟩; exact ⟨(i - a).toNat, by omega, by omega⟩

theorem nodup_rng (a b : ℤ) : (rng a b).Nodup := by
  unfold rng
  refine List.Nodup.map ?_ List.nodup_range
  intro x y h
  simpa using h

theorem length_rng (a b : ℤ) : (rng a b).length = (b + 1 - a).toNat := by simp [rng]

theorem length_rng2 (a b : ℤ) : (rng2 a b).length = ((b - a)/2 + 1).toNat := by simp [rng2]

theorem rng_empty {a b : ℤ} (h : b < a) : rng a b = [] := by
  unfold rng; rw [show (b + 1 - a).toNat = 0 by omega]; rfl

theorem rng_single (a : ℤ) : rng a a = [a] := by
  unfold rng; rw [show (a + 1 - a).toNat = 1 by omega]; simp [List.range_succ]

theorem rng_cons {a b : ℤ} (h : a ≤ b) : rng a b = a :: rng (a+1) b := by
  unfold rng
  rw [show (b + 1 - a).toNat = (b + 1 - (a + 1)).toNat + 1 by omega, List.range_succ_eq_map]
  simp only [List.map_cons, List.map_map, Nat.cast_zero, add_zero]
  congr 1
  apply List.map_congr_left
  intro n _
  simp only [Function.comp]
  push_cast
  ring

theorem rng_snoc {a b : ℤ} (h : a ≤ b + 1) : rng a (b+1) = rng a b ++ [b+1] := by
  unfold rng
  rw [show (b + 1 + 1 - a).toNat = (b + 1 - a).toNat + 1 by omega, List.range_succ]
  simp only [List.map_append, List.map_cons, List.map_nil]
  congr 2
  omega

/-- The coarse range `c..d` covers the fine range `a..b`: twice as many zones, or one zone in both. -/
def Covers (a b c d : ℤ) : Prop := (b - a + 1 = 2*(d - c + 1) ∧ c ≤ d + 1) ∨ (a = b ∧ c = d)

/-- Fine index of the first zone in coarse zone `i`. -/
def fine (a c i : ℤ) : ℤ := a + 2*(i - c)

theorem rng2_eq {a b c d : ℤ} (h : Covers a b c d) : rng2 a b = (rng c d).map (fine a c) := by
  unfold rng2 rng
  rw [List.map_map]
  have : ((b - a)/2 + 1).toNat = (d + 1 - c).toNat := by
    rcases h with h | h <;> omega
  rw [this]
  apply List.map_congr_left
  intro n _
  simp [fine]

/-- One more face than zones. -/
theorem rng2_eq_face {a b c d : ℤ} (h : b - a + 1 = 2*(d - c + 1)) (h' : c ≤ d + 1) :
    rng2 a (b+1) = (rng c (d+1)).map (fine a c) := by
  unfold rng2 rng
  rw [List.map_map]
  have : ((b + 1 - a)/2 + 1).toNat = (d + 1 + 1 - c).toNat := by omega
  rw [this]
  apply List.map_congr_left
  intro n _
  simp [fine]

theorem rng2_zero {a b c d : ℤ} (h : Covers a b c d) : rng2 0 (b - a) = (rng c d).map (fun i => 2*(i - c)) := by
  have : Covers 0 (b - a) c d := by
    rcases h with h | h
    · left; omega
    · right; omega
  rw [rng2_eq this]
  apply List.map_congr_left
  intro n _
  simp [fine]

theorem rng2_zero_face {a b c d : ℤ} (h : b - a + 1 = 2*(d - c + 1)) (h' : c ≤ d + 1) :
    rng2 0 (b - a + 1) = (rng c (d+1)).map (fun i => 2*(i - c)) := by
  rw [rng2_eq_face (c := c) (d := d) (by omega) h']
  apply List.map_congr_left
  intro n _
  simp [fine]

theorem map_product {α β γ δ : Type*} (f : α → γ) (g : β → δ) (l1 : List α) (l2 : List β) :
    (l1.map f) ×ˢ (l2.map g) = (l1 ×ˢ l2).map (Prod.map f g) := by
  induction l1 with
  | nil => rfl
  | cons a l ih =>
    rw [List.map_cons, List.product_cons, List.product_cons, ih, List.map_append, List.map_map, List.map_map]
    rfl

theorem map_product_right {α β δ : Type*} (g : β → δ) (l1 : List α) (l2 : List β) :
    l1 ×ˢ (l2.map g) = (l1 ×ˢ l2).map (Prod.map id g) := by
  conv_lhs => rw [← List.map_id l1]
  rw [map_product]

theorem map_product_left {α β γ : Type*} (f : α → γ) (l1 : List α) (l2 : List β) :
    (l1.map f) ×ˢ l2 = (l1 ×ˢ l2).map (Prod.map f id) := by
  conv_lhs => rw [← List.map_id l2]
  rw [map_product]

/-! ## Reading words -/

theorem pops_append {S : Type*} (a b : List (R → S → S)) (s : S × List R) :
    pops (a ++ b) s = (pops a s).bind (pops b) := by
  induction a generalizing s with
  | nil => rfl
  | cons f a ih =>
    obtain ⟨s, w⟩ := s
    cases w with
    | nil => rfl
    | cons x xs => simp only [List.cons_append, pops]; exact ih _

/-- Reading exactly the words that a loop over the same list has written. -/
theorem pops_map {S α : Type*} (l : List α) (act : α → R → S → S) (w : α → R) (s : S) (rest : List R) :
    pops (l.map act) (s, l.map w ++ rest) = some (l.foldl (fun s x => act x (w x) s) s, rest) := by
  induction l generalizing s with
  | nil => rfl
  | cons a l ih => simp only [List.map_cons, List.cons_append, pops, List.foldl_cons]; exact ih _

theorem pops_words {S : Type*} (l : List (R → S → S)) (w rest : List R) (h : l.length = w.length) (s : S) :
    pops l (s, w ++ rest) = some ((l.zip w).foldl (fun s x => x.1 x.2 s) s, rest) := by
  induction l generalizing s w with
  | nil =>
    have : w = [] := List.length_eq_zero_iff.1 (by simpa using h.symm)
    subst this; rfl
  | cons a l ih =>
    cases w with
    | nil => simp at h
    | cons x w =>
      simp only [List.cons_append, pops, List.zip_cons_cons, List.foldl_cons]
      exact ih w (by simpa using h) _

/-! ## Updates -/

theorem foldl_set {ι α : Type*} [DecidableEq ι] (l : List ι) (f : ι → α) (a : ι → α) (p : ι) :
    l.foldl (fun a i => upd a i (f i)) a p = if p ∈ l then f p else a p := by
  induction l generalizing a with
  | nil => simp
  | cons i l ih =>
    rw [List.foldl_cons, ih]
    by_cases h : p ∈ l
    · rw [if_pos h, if_pos (List.mem_cons_of_mem _ h)]
    · rw [if_neg h, upd]
      by_cases h2 : p = i
      · rw [if_pos h2, if_pos (by rw [h2]; exact List.mem_cons_self), h2]
      · rw [if_neg h2, if_neg (by simp [h, h2])]

/-- Adding to elements of an array whose indices `g x` are all different. -/
theorem foldl_add {ι β : Type*} [DecidableEq ι] (l : List β) (g : β → ι) (f : β → R)
    (hnd : (l.map g).Nodup) (a : ι → R) :
    (∀ x ∈ l, l.foldl (fun a x => upd a (g x) (a (g x) + f x)) a (g x) = a (g x) + f x) ∧
    (∀ p, p ∉ l.map g → l.foldl (fun a x => upd a (g x) (a (g x) + f x)) a p = a p) := by
  induction l generalizing a with
  | nil => simp
  | cons y l ih =>
    rw [List.map_cons, List.nodup_cons] at hnd
    obtain ⟨h1, h2⟩ := ih hnd.2 (upd a (g y) (a (g y) + f y))
    constructor
    · intro x hx
      rw [List.foldl_cons]
      rcases List.mem_cons.1 hx with rfl | hx
      · rw [h2 _ hnd.1, upd, if_pos rfl]
      · rw [h1 x hx, upd, if_neg]
        intro h
        exact hnd.1 (h ▸ List.mem_map_of_mem hx)
    · intro p hp
      rw [List.map_cons, List.mem_cons, not_or] at hp
      rw [List.foldl_cons, h2 p hp.2, upd, if_neg hp.1]

end Athena.Smr
