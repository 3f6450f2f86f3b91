import Verif.Part.Grain
import Verif.Mesh.Pos
import Mathlib.Data.Prod.Lex
import Mathlib.Algebra.Group.End
import Mathlib.Algebra.BigOperators.Group.Finset.Basic
import Mathlib.Algebra.BigOperators.Intervals
import Mathlib.Algebra.Order.Group.Multiset
import Mathlib.Tactic.Ring
import Mathlib.Tactic.Linarith
import Mathlib.Tactic.FieldSimp
import Mathlib.Tactic.NormNum

/-!
# src/particles/utils_particle.c: `shuffle`; src/particles/integrators_particle.c: `Delete_Ghost`; C83

The particle array is a function from indices; a read of an index outside the array would show up in the
theorems, which say that entries outside the sorted range are neither read nor written.
-/

namespace Athena.Part

/-! ## Model -/

section Quick
variable {α : Type}

/-- The three assignments moving entry `i` before the pivot, utils_particle.c:727-730. -/
def moveBefore (a : ℤ → α) (pivot i : ℤ) : ℤ → α :=
  let gr := a pivot
  let a1 := Function.update a pivot (a i)
  let a2 := Function.update a1 i (a1 (pivot + 1))
  Function.update a2 (pivot + 1) gr

/-- The loop `while (i <= end)`, utils_particle.c:724-734; the first argument is the number of turns left
(`end - i + 1`).  `cmp` is `compare_gr(..) == 2`. -/
def partLoop (cmp : α → α → Res Bool) : ℕ → (ℤ → α) → ℤ → ℤ → Res ((ℤ → α) × ℤ)
  | 0, a, pivot, _ => .ok (a, pivot)
  | n + 1, a, pivot, i => do
    if ← cmp (a pivot) (a i) then
      partLoop cmp n (moveBefore a pivot i) (pivot + 1) (i + 1)
    else partLoop cmp n a pivot (i + 1)

/-- `quicksort_particle`, utils_particle.c:703-742; recursion is bounded by the first argument, `ub` if it
runs out. -/
def quicksort (cmp : α → α → Res Bool) : ℕ → (ℤ → α) → ℤ → ℤ → Res (ℤ → α)
  | fuel, a, s, e =>
    if e ≤ s then .ok a
    else match fuel with
      | 0 => .ub
      | fuel + 1 => do
        let pv := Int.tdiv (s + e + 1) 2
        let gr := a pv
        let a := Function.update a pv (a s)
        let a := Function.update a s gr
        let (a, pivot) ← partLoop cmp (e - s).toNat a s (s + 1)
        let a ← quicksort cmp fuel a s (pivot - 1)
        quicksort cmp fuel a (pivot + 1) e

end Quick

/-- What `compare_gr` uses of the Grid in one direction: `MinX[d]` and `cell1.x<d>`, the latter 0 in
directions that do not exist (utils_particle.c:647-649). -/
structure Edge where
  minX : ℝ
  inv : ℝ

/-- One index of `compare_gr`, e.g. utils_particle.c:674. -/
noncomputable def index (E : Edge) (x : ℝ) : Res ℤ := Pos.toInt ((x - E.minX) * E.inv)

/-- `compare_gr(..) == 2`, utils_particle.c:670-694. -/
noncomputable def compareGr (E : Fin 3 → Edge) (g1 g2 : Grain) : Res Bool := do
  let k1 ← index (E 2) (g1.x 2)
  let k2 ← index (E 2) (g2.x 2)
  if k1 < k2 then return false
  if k1 > k2 then return true
  let j1 ← index (E 1) (g1.x 1)
  let j2 ← index (E 1) (g2.x 1)
  if j1 < j2 then return false
  if j1 > j2 then return true
  let i1 ← index (E 0) (g1.x 0)
  let i2 ← index (E 0) (g2.x 0)
  if i1 < i2 then return false
  if i1 > i2 then return true
  return false

/-- `shuffle`, utils_particle.c:643-657, for `n` particles. -/
noncomputable def shuffle (E : Fin 3 → Edge) (n : ℕ) (a : ℤ → Grain) : Res (ℤ → Grain) :=
  quicksort (compareGr E) n a 0 (n - 1)

/-- The loop of `Delete_Ghost`, integrators_particle.c:636-650: `n` is `pG->nparticle`, `num` the member
`grproperty[].num`; the first argument is the number of turns left. -/
def deleteLoop : ℕ → (ℕ → Grain) → ℕ → ℕ → (ℤ → ℤ) → Option ((ℕ → Grain) × ℕ × (ℤ → ℤ))
  | fuel, a, p, n, num =>
    if p < n then
      match fuel with
      | 0 => none
      | fuel + 1 =>
        if (a p).pos = 0 then
          deleteLoop fuel (Function.update a p (a (n - 1))) p (n - 1)
            (Function.update num (a p).prop (num (a p).prop - 1))
        else deleteLoop fuel a (p + 1) n num
    else some (a, n, num)

/-- `Delete_Ghost`, integrators_particle.c:631-653. -/
def deleteGhost (a : ℕ → Grain) (n : ℕ) (num : ℤ → ℤ) : Option ((ℕ → Grain) × ℕ × (ℤ → ℤ)) :=
  deleteLoop n a 0 n num

/-! ## Sorting -/

section QuickProofs
variable {α K : Type} [LinearOrder K]

/-- A rearrangement of the entries from `s` to `e`. -/
def Rearr (a b : ℤ → α) (s e : ℤ) : Prop :=
  ∃ σ : Equiv.Perm ℤ, (∀ i, i < s ∨ e < i → σ i = i) ∧ b = a ∘ σ

theorem Rearr.refl (a : ℤ → α) (s e : ℤ) : Rearr a a s e := ⟨1, fun _ _ => rfl, rfl⟩

theorem Rearr.trans {a b c : ℤ → α} {s e : ℤ} (h1 : Rearr a b s e) (h2 : Rearr b c s e) : Rearr a c s e := by
  obtain ⟨σ, hσ, rfl⟩ := h1
  obtain ⟨τ, hτ, rfl⟩ := h2
  exact ⟨σ * τ, fun i hi => by rw [Equiv.Perm.mul_apply, hτ i hi, hσ i hi], rfl⟩

theorem Rearr.mono {a b : ℤ → α} {s e s' e' : ℤ} (h : Rearr a b s e) (hs : s' ≤ s) (he : e ≤ e') :
    Rearr a b s' e' := by
  obtain ⟨σ, hσ, rfl⟩ := h
  exact ⟨σ, fun i hi => hσ i (by omega), rfl⟩

theorem Rearr.outside {a b : ℤ → α} {s e : ℤ} (h : Rearr a b s e) {i : ℤ} (hi : i < s ∨ e < i) :
    b i = a i := by
  obtain ⟨σ, hσ, rfl⟩ := h
  simp [hσ i hi]

theorem Rearr.inside {a b : ℤ → α} {s e : ℤ} (h : Rearr a b s e) {i : ℤ} (h1 : s ≤ i) (h2 : i ≤ e) :
    ∃ j, s ≤ j ∧ j ≤ e ∧ b i = a j := by
  obtain ⟨σ, hσ, rfl⟩ := h
  refine ⟨σ i, ?_, ?_, rfl⟩
  · by_contra hc
    have := hσ (σ i) (by omega)
    have := σ.injective this
    omega
  · by_contra hc
    have := hσ (σ i) (by omega)
    have := σ.injective this
    omega

theorem moveBefore_eq (a : ℤ → α) (pivot i : ℤ) (h : pivot < i) :
    moveBefore a pivot i = a ∘ (Equiv.swap pivot i * Equiv.swap i (pivot + 1) : Equiv.Perm ℤ) := by
  funext j
  simp only [moveBefore, Function.comp, Equiv.Perm.mul_apply]
  by_cases h1 : j = pivot + 1
  · subst h1
    rw [Function.update_self, Equiv.swap_apply_right, Equiv.swap_apply_right]
  · rw [Function.update_of_ne h1]
    by_cases h2 : j = i
    · subst h2
      rw [Function.update_self, Equiv.swap_apply_left, Function.update_of_ne (by omega),
        Equiv.swap_apply_of_ne_of_ne (by omega) (by omega)]
    · rw [Function.update_of_ne h2, Equiv.swap_apply_of_ne_of_ne h2 h1]
      by_cases h3 : j = pivot
      · subst h3
        rw [Function.update_self, Equiv.swap_apply_left]
      · rw [Function.update_of_ne h3, Equiv.swap_apply_of_ne_of_ne h3 h2]

theorem moveBefore_rearr (a : ℤ → α) (pivot i s e : ℤ) (h0 : s ≤ pivot) (h : pivot < i) (h1 : i ≤ e) :
    Rearr a (moveBefore a pivot i) s e := by
  refine ⟨_, ?_, moveBefore_eq a pivot i h⟩
  intro j hj
  have h2 : Equiv.swap i (pivot + 1) j = j := Equiv.swap_apply_of_ne_of_ne (by omega) (by omega)
  rw [Equiv.Perm.mul_apply, h2]
  exact Equiv.swap_apply_of_ne_of_ne (by omega) (by omega)

theorem moveBefore_pivot1 (a : ℤ → α) (pivot i : ℤ) : moveBefore a pivot i (pivot + 1) = a pivot := by
  simp [moveBefore]

theorem moveBefore_pivot (a : ℤ → α) (pivot i : ℤ) (h : pivot < i) : moveBefore a pivot i pivot = a i := by
  simp only [moveBefore]
  rw [Function.update_of_ne (by omega), Function.update_of_ne (by omega), Function.update_self]

theorem moveBefore_i (a : ℤ → α) (pivot i : ℤ) (h : pivot + 1 < i) :
    moveBefore a pivot i i = a (pivot + 1) := by
  simp only [moveBefore]
  rw [Function.update_of_ne (by omega), Function.update_self, Function.update_of_ne (by omega)]

theorem moveBefore_other (a : ℤ → α) (pivot i j : ℤ) (h1 : j ≠ pivot) (h2 : j ≠ pivot + 1) (h3 : j ≠ i) :
    moveBefore a pivot i j = a j := by
  simp only [moveBefore]
  rw [Function.update_of_ne h2, Function.update_of_ne h3, Function.update_of_ne h1]

theorem partLoop_spec (cmp : α → α → Res Bool) (key : α → K) (good : α → Prop)
    (hc : ∀ x y, good x → good y → cmp x y = .ok (decide (key y < key x))) (s e : ℤ) :
    ∀ (n : ℕ) (a : ℤ → α) (pivot i : ℤ), (n : ℤ) = e - i + 1 → s ≤ pivot → pivot < i →
      (∀ j, s ≤ j → j ≤ e → good (a j)) →
      (∀ j, s ≤ j → j < pivot → key (a j) ≤ key (a pivot)) →
      (∀ j, pivot < j → j < i → key (a pivot) ≤ key (a j)) →
      ∃ b q, partLoop cmp n a pivot i = .ok (b, q) ∧ Rearr a b s e ∧ s ≤ q ∧ q ≤ max pivot e ∧
        (∀ j, s ≤ j → j < q → key (b j) ≤ key (b q)) ∧
        (∀ j, q < j → j ≤ e → key (b q) ≤ key (b j)) := by
  intro n
  induction n with
  | zero =>
    intro a pivot i hn hs hp hg hl hr
    refine ⟨a, pivot, rfl, Rearr.refl _ _ _, hs, le_max_left _ _, hl, fun j h1 h2 => hr j h1 (by omega)⟩
  | succ n ih =>
    intro a pivot i hn hs hp hg hl hr
    have hie : i ≤ e := by omega
    have hcmp := hc (a pivot) (a i) (hg _ hs (by omega)) (hg _ (by omega) hie)
    simp only [partLoop, hcmp, Res.bind_ok]
    by_cases hk : key (a i) < key (a pivot)
    · simp only [hk, decide_true, if_true]
      have hre := moveBefore_rearr a pivot i s e hs hp hie
      obtain ⟨b, q, e1, e2, e3, e4, e5, e6⟩ := ih (moveBefore a pivot i) (pivot + 1) (i + 1) (by omega) (by omega)
        (by omega) (by
          intro j h1 h2
          obtain ⟨j', a1, a2, a3⟩ := hre.inside h1 h2
          rw [a3]; exact hg _ a1 a2)
        (by
          intro j h1 h2
          rw [moveBefore_pivot1]
          by_cases hj : j = pivot
          · subst hj; rw [moveBefore_pivot _ _ _ hp]; exact hk.le
          · rw [moveBefore_other _ _ _ _ hj (by omega) (by omega)]; exact hl j h1 (by omega))
        (by
          intro j h1 h2
          rw [moveBefore_pivot1]
          by_cases hj : j = i
          · subst hj; rw [moveBefore_i _ _ _ (by omega)]; exact hr _ (by omega) (by omega)
          · rw [moveBefore_other _ _ _ _ (by omega) (by omega) hj]; exact hr j (by omega) (by omega))
      exact ⟨b, q, e1, hre.trans e2, e3, by omega, e5, e6⟩
    · simp only [hk, decide_false, Bool.false_eq_true, if_false]
      obtain ⟨b, q, e1, e2, e3, e4, e5, e6⟩ := ih a pivot (i + 1) (by omega) hs (by omega) hg hl (by
        intro j h1 h2
        by_cases hj : j = i
        · subst hj; exact not_lt.mp hk
        · exact hr j h1 (by omega))
      exact ⟨b, q, e1, e2, e3, e4, e5, e6⟩

theorem swapStart_rearr (a : ℤ → α) (s e pv : ℤ) (h1 : s ≤ pv) (h2 : pv ≤ e) :
    Rearr a (Function.update (Function.update a pv (a s)) s (a pv)) s e := by
  refine ⟨Equiv.swap s pv, fun i hi => Equiv.swap_apply_of_ne_of_ne (by omega) (by omega), ?_⟩
  funext j
  simp only [Function.comp]
  by_cases hj : j = s
  · subst hj; rw [Function.update_self, Equiv.swap_apply_left]
  · rw [Function.update_of_ne hj]
    by_cases hj2 : j = pv
    · subst hj2; rw [Function.update_self, Equiv.swap_apply_right]
    · rw [Function.update_of_ne hj2, Equiv.swap_apply_of_ne_of_ne hj hj2]

theorem quicksort_spec (cmp : α → α → Res Bool) (key : α → K) (good : α → Prop)
    (hc : ∀ x y, good x → good y → cmp x y = .ok (decide (key y < key x))) :
    ∀ (fuel : ℕ) (a : ℤ → α) (s e : ℤ), 0 ≤ s → e - s ≤ fuel →
      (∀ j, s ≤ j → j ≤ e → good (a j)) →
      ∃ b, quicksort cmp fuel a s e = .ok b ∧ Rearr a b s e ∧
        ∀ i j, s ≤ i → i ≤ j → j ≤ e → key (b i) ≤ key (b j) := by
  intro fuel
  induction fuel with
  | zero =>
    intro a s e h0 hf hg
    refine ⟨a, by unfold quicksort; rw [if_pos (by omega)], Rearr.refl _ _ _, ?_⟩
    intro i j h1 h2 h3
    have : i = j := by push_cast at hf; omega
    rw [this]
  | succ fuel ih =>
    intro a s e h0 hf hg
    by_cases hse : e ≤ s
    · refine ⟨a, by unfold quicksort; rw [if_pos hse], Rearr.refl _ _ _, ?_⟩
      intro i j h1 h2 h3
      have : i = j := by omega
      rw [this]
    · have hpv : Int.tdiv (s + e + 1) 2 = (s + e + 1) / 2 := Int.tdiv_eq_ediv_of_nonneg (by omega)
      have r1 := swapStart_rearr a s e ((s + e + 1) / 2) (by omega) (by omega)
      have hg1 : ∀ j, s ≤ j → j ≤ e →
          good (Function.update (Function.update a ((s + e + 1) / 2) (a s)) s (a ((s + e + 1) / 2)) j) := by
        intro j h1 h2
        obtain ⟨j', b1, b2, b3⟩ := r1.inside h1 h2
        rw [b3]; exact hg _ b1 b2
      obtain ⟨b, q, e1, r2, q1, q2, hl, hr⟩ := partLoop_spec cmp key good hc s e (e - s).toNat _ s (s + 1) (by omega)
        le_rfl (by omega) hg1 (by intro j h1 h2; omega) (by intro j h1 h2; omega)
      have q2' : q ≤ e := by rw [max_eq_right (by omega)] at q2; exact q2
      have hg2 : ∀ j, s ≤ j → j ≤ e → good (b j) := by
        intro j h1 h2
        obtain ⟨j', b1, b2, b3⟩ := r2.inside h1 h2
        rw [b3]; exact hg1 _ b1 b2
      obtain ⟨c, e2, r3, sl⟩ := ih b s (q - 1) h0 (by push_cast at hf; omega)
        (fun j h1 h2 => hg2 j h1 (by omega))
      have hg3 : ∀ j, s ≤ j → j ≤ e → good (c j) := by
        intro j h1 h2
        obtain ⟨j', b1, b2, b3⟩ := (r3.mono (le_refl s) (show q - 1 ≤ e by omega)).inside h1 h2
        rw [b3]; exact hg2 _ b1 b2
      obtain ⟨d, e3, r4, sr⟩ := ih c (q + 1) e (by omega) (by push_cast at hf; omega)
        (fun j h1 h2 => hg3 j (by omega) h2)
      refine ⟨d, ?_, r1.trans (r2.trans ((r3.mono (le_refl s) (by omega)).trans (r4.mono (by omega) (le_refl e)))), ?_⟩
      · rw [quicksort, if_neg hse]
        simp only [hpv, e1, Res.bind_ok, e2]
        exact e3
      · have hdq : d q = b q := by rw [r4.outside (by omega), r3.outside (by omega)]
        have hdl : ∀ i, s ≤ i → i < q → d i = c i := fun i h1 h2 => r4.outside (by omega)
        have hL : ∀ i, s ≤ i → i < q → key (d i) ≤ key (b q) := by
          intro i h1 h2
          rw [hdl i h1 h2]
          obtain ⟨j', b1, b2, b3⟩ := r3.inside h1 (show i ≤ q - 1 by omega)
          rw [b3]; exact hl _ b1 (by omega)
        have hR : ∀ i, q < i → i ≤ e → key (b q) ≤ key (d i) := by
          intro i h1 h2
          obtain ⟨j', b1, b2, b3⟩ := r4.inside (show q + 1 ≤ i by omega) h2
          rw [b3, r3.outside (by omega)]; exact hr _ (by omega) b2
        intro i j h1 h2 h3
        rcases lt_trichotomy i q with hi | hi | hi
        · rcases lt_trichotomy j q with hj | hj | hj
          · rw [hdl i h1 hi, hdl j (by omega) hj]; exact sl i j h1 h2 (by omega)
          · subst hj; rw [hdq]; exact hL i h1 hi
          · exact le_trans (hL i h1 hi) (hR j hj h3)
        · subst hi
          rcases lt_or_eq_of_le h2 with hj | hj
          · rw [hdq]; exact hR j hj h3
          · rw [hj]
        · exact sr i j (by omega) h2 h3

end QuickProofs

/-- The particle lies in zone `z` of this direction: in directions that exist the zone whose faces enclose it
counted from the first active zone of the Grid, in others zone 0.  The zone numbers are those of a Grid with
at most 2147483647 zones.  Particles that left the Grid on the left are counted with numbers rounded towards
zero: the one less than a zone away counts as being in zone 0. -/
def InZone (E : Edge) (x : ℝ) (z : ℤ) : Prop :=
  (E.inv = 0 ∧ z = 0) ∨
    (0 < E.inv ∧ 0 ≤ z ∧ z ≤ 2147483647 ∧ E.minX + z / E.inv ≤ x ∧ x < E.minX + (z + 1) / E.inv) ∨
    (0 < E.inv ∧ z ≤ 0 ∧ -2147483648 ≤ z ∧ x < E.minX ∧ E.minX + (z - 1) / E.inv < x ∧ x ≤ E.minX + z / E.inv)

theorem index_of_inZone {E : Edge} {x : ℝ} {z : ℤ} (h : InZone E x z) : index E x = .ok z := by
  rcases h with ⟨h0, rfl⟩ | ⟨h0, h1, h2, h3, h4⟩ | ⟨h0, h1, h2, h3, h4, h5⟩
  · unfold index
    rw [h0, mul_zero]
    exact Pos.toInt_floor le_rfl (by norm_num) (by norm_num) (by norm_num)
  · unfold index
    refine Pos.toInt_floor h1 h2 ?_ ?_
    · have : z / E.inv ≤ x - E.minX := by linarith
      rw [div_le_iff₀ h0] at this; exact this
    · have : x - E.minX < ((z:ℝ) + 1) / E.inv := by linarith
      rw [lt_div_iff₀ h0] at this; exact this
  · unfold index Pos.toInt
    have hneg : ¬ 0 ≤ (x - E.minX) * E.inv := by
      have := mul_neg_of_neg_of_pos (sub_neg.mpr h3) h0
      linarith
    have hc : ⌈(x - E.minX) * E.inv⌉ = z := by
      rw [Int.ceil_eq_iff]
      constructor
      · have : ((z:ℝ) - 1) / E.inv < x - E.minX := by linarith
        rw [div_lt_iff₀ h0] at this; exact this
      · have : x - E.minX ≤ z / E.inv := by linarith
        rw [le_div_iff₀ h0] at this; exact this
    simp only [hneg, if_false, hc]
    rw [if_pos ⟨h2, by omega⟩]

/-- The zone of a particle in storage order: x3 index first, then x2, then x1. -/
abbrev ZKey := ℤ ×ₗ ℤ ×ₗ ℤ

theorem zkey_lt (k j i k' j' i' : ℤ) :
    (toLex (k, toLex (j, i)) : ZKey) < toLex (k', toLex (j', i')) ↔
      k < k' ∨ k = k' ∧ (j < j' ∨ j = j' ∧ i < i') := by
  rw [Prod.Lex.toLex_lt_toLex, Prod.Lex.toLex_lt_toLex]

open Classical in
/-- C83: re-sorting the particles of a Grid terminates, leaves the array a rearrangement of what it was
(the entries beyond the particles untouched), and afterwards the particles are in the storage order of the
zones they lie in: x3 index first, then x2, then x1. -/
theorem shuffle_sorted (E : Fin 3 → Edge) (n : ℕ) (a : ℤ → Grain) (zone : Grain → Fin 3 → ℤ)
    (hz : ∀ p : ℤ, 0 ≤ p → p < n → ∀ d, InZone (E d) ((a p).x d) (zone (a p) d)) :
    ∃ b, shuffle E n a = .ok b ∧
      (∃ σ : Equiv.Perm ℤ, (∀ i, i < 0 ∨ (n:ℤ) ≤ i → σ i = i) ∧ ∀ i, b i = a (σ i)) ∧
      ∀ p q : ℤ, 0 ≤ p → p < q → q < n →
        zone (b p) 2 < zone (b q) 2 ∨ zone (b p) 2 = zone (b q) 2 ∧
          (zone (b p) 1 < zone (b q) 1 ∨ zone (b p) 1 = zone (b q) 1 ∧ zone (b p) 0 ≤ zone (b q) 0) := by
  let key : Grain → ZKey := fun g => toLex (zone g 2, toLex (zone g 1, zone g 0))
  let good : Grain → Prop := fun g => ∀ d, InZone (E d) (g.x d) (zone g d)
  have hc : ∀ x y, good x → good y → compareGr E x y = .ok (decide (key y < key x)) := by
    intro x y hx hy
    have kx := fun d => index_of_inZone (hx d)
    have ky := fun d => index_of_inZone (hy d)
    simp only [compareGr, kx, ky, Res.bind_ok, key, zkey_lt]
    by_cases h1 : zone x 2 < zone y 2
    · rw [if_pos h1]
      have : ¬ (zone y 2 < zone x 2 ∨ zone y 2 = zone x 2 ∧
        (zone y 1 < zone x 1 ∨ zone y 1 = zone x 1 ∧ zone y 0 < zone x 0)) := by omega
      simp only [this, decide_false]; rfl
    rw [if_neg h1]
    by_cases h2 : zone x 2 > zone y 2
    · rw [if_pos h2]
      simp only [show zone y 2 < zone x 2 from h2, true_or, decide_true]; rfl
    rw [if_neg h2]
    have e2 : zone y 2 = zone x 2 := by omega
    by_cases h3 : zone x 1 < zone y 1
    · rw [if_pos h3]
      have : ¬ (zone y 2 < zone x 2 ∨ zone y 2 = zone x 2 ∧
        (zone y 1 < zone x 1 ∨ zone y 1 = zone x 1 ∧ zone y 0 < zone x 0)) := by omega
      simp only [this, decide_false]; rfl
    rw [if_neg h3]
    by_cases h4 : zone x 1 > zone y 1
    · rw [if_pos h4]
      have : zone y 2 < zone x 2 ∨ zone y 2 = zone x 2 ∧
        (zone y 1 < zone x 1 ∨ zone y 1 = zone x 1 ∧ zone y 0 < zone x 0) := by omega
      simp only [this, decide_true]; rfl
    rw [if_neg h4]
    have e1 : zone y 1 = zone x 1 := by omega
    by_cases h5 : zone x 0 < zone y 0
    · rw [if_pos h5]
      have : ¬ (zone y 2 < zone x 2 ∨ zone y 2 = zone x 2 ∧
        (zone y 1 < zone x 1 ∨ zone y 1 = zone x 1 ∧ zone y 0 < zone x 0)) := by omega
      simp only [this, decide_false]; rfl
    rw [if_neg h5]
    by_cases h6 : zone x 0 > zone y 0
    · rw [if_pos h6]
      have : zone y 2 < zone x 2 ∨ zone y 2 = zone x 2 ∧
        (zone y 1 < zone x 1 ∨ zone y 1 = zone x 1 ∧ zone y 0 < zone x 0) := by omega
      simp only [this, decide_true]; rfl
    · rw [if_neg h6]
      have : ¬ (zone y 2 < zone x 2 ∨ zone y 2 = zone x 2 ∧
        (zone y 1 < zone x 1 ∨ zone y 1 = zone x 1 ∧ zone y 0 < zone x 0)) := by omega
      simp only [this, decide_false]; rfl
  obtain ⟨b, e, ⟨σ, hσ, hb⟩, hs⟩ := quicksort_spec (compareGr E) key good hc n a 0 (n - 1) le_rfl (by omega)
    (fun j h1 h2 => hz j h1 (by omega))
  refine ⟨b, e, ⟨σ, fun i hi => hσ i (by omega), fun i => by rw [hb]; rfl⟩, ?_⟩
  intro p q h1 h2 h3
  have h := hs p q h1 h2.le (by omega)
  have h' : ¬ (key (b q) < key (b p)) := not_lt.mpr h
  simp only [key, zkey_lt] at h'
  omega

/-- The hypotheses of `shuffle_sorted` are met: two particles in a line of zones of width 1/2. -/
example : ∃ (E : Fin 3 → Edge) (a : ℤ → Grain) (zone : Grain → Fin 3 → ℤ),
    (∀ p : ℤ, 0 ≤ p → p < 2 → ∀ d, InZone (E d) ((a p).x d) (zone (a p) d)) ∧
    zone (a 0) 0 = 3 ∧ zone (a 1) 0 = 1 := by
  refine ⟨fun d => if d = 0 then ⟨0, 2⟩ else ⟨0, 0⟩,
    fun p => ⟨fun d => if d = 0 then (if p = 0 then 8/5 else 3/5) else 0, fun _ => 0, 0, 1, p, 0⟩,
    fun g d => if d = 0 then (if g.id = 0 then 3 else 1) else 0, ?_, by simp, by simp⟩
  intro p h1 h2 d
  by_cases hd : d = 0
  · subst hd
    right
    have : p = 0 ∨ p = 1 := by omega
    rcases this with rfl | rfl <;> norm_num
  · left
    simp [hd]

/-! ## Deleting -/

/-- The particles stored in the first `n` places, as a multiset. -/
def stored (a : ℕ → Grain) (n : ℕ) : Multiset Grain := (Multiset.range n).map a

theorem stored_step (a : ℕ → Grain) (p n : ℕ) (h : p < n) :
    a p ::ₘ stored (Function.update a p (a (n - 1))) (n - 1) = stored a n := by
  obtain ⟨m, rfl⟩ : ∃ m, n = m + 1 := ⟨n - 1, by omega⟩
  simp only [Nat.add_sub_cancel, stored, Multiset.range_succ, Multiset.map_cons]
  by_cases hp : p = m
  · subst hp
    congr 1
    refine Multiset.map_congr rfl fun i hi => ?_
    rw [Multiset.mem_range] at hi
    rw [Function.update_of_ne (by omega)]
  · have hmem : p ∈ Multiset.range m := Multiset.mem_range.mpr (by omega)
    obtain ⟨t, ht⟩ := Multiset.exists_cons_of_mem hmem
    have hnd : (Multiset.range m).Nodup := Multiset.nodup_range m
    rw [ht] at hnd ⊢
    have hpt : p ∉ t := (Multiset.nodup_cons.mp hnd).1
    simp only [Multiset.map_cons, Function.update_self]
    rw [Multiset.cons_swap]
    congr 2
    refine Multiset.map_congr rfl fun i hi => ?_
    rw [Function.update_of_ne]
    rintro rfl; exact hpt hi

theorem deleteLoop_spec : ∀ (fuel : ℕ) (a : ℕ → Grain) (p n : ℕ) (num : ℤ → ℤ), n - p ≤ fuel → p ≤ n →
    (∀ i, i < p → (a i).pos ≠ 0) →
    ∃ b m num', deleteLoop fuel a p n num = some (b, m, num') ∧
      stored b m = (stored a n).filter (fun g => g.pos ≠ 0) ∧
      ∀ t, num' t = num t - (((stored a n).filter (fun g => g.pos = 0 ∧ g.prop = t)).card : ℤ) := by
  intro fuel
  induction fuel with
  | zero =>
    intro a p n num hf hp hk
    have hall : ∀ g ∈ stored a n, g.pos ≠ 0 := by
      intro g hg
      obtain ⟨i, hi, rfl⟩ := Multiset.mem_map.mp hg
      rw [Multiset.mem_range] at hi
      exact hk i (by omega)
    refine ⟨a, n, num, by unfold deleteLoop; rw [if_neg (by omega)], ?_, ?_⟩
    · exact (Multiset.filter_eq_self.mpr hall).symm
    · intro t
      rw [Multiset.filter_eq_nil.mpr]
      · simp
      · intro g hg h; exact hall g hg h.1
  | succ fuel ih =>
    intro a p n num hf hp hk
    by_cases hpn : p < n
    · by_cases h0 : (a p).pos = 0
      · obtain ⟨b, m, num', e1, e2, e3⟩ := ih (Function.update a p (a (n - 1))) p (n - 1)
          (Function.update num (a p).prop (num (a p).prop - 1)) (by omega) (by omega) (by
            intro i hi; rw [Function.update_of_ne (by omega)]; exact hk i hi)
        have hst := stored_step a p n hpn
        refine ⟨b, m, num', ?_, ?_, ?_⟩
        · rw [deleteLoop, if_pos hpn]
          simp only [h0, if_true]
          exact e1
        · rw [e2, ← hst, Multiset.filter_cons_of_neg _ (by simpa using h0)]
        · intro t
          rw [e3 t, ← hst]
          by_cases ht : t = (a p).prop
          · subst ht
            rw [Multiset.filter_cons_of_pos _ ⟨h0, rfl⟩, Multiset.card_cons, Function.update_self]
            push_cast; ring
          · rw [Multiset.filter_cons_of_neg _ (fun h => ht h.2.symm), Function.update_of_ne ht]
      · obtain ⟨b, m, num', e1, e2, e3⟩ := ih a (p + 1) n num (by omega) (by omega) (by
            intro i hi
            by_cases hip : i = p
            · subst hip; exact h0
            · exact hk i (by omega))
        refine ⟨b, m, num', ?_, e2, e3⟩
        rw [deleteLoop, if_pos hpn]
        simp only [h0, if_false]
        exact e1
    · have hall : ∀ g ∈ stored a n, g.pos ≠ 0 := by
        intro g hg
        obtain ⟨i, hi, rfl⟩ := Multiset.mem_map.mp hg
        rw [Multiset.mem_range] at hi
        exact hk i (by omega)
      refine ⟨a, n, num, by unfold deleteLoop; rw [if_neg hpn], ?_, ?_⟩
      · exact (Multiset.filter_eq_self.mpr hall).symm
      · intro t
        rw [Multiset.filter_eq_nil.mpr]
        · simp
        · intro g hg h; exact hall g hg h.1

/-- C83: deleting ghost particles terminates, keeps exactly the particles that are not ghosts, each with its
multiplicity, and lowers the counter of each type by the number of ghosts of that type. -/
theorem deleteGhost_exact (a : ℕ → Grain) (n : ℕ) (num : ℤ → ℤ) :
    ∃ b m num', deleteGhost a n num = some (b, m, num') ∧
      (Multiset.range m).map b = ((Multiset.range n).map a).filter (fun g => g.pos ≠ 0) ∧
      ∀ t, num' t = num t
        - ((((Multiset.range n).map a).filter (fun g => g.pos = 0 ∧ g.prop = t)).card : ℤ) :=
  deleteLoop_spec n a 0 n num (by omega) (Nat.zero_le _) (by intro i hi; omega)

end Athena.Part
