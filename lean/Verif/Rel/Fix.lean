import Verif.Rel.HllcStep
import Mathlib.Algebra.BigOperators.Intervals

/-!
First-order flux correction of the relativistic van Leer integrators without magnetic field:
Steps 14 and 15a and `FixCell` of /repo/src/integrators/integrate_1d_vl_sr.c and `FixCell` of
/repo/src/integrators/integrate_3d_vl_sr.c.

Simplifications: `Real` is ℝ; no static potential, no passive scalars.  The high-order fluxes
`x1Flux` and the first-order fluxes `x1FluxP` are arbitrary arrays.
-/
namespace Athena.Rel

/-- Difference of two fluxes. -/
def Cons.sub (U V : Cons) : Cons := ⟨U.d - V.d, U.Mx - V.Mx, U.My - V.My, U.Mz - V.Mz, U.E - V.E⟩

/-- The check of Step 15a (integrate_1d_vl_sr.c:371-392): negative density or pressure, or
faster than light; without field `check_Prim` is the ordinary conversion
(/repo/src/convert_var.c:353-357). -/
def flagged (g : ℝ) (U : Cons) : Prop :=
  (consToPrim g U).d < 0 ∨ (consToPrim g U).P < 0 ∨
    1 < (consToPrim g U).Vx ^ 2 + (consToPrim g U).Vy ^ 2 + (consToPrim g U).Vz ^ 2

/-- Step 14a (integrate_1d_vl_sr.c:341-349): the zones `is..ie` with the high-order fluxes. -/
def step14 (lam : ℝ) (is ie : ℤ) (F U : ℤ → Cons) : ℤ → Cons := fun i =>
  if is ≤ i ∧ i ≤ ie then updHalf lam (U i) (F (i + 1)) (F i) else U i

/-- `FixCell` in one dimension (integrate_1d_vl_sr.c:616-697). -/
def fixCell1 (lam : ℝ) (is ie : ℤ) (F FP : ℤ → Cons) (i : ℤ) (U : ℤ → Cons) : ℤ → Cons :=
  let FDi := (F i).sub (FP i)
  let FDp := (F (i + 1)).sub (FP (i + 1))
  fun n =>
    if n = i then (U n).add ((FDp.sub FDi).smul lam)
    else if n = i - 1 ∧ i > is then (U n).add (FDi.smul lam)
    else if n = i + 1 ∧ i < ie then (U n).sub (FDp.smul lam)
    else U n

/-- Zones and the list of the zones repaired so far. -/
structure Fixing where
  U : ℤ → Cons
  fixed : List ℤ

open Classical in
/-- The body of the loop of Step 15a (integrate_1d_vl_sr.c:371-397). -/
noncomputable def visit (bad : Cons → Prop) (lam : ℝ) (is ie : ℤ) (F FP : ℤ → Cons) (s : Fixing)
    (i : ℤ) : Fixing :=
  if bad (s.U i) then ⟨fixCell1 lam is ie F FP i s.U, i :: s.fixed⟩ else s

/-- The zones `is, is+1, ..., is+n-1`. -/
def zones (is : ℤ) (n : ℕ) : List ℤ := (List.range n).map fun k : ℕ => is + (k : ℤ)

/-- Steps 14 and 15a (integrate_1d_vl_sr.c:341-399): update with the high-order fluxes, then go
through the zones in order. -/
noncomputable def correct1 (bad : Cons → Prop) (lam : ℝ) (is : ℤ) (n : ℕ) (F FP U : ℤ → Cons) :
    Fixing :=
  (zones is n).foldl (visit bad lam is (is + n - 1) F FP)
    ⟨step14 lam is (is + n - 1) F U, []⟩

/-- How often the flux of the face between zones `f-1` and `f` has been replaced. -/
def times (fixed : List ℤ) (f : ℤ) : ℝ :=
  (if f ∈ fixed then 1 else 0) + (if f - 1 ∈ fixed then 1 else 0)

/-- The flux a face is left with. -/
def left (fixed : List ℤ) (F FP : ℤ → Cons) (f : ℤ) : Cons :=
  (F f).sub (((F f).sub (FP f)).smul (times fixed f))

section run
variable {lam : ℝ} {is ie : ℤ} {F FP U : ℤ → Cons}

/-- The invariant of the loop. -/
structure Made (lam : ℝ) (is ie : ℤ) (F FP U : ℤ → Cons) (s : Fixing) : Prop where
  zone : ∀ i, is ≤ i → i ≤ ie →
    s.U i = updHalf lam (U i) (left s.fixed F FP (i + 1)) (left s.fixed F FP i)
  other : ∀ i, (i < is ∨ ie < i) → s.U i = U i
  mem : ∀ i ∈ s.fixed, is ≤ i ∧ i ≤ ie

theorem made_fix {s : Fixing} (h : Made lam is ie F FP U s) {i : ℤ} (h1 : is ≤ i) (h2 : i ≤ ie)
    (hi : i ∉ s.fixed) :
    Made lam is ie F FP U ⟨fixCell1 lam is ie F FP i s.U, i :: s.fixed⟩ := by
  refine ⟨?_, ?_, ?_⟩
  · intro n n1 n2
    simp only [fixCell1]
    split_ifs with c1 c2 c3
    · subst c1
      rw [h.zone n n1 n2]
      have e1 : n - 1 ≠ n := by omega
      have e2 : n + 1 ≠ n := by omega
      simp only [left, times, List.mem_cons, true_or, if_true, hi, add_sub_cancel_right, e1, e2,
        false_or, if_false]
      unfold updHalf Cons.sub Cons.add Cons.smul
      ext <;> simp only <;> ring
    · obtain ⟨rfl, c2⟩ := c2
      rw [h.zone _ n1 n2]
      have e1 : i - 1 ≠ i := by omega
      have e2 : i - 1 - 1 ≠ i := by omega
      simp only [left, times, List.mem_cons, true_or, if_true, hi, sub_add_cancel, e1, e2,
        false_or, if_false]
      unfold updHalf Cons.sub Cons.add Cons.smul
      ext <;> simp only <;> ring
    · obtain ⟨rfl, c3⟩ := c3
      rw [h.zone _ n1 n2]
      have e1 : i + 1 ≠ i := by omega
      have e2 : i + 1 + 1 ≠ i := by omega
      simp only [left, times, List.mem_cons, true_or, if_true, hi, add_sub_cancel_right, e1, e2,
        false_or, if_false]
      unfold updHalf Cons.sub Cons.smul
      ext <;> simp only <;> ring
    · rw [h.zone _ n1 n2]
      have e1 : n ≠ i := c1
      have e2 : n + 1 ≠ i := by rintro rfl; apply c2; constructor <;> omega
      have e3 : n - 1 ≠ i := by rintro rfl; apply c3; constructor <;> omega
      have e4 : n + 1 - 1 ≠ i := by omega
      simp only [left, times, List.mem_cons, e1, e2, e3, e4, false_or]
  · intro n hn
    simp only [fixCell1]
    rw [if_neg (by omega), if_neg (by omega), if_neg (by omega)]
    exact h.other n hn
  · intro n hn
    rcases List.mem_cons.1 hn with e | e
    · subst e; exact ⟨h1, h2⟩
    · exact h.mem n e

theorem made_run (bad : Cons → Prop) (n : ℕ) :
    Made lam is (is + n - 1) F FP U (correct1 bad lam is n F FP U) := by
  have key : ∀ m : ℕ, m ≤ n →
      let s := (zones is m).foldl (visit bad lam is (is + n - 1) F FP)
        ⟨step14 lam is (is + n - 1) F U, []⟩
      Made lam is (is + n - 1) F FP U s ∧ ∀ i ∈ s.fixed, i < is + m := by
    intro m
    induction m with
    | zero =>
      intro _
      refine ⟨⟨?_, ?_, ?_⟩, ?_⟩
      · intro i h1 h2
        simp only [zones, List.range_zero, List.map_nil, List.foldl_nil, step14]
        rw [if_pos ⟨h1, h2⟩]
        simp only [left, times, List.not_mem_nil, if_false]
        unfold updHalf Cons.sub Cons.smul
        ext <;> simp only <;> ring
      · intro i hi
        simp only [zones, List.range_zero, List.map_nil, List.foldl_nil, step14]
        rw [if_neg (by omega)]
      · intro i hi; simp [zones] at hi
      · intro i hi; simp [zones] at hi
    | succ m ih =>
      intro hm
      obtain ⟨h, hb⟩ := ih (by omega)
      have e : zones is (m + 1) = zones is m ++ [is + (m : ℤ)] := by
        simp [zones, List.range_succ]
      simp only [e, List.foldl_append, List.foldl_cons, List.foldl_nil]
      generalize (zones is m).foldl (visit bad lam is (is + n - 1) F FP)
        ⟨step14 lam is (is + n - 1) F U, []⟩ = s at *
      unfold visit
      split_ifs with c
      · refine ⟨made_fix h (by omega) (by push_cast; omega) ?_, ?_⟩
        · intro hc; have := hb _ hc; omega
        · intro i hi
          rcases List.mem_cons.1 hi with e | e
          · subst e; push_cast; omega
          · have := hb i e; push_cast; omega
      · refine ⟨h, ?_⟩
        intro i hi
        have := hb i hi
        push_cast
        omega
  exact (key n le_rfl).1

end run

/-- **C107, what the repair does.**  Whatever check decides which zones are bad, and whatever
the fluxes: after the loop every zone is the update of its old value with one flux per face,
namely the high-order flux, less the difference to the first-order flux as often as a zone next
to the face was repaired. -/
theorem sr_fix_made (bad : Cons → Prop) (lam : ℝ) (is : ℤ) (n : ℕ) (F FP U : ℤ → Cons) :
    let s := correct1 bad lam is n F FP U
    ∀ i, is ≤ i → i ≤ is + n - 1 →
      s.U i = updHalf lam (U i) (left s.fixed F FP (i + 1)) (left s.fixed F FP i) :=
  (made_run bad n).zone

/-- **C107, the repaired zone.**  A repaired zone whose neighbours were not repaired holds
exactly the first-order update of its old value. -/
theorem sr_fix_isolated_partial (bad : Cons → Prop) (lam : ℝ) (is : ℤ) (n : ℕ)
    (F FP U : ℤ → Cons) (i : ℤ) :
    let s := correct1 bad lam is n F FP U
    i ∈ s.fixed → i - 1 ∉ s.fixed → i + 1 ∉ s.fixed →
      s.U i = updHalf lam (U i) (FP (i + 1)) (FP i) := by
  intro s h1 h2 h3
  have hm := made_run (lam := lam) (is := is) (F := F) (FP := FP) (U := U) bad n
  obtain ⟨a, b⟩ := hm.mem i h1
  rw [hm.zone i a b]
  change updHalf lam (U i) (left s.fixed F FP (i + 1)) (left s.fixed F FP i) = _
  simp only [left, times, h1, h2, h3, add_sub_cancel_right, if_true, if_false]
  unfold updHalf Cons.sub Cons.smul
  ext <;> simp only <;> ring

/-- **C107, and it is physical again.**  If moreover the first-order fluxes are those of the
relativistic HLLC solver between the old states, and the time step is at most half the
light-crossing time of a zone, then the repaired zone holds a gas with positive density and
pressure that moves slower than light. -/
theorem sr_fix_physical_partial {g lam : ℝ} (hg : 1 < g) (hg2 : g ≤ 2) (h0 : 0 ≤ lam)
    (h1 : lam ≤ 1 / 2) (bad : Cons → Prop) (is : ℤ) (n : ℕ) (F : ℤ → Cons) (W : ℤ → Prim)
    (hW : ∀ i, (W i).Warm) (i : ℤ) :
    let U := fun i => primToCons g (W i)
    let s := correct1 bad lam is n F (fun f => hllcSR g (U (f - 1)) (U f) (W (f - 1)) (W f)) U
    i ∈ s.fixed → i - 1 ∉ s.fixed → i + 1 ∉ s.fixed →
      ∃ W' : Prim, W'.Warm ∧ primToCons g W' = s.U i := by
  intro U s a b c
  rw [sr_fix_isolated_partial bad lam is n F _ U i a b c]
  have := sr_first_order_physical hg hg2 h0 h1 (W (i - 1)) (W i) (W (i + 1)) (hW _) (hW _) (hW _)
  simpa only [add_sub_cancel_right] using this

/-- A zone nobody touched is not next to a repaired zone, and the reverse. -/
theorem sr_fix_untouched (bad : Cons → Prop) (lam : ℝ) (is : ℤ) (n : ℕ)
    (F FP U : ℤ → Cons) (i : ℤ) (a : is ≤ i) (b : i ≤ is + n - 1) :
    let s := correct1 bad lam is n F FP U
    i ∉ s.fixed → i - 1 ∉ s.fixed → i + 1 ∉ s.fixed →
      s.U i = updHalf lam (U i) (F (i + 1)) (F i) := by
  intro s h1 h2 h3
  have hm := made_run (lam := lam) (is := is) (F := F) (FP := FP) (U := U) bad n
  rw [hm.zone i a b]
  change updHalf lam (U i) (left s.fixed F FP (i + 1)) (left s.fixed F FP i) = _
  simp only [left, times, h1, h2, h3, add_sub_cancel_right, if_false]
  unfold updHalf Cons.sub Cons.smul
  ext <;> simp only <;> ring

/-- The five conserved quantities. -/
def quantities : List (Cons → ℝ) := [Cons.d, Cons.Mx, Cons.My, Cons.Mz, Cons.E]

theorem sum_upd {q : Cons → ℝ} (hq : q ∈ quantities) (lam : ℝ) (is : ℤ) (n : ℕ) (G U : ℤ → Cons) :
    ∑ k ∈ Finset.range n, q (updHalf lam (U (is + k)) (G (is + k + 1)) (G (is + k))) =
      ∑ k ∈ Finset.range n, q (U (is + k)) - lam * (q (G (is + n)) - q (G is)) := by
  have e : ∀ A B C : Cons, q (updHalf lam A B C) = q A - lam * (q B - q C) := by
    intro A B C
    simp only [quantities, List.mem_cons, List.not_mem_nil, or_false] at hq
    rcases hq with rfl | rfl | rfl | rfl | rfl <;> rfl
  simp only [e, Finset.sum_sub_distrib, ← Finset.mul_sum]
  congr 2
  have := Finset.sum_range_sub (fun k : ℕ => q (G (is + k))) n
  rw [← Finset.sum_sub_distrib]
  simp only [Nat.cast_zero, add_zero, Nat.cast_add, Nat.cast_one] at this
  rw [← this]
  apply Finset.sum_congr rfl
  intro k _
  rw [add_assoc]

/-- **C107, conservation.**  The repair creates and destroys nothing inside the Grid: the total
of each conserved quantity changes by what the fluxes through the two end faces carry, where an
end face has the first-order flux if the zone next to it was repaired and the high-order flux
otherwise. -/
theorem sr_fix_conserves (bad : Cons → Prop) (lam : ℝ) (is : ℤ) (n : ℕ) (F FP U : ℤ → Cons)
    (q : Cons → ℝ) (hq : q ∈ quantities) :
    let s := correct1 bad lam is n F FP U
    ∑ k ∈ Finset.range n, q (s.U (is + k)) = ∑ k ∈ Finset.range n, q (U (is + k)) -
      lam * (q (if is + n - 1 ∈ s.fixed then FP (is + n) else F (is + n)) -
        q (if is ∈ s.fixed then FP is else F is)) := by
  intro s
  have hm := made_run (lam := lam) (is := is) (F := F) (FP := FP) (U := U) bad n
  have e1 : left s.fixed F FP (is + n) =
      if is + n - 1 ∈ s.fixed then FP (is + n) else F (is + n) := by
    have h : is + (n : ℤ) ∉ s.fixed := fun h => by have := (hm.mem _ h).2; omega
    simp only [left, times, h, if_false]
    split_ifs <;> unfold Cons.sub Cons.smul <;> ext <;> simp only <;> ring
  have e2 : left s.fixed F FP is = if is ∈ s.fixed then FP is else F is := by
    have h : is - 1 ∉ s.fixed := fun h => by have := (hm.mem _ h).1; omega
    simp only [left, times, h, if_false]
    split_ifs <;> unfold Cons.sub Cons.smul <;> ext <;> simp only <;> ring
  rw [← e1, ← e2, ← sum_upd hq lam is n (left s.fixed F FP) U]
  apply Finset.sum_congr rfl
  intro k hk
  rw [hm.zone (is + k) (by omega) (by have := Finset.mem_range.1 hk; omega)]

end Athena.Rel
