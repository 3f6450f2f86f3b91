import Verif.Join.Props
import Mathlib.Tactic.NormNum
import Mathlib.Data.List.Sort

/-!
# Where joining fails, and examples

* `join_order_false`: the origins are printed with seven digits.  Two Grids whose edges print alike are joined in whatever order they were named.
* `join_thin_false`: a Grid with one zone in x2 but more in x3 has a header join_vtk refuses.
* `join_one_false`: the file of a run on one process is refused.
-/

namespace Athena.Join

/-! ## Specification -/

/-- `r` is `x` printed with `%e`: seven decimal digits, to nearest. -/
def Printed (x r : ℝ) : Prop := ∃ m e : ℤ, 10 ^ 6 ≤ |m| ∧ |m| < 10 ^ 7 ∧ r = m * (10 : ℝ) ^ e ∧ |x - r| ≤ (10 : ℝ) ^ e / 2

/-! ## Sorting functions -/

/-- Merge sort. -/
noncomputable def mergeQ : Qsort where
  sort key l := l.mergeSort fun a b => decide (key a ≤ key b)
  perm _ l := List.mergeSort_perm l _
  sorted key l := by
    have := List.pairwise_mergeSort (le := fun a b : Dom => decide (key a ≤ key b))
      (fun a b c h1 h2 => decide_eq_true (le_trans (of_decide_eq_true h1) (of_decide_eq_true h2)))
      (fun a b => by
        rcases le_total (key a) (key b) with h | h
        · simp [h]
        · simp [h]) l
    exact this.imp fun h => of_decide_eq_true h

open Classical in
/-- A sorting function that leaves a list alone that is in order. -/
noncomputable def keepQ : Qsort where
  sort key l := if l.Pairwise fun a b => key a ≤ key b then l else mergeQ.sort key l
  perm key l := by
    split_ifs
    · exact List.Perm.refl _
    · exact mergeQ.perm key l
  sorted key l := by
    split_ifs with h
    · exact h
    · exact mergeQ.sorted key l

theorem keepQ_pair {key : Dom → ℝ} {a b : Dom} (h : key a = key b) : keepQ.sort key [a, b] = [a, b] := by
  show (if _ then _ else _) = _
  rw [if_pos]
  simp [h]

theorem sort_ties {a b : Dom} (hx : a.file.head.ox = b.file.head.ox) (hy : a.file.head.oy = b.file.head.oy) (hz : a.file.head.oz = b.file.head.oz) :
    sortDoms keepQ [a, b] = .ok ([a, b], 2, 1, 1) := by
  unfold sortDoms sortBy
  dsimp only
  rw [keepQ_pair (key := fun d => d.file.head.oz) hz]
  have h1 : count ([a, b].map fun d => d.file.head.oz) = 1 := by simp [count, rises, hz]
  have h2 : count ([a, b].map fun d => d.file.head.oy) = 1 := by simp [count, rises, hy]
  have h3 : (cat 1 fun i => keepQ.sort (fun d => d.file.head.oy) (chunk 2 i [a, b])) = [a, b] := by
    simp [cat, chunk, keepQ_pair (key := fun d => d.file.head.oy) hy]
  have h4 : (cat (1 * 1) fun i => keepQ.sort (fun d => d.file.head.ox) (chunk 2 i [a, b])) = [a, b] := by
    simp [cat, chunk, keepQ_pair (key := fun d => d.file.head.ox) hx]
  have h5 : chunk 2 0 [a, b] = [a, b] := rfl
  rw [h1, if_neg (by simp)]
  rw [show [a, b].length / 1 = 2 by simp, h3, h5, h2, if_neg (by simp), show 2 / 1 = 2 from rfl, h4]

/-! ## Runs -/

/-- The bytes of `density`. -/
def sDensity : List Byte := str ['d','e','n','s','i','t','y']

/-- Two Grids of one zone side by side; the value in zone `i` is `v i`. -/
noncomputable def twoGrids (v : ℕ → ℕ) : Run where
  nX := 2
  nY := 1
  nZ := 1
  Nx _ := 1
  Ny _ := 1
  Nz _ := 1
  fields := [(⟨false, sDensity⟩, fun _ _ i => [v i, 0, 0, 0])]
  comment := []
  X _ := 1000000
  Y _ := 0
  Z _ := 0
  dx := 1 / 4
  dy := 1
  dz := 1

theorem twoGrids_good (v : ℕ → ℕ) : (twoGrids v).Good where
  nX := Nat.succ_pos 1
  nY := Nat.one_pos
  nZ := Nat.one_pos
  two := Nat.le_refl 2
  Nx _ := Nat.one_pos
  Ny _ := Nat.one_pos
  Nz _ := Nat.one_pos
  thick _ _ _ _ _ := rfl
  fields := by
    intro p hp
    rw [show (twoGrids v).fields = [(⟨false, sDensity⟩, fun _ _ i => [v i, 0, 0, 0])] from rfl, List.mem_singleton] at hp
    subst hp
    exact ⟨(⟨by decide, by decide⟩ : Word sDensity), fun _ _ _ => rfl⟩

/-- **Edges that print alike.**  Two Grids, from 1000000 to 1000000.25 and from there on.  Both origins are printed as `1.000000e+06`.  Named in the
wrong order on the command line they are joined in the wrong order, without a message. -/
theorem join_order_false : ∃ (Q : Qsort) (r : Run) (x0 x1 : ℝ) (fs : List VFile) (F : VFile), r.Good ∧ r.nX = 2 ∧ x1 = x0 + r.Nx 0 * r.dx ∧ x0 < x1 ∧
    Printed x0 (r.X 0) ∧ Printed x1 (r.X 1) ∧ fs.Perm r.files ∧ join Q fs = .ok F ∧ F.body ≠ r.sections.flatten := by
  have hfiles : ∀ v, (twoGrids v).files = [(twoGrids v).gridFile 0 0 0, (twoGrids v).gridFile 0 0 1] := fun v => rfl
  have hsort : ∀ v, sortDoms keepQ ((twoGrids v).files.map domOf) =
      .ok (inOrder (twoGrids v).dom (twoGrids v).nX (twoGrids v).nY (twoGrids v).nZ, (twoGrids v).nX, (twoGrids v).nY, (twoGrids v).nZ) := by
    intro v
    rw [hfiles]
    exact sort_ties rfl rfl rfl
  have hj := join_ordered keepQ (twoGrids fun i => 1 - i) (twoGrids_good _) (List.Perm.refl _) (hsort _)
  refine ⟨keepQ, twoGrids id, 1000000, 1000000 + 1 / 4, (twoGrids fun i => 1 - i).files, _, twoGrids_good id, rfl, ?_, by norm_num,
    ⟨1000000, 0, by norm_num, by norm_num, ?_, ?_⟩, ⟨1000000, 0, by norm_num, by norm_num, ?_, ?_⟩, ?_, hj, ?_⟩
  · show (1000000 + 1 / 4 : ℝ) = 1000000 + ((1 : ℕ) : ℝ) * (1 / 4)
    norm_num
  · show (1000000 : ℝ) = _
    norm_num
  · show |(1000000 : ℝ) - 1000000| ≤ _
    norm_num
  · show (1000000 : ℝ) = _
    norm_num
  · show |(1000000 + 1 / 4 : ℝ) - 1000000| ≤ _
    norm_num [abs_le]
  · rw [hfiles, hfiles]
    exact List.Perm.swap ((twoGrids id).gridFile 0 0 0) ((twoGrids id).gridFile 0 0 1) []
  · show (twoGrids fun i => 1 - i).sections.flatten ≠ (twoGrids id).sections.flatten
    decide

theorem initDoms_fatal {f : VFile} (hf : initDom f = .fatal) : ∀ {fs : List VFile}, f ∈ fs → initDoms fs = .fatal
  | g :: fs, h => by
    unfold initDoms
    rcases List.mem_cons.mp h with rfl | h
    · rw [hf]
    · rw [initDoms_fatal hf h]
      cases initDom g <;> rfl

/-- **Thin Grids are refused**: if a Grid has one zone in x2 and more than one in x3, its `DIMENSIONS` do not fit its number of zones, and nothing
is joined. -/
theorem join_thin_false (Q : Qsort) (r : Run) {k j i : ℕ} (hk : k < r.nZ) (hj : j < r.nY) (hi : i < r.nX) (hx : 0 < r.Nx i) (hy : r.Ny j = 1)
    (hz : 1 < r.Nz k) {fs : List VFile} (hfs : fs.Perm r.files) : join Q fs = .fatal := by
  have hf : initDom (r.gridFile k j i) = .fatal := by
    unfold initDom Run.gridFile dumpDims
    dsimp only
    rw [if_pos hy]
    dsimp only
    rw [cells_succ hx, show cells 1 = 1 from rfl, hy, if_pos]
    intro h
    have : r.Nx i * 1 * 1 < r.Nx i * 1 * r.Nz k := Nat.mul_lt_mul_of_pos_left hz (by omega)
    omega
  have hmem : r.gridFile k j i ∈ fs := by
    rw [hfs.mem_iff]
    exact List.mem_flatMap.mpr ⟨k, List.mem_range.mpr hk, List.mem_flatMap.mpr ⟨j, List.mem_range.mpr hj,
      List.mem_flatMap.mpr ⟨i, List.mem_range.mpr hi, List.mem_singleton.mpr rfl⟩⟩⟩
  unfold join
  rw [initDoms_fatal hf hmem]
  simp

/-- The file of a run on one process is refused. -/
theorem join_one_false (Q : Qsort) (f : VFile) : join Q [f] = .fatal := by
  unfold join
  rw [if_pos (by simp)]

/-! ## Examples -/

/-- Four Grids of different sizes; the density is made of white space, and the vector of its indices. -/
noncomputable def fourGrids : Run where
  nX := 2
  nY := 1
  nZ := 2
  Nx i := i + 3
  Ny _ := 2
  Nz k := 2 * k + 1
  fields := [(⟨false, sDensity⟩, fun _ _ _ => [32, 9, 10, 13]), (⟨true, sDensity⟩, fun k j i => [k, j, i, 0, k, j, i, 10, k, j, i, 32])]
  comment := sDensity
  X i := i
  Y _ := 0
  Z k := k
  dx := 1 / 4
  dy := 1 / 2
  dz := 1

theorem fourGrids_good : fourGrids.Good where
  nX := by decide
  nY := by decide
  nZ := by decide
  two := by decide
  Nx i := Nat.succ_pos _
  Ny _ := Nat.two_pos
  Nz k := Nat.succ_pos _
  thick _ _ _ _ h := absurd (show 2 = 1 from h) (by decide)
  fields := by
    intro p hp
    rw [show fourGrids.fields = [(⟨false, sDensity⟩, fun _ _ _ => [32, 9, 10, 13]),
      (⟨true, sDensity⟩, fun k j i => [k, j, i, 0, k, j, i, 10, k, j, i, 32])] from rfl] at hp
    rcases List.mem_cons.mp hp with rfl | hp
    · exact ⟨⟨by decide, by decide⟩, fun _ _ _ => rfl⟩
    · rw [List.mem_singleton.mp hp]
      exact ⟨⟨by decide, by decide⟩, fun _ _ _ => rfl⟩

theorem fourGrids_ascending : fourGrids.Ascending where
  X i _ := by show ((i : ℕ) : ℝ) < ((i + 1 : ℕ) : ℝ); push_cast; linarith
  Y i h := absurd h (by show ¬ i + 1 < 1; omega)
  Z i _ := by show ((i : ℕ) : ℝ) < ((i + 1 : ℕ) : ℝ); push_cast; linarith

/-- `join_exact` and `join_dims_partial`: four Grids, named backwards. -/
example : ∃ F, join mergeQ fourGrids.files.reverse = .ok F ∧ F.body = fourGrids.sections.flatten ∧ F.head.cells = 56 := by
  obtain ⟨F, h1, h2, _, _, _, _, _, _, _, _, h3⟩ := join_exact mergeQ fourGrids fourGrids_good fourGrids_ascending (List.reverse_perm _)
  exact ⟨F, h1, h2, h3⟩

example : ∃ F, join mergeQ fourGrids.files.reverse = .ok F ∧ F.head.dims = (8, 3, 5) :=
  join_dims_partial mergeQ fourGrids fourGrids_good fourGrids_ascending (by show (0:ℝ) < 1/4; norm_num) (by show (0:ℝ) < 1/2; norm_num)
    (by show (0:ℝ) < 1; norm_num) (by decide) (by decide) (List.reverse_perm _)

/-- `join_dims_false`: two Grids of a line, with distinct origins. -/
noncomputable def lineGrids : Run := { twoGrids id with X := fun i => i }

theorem lineGrids_good : lineGrids.Good := ⟨by decide, by decide, by decide, by decide, fun _ => Nat.one_pos, fun _ => Nat.one_pos, fun _ => Nat.one_pos,
  fun _ _ _ _ _ => rfl, (twoGrids_good id).fields⟩

example : ∃ F, join mergeQ lineGrids.files = .ok F ∧ F.head.dims.2.2 = 2 ∧ lineGrids.wholeFile.head.dims.2.2 = 1 :=
  join_dims_false mergeQ lineGrids lineGrids_good
    ⟨fun i _ => by show ((i : ℕ) : ℝ) < ((i + 1 : ℕ) : ℝ); push_cast; linarith, fun i h => absurd h (by show ¬ i + 1 < 1; omega),
     fun i h => absurd h (by show ¬ i + 1 < 1; omega)⟩ (by show (0:ℝ) < 1; norm_num) rfl (List.Perm.refl _)

/-- `join_thin_false`: Grids of 3×1×4 zones. -/
noncomputable def thinGrids : Run := { twoGrids id with nY := 2, Nx := fun _ => 3, Nz := fun _ => 4 }

example : join mergeQ thinGrids.files = .fatal :=
  join_thin_false mergeQ thinGrids (k := 0) (j := 1) (i := 0) (by decide) (by decide) (by decide) (by decide) rfl (by decide) (List.Perm.refl _)

end Athena.Join
