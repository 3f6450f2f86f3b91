import Verif.Mesh.Overlap
import Verif.Mesh.NestProps
import Verif.Mesh.Decomp
import Mathlib.Data.List.Nodup
import Mathlib.Algebra.BigOperators.Group.List.Basic
import Mathlib.Data.List.GetD
import Mathlib.Data.List.Lex
import Mathlib.Data.Finset.Card
import Mathlib.Data.List.NodupEquivFin
import Mathlib.Data.Nat.Cast.Order.Ring

/-!
# Properties C17, C18, C19, C51, C52 (src/init_grid.c, src/init_mesh.c Steps 8-9)
-/

namespace Athena.Mesh

/-! ## C17 -/

/-- Specification: cell `c` lies in the box. -/
def Side.HasCell (s : Side) (c : Fin 3 → Int) : Prop := ∀ i, s.l i ≤ c i ∧ c i < s.r i

/-- Specification: vertex `v` lies in the closed box. -/
def Side.HasVertex (s : Side) (v : Fin 3 → Int) : Prop := ∀ i, s.l i ≤ v i ∧ v i ≤ s.r i

/-- **C17.** For boxes with at least one cell: `checkOverlap` reports an overlap exactly when the
boxes share a cell, and then the box returned consists of exactly the shared cells. -/
theorem checkOverlap_correct (a b : Side) (ha : ∀ i, a.l i < a.r i) (hb : ∀ i, b.l i < b.r i) :
    ((checkOverlap a b).1 = true ↔ ∃ c, a.HasCell c ∧ b.HasCell c) ∧
    ((checkOverlap a b).1 = true → ∀ c, (checkOverlap a b).2.HasCell c ↔ a.HasCell c ∧ b.HasCell c) := by
  unfold checkOverlap
  by_cases h : ∀ i : Fin 3, a.l i < b.r i ∧ a.r i > b.l i
  · rw [if_pos h]
    refine ⟨⟨fun _ => ⟨fun i => max (a.l i) (b.l i), fun i => ?_, fun i => ?_⟩, fun _ => rfl⟩, ?_⟩
    · have := h i; have := ha i; have := hb i; exact ⟨le_max_left _ _, max_lt (by omega) (by omega)⟩
    · have := h i; have := ha i; have := hb i; exact ⟨le_max_right _ _, max_lt (by omega) (by omega)⟩
    · intro _ c
      simp only [Side.HasCell, max_le_iff, lt_min_iff]
      constructor
      · intro h; exact ⟨fun i => ⟨(h i).1.1, (h i).2.1⟩, fun i => ⟨(h i).1.2, (h i).2.2⟩⟩
      · intro h i; exact ⟨⟨(h.1 i).1, (h.2 i).1⟩, ⟨(h.1 i).2, (h.2 i).2⟩⟩
  · rw [if_neg h]
    refine ⟨⟨fun hc => by simp at hc, fun ⟨c, h1, h2⟩ => ?_⟩, fun hc => by simp at hc⟩
    exfalso; apply h
    intro i; have := h1 i; have := h2 i; omega

/-- **C17.** `checkOverlapTouch` reports exactly the pairs of boxes that share at least a corner, and
returns the shared cells (none if the boxes only touch) and exactly the shared vertices. -/
theorem checkOverlapTouch_correct (a b : Side) (ha : ∀ i, a.l i ≤ a.r i) (hb : ∀ i, b.l i ≤ b.r i) :
    ((checkOverlapTouch a b).1 = true ↔ ∃ v, a.HasVertex v ∧ b.HasVertex v) ∧
    ((checkOverlapTouch a b).1 = true →
      (∀ v, (checkOverlapTouch a b).2.HasVertex v ↔ a.HasVertex v ∧ b.HasVertex v) ∧
      (∀ c, (checkOverlapTouch a b).2.HasCell c ↔ a.HasCell c ∧ b.HasCell c)) := by
  unfold checkOverlapTouch
  by_cases h : ∀ i : Fin 3, a.l i ≤ b.r i ∧ a.r i ≥ b.l i
  · rw [if_pos h]
    refine ⟨⟨fun _ => ⟨fun i => max (a.l i) (b.l i), fun i => ?_, fun i => ?_⟩, fun _ => rfl⟩, ?_⟩
    · have := h i; have := ha i; have := hb i; exact ⟨le_max_left _ _, max_le (by omega) (by omega)⟩
    · have := h i; have := ha i; have := hb i; exact ⟨le_max_right _ _, max_le (by omega) (by omega)⟩
    · intro _
      constructor
      · intro v
        simp only [Side.HasVertex, max_le_iff, le_min_iff]
        constructor
        · intro h; exact ⟨fun i => ⟨(h i).1.1, (h i).2.1⟩, fun i => ⟨(h i).1.2, (h i).2.2⟩⟩
        · intro h i; exact ⟨⟨(h.1 i).1, (h.2 i).1⟩, ⟨(h.1 i).2, (h.2 i).2⟩⟩
      · intro c
        simp only [Side.HasCell, max_le_iff, lt_min_iff]
        constructor
        · intro h; exact ⟨fun i => ⟨(h i).1.1, (h i).2.1⟩, fun i => ⟨(h i).1.2, (h i).2.2⟩⟩
        · intro h i; exact ⟨⟨(h.1 i).1, (h.2 i).1⟩, ⟨(h.1 i).2, (h.2 i).2⟩⟩
  · rw [if_neg h]
    refine ⟨⟨fun hc => by simp at hc, fun ⟨c, h1, h2⟩ => ?_⟩, fun hc => by simp at hc⟩
    exfalso; apply h
    intro i; have := h1 i; have := h2 i; omega

/-- **C17.** Both tests, with the box they return, are symmetric in their arguments. -/
theorem overlap_symm (a b : Side) :
    checkOverlap a b = checkOverlap b a ∧ checkOverlapTouch a b = checkOverlapTouch b a := by
  constructor
  · unfold checkOverlap
    by_cases h : ∀ i : Fin 3, a.l i < b.r i ∧ a.r i > b.l i
    · rw [if_pos h, if_pos (fun i => ⟨(h i).2, (h i).1⟩)]
      simp only [max_comm, min_comm]
    · rw [if_neg h, if_neg (fun h' => h (fun i => ⟨(h' i).2, (h' i).1⟩))]
  · unfold checkOverlapTouch
    by_cases h : ∀ i : Fin 3, a.l i ≤ b.r i ∧ a.r i ≥ b.l i
    · rw [if_pos h, if_pos (fun i => ⟨(h i).2, (h i).1⟩)]
      simp only [max_comm, min_comm]
    · rw [if_neg h, if_neg (fun h' => h (fun i => ⟨(h' i).2, (h' i).1⟩))]

/-- Non-vacuity: two boxes overlapping in 2×1×1 cells, and two boxes touching in a face. -/
example : (checkOverlap ⟨![0,0,0], ![4,2,1]⟩ ⟨![2,1,0], ![6,3,1]⟩).1 = true ∧
    (checkOverlap ⟨![0,0,0], ![4,2,1]⟩ ⟨![4,0,0], ![6,2,1]⟩).1 = false ∧
    (checkOverlapTouch ⟨![0,0,0], ![4,2,1]⟩ ⟨![4,0,0], ![6,2,1]⟩).1 = true := by decide

/-- The restriction to non-empty boxes is needed: an empty box inside another "overlaps" it. -/
theorem checkOverlap_empty_box : ∃ a b : Side, (checkOverlap a b).1 = true ∧
    ¬ ∃ c, a.HasCell c ∧ b.HasCell c := by
  refine ⟨⟨![2,0,0], ![2,1,1]⟩, ⟨![0,0,0], ![4,1,1]⟩, by decide, ?_⟩
  rintro ⟨c, h, _⟩
  have := h 0; simp at this; omega

/-! ## C18 -/

/-- A parent and a child Grid for which the sizes agree: in the used directions the child Grid has
even displacement and even positive size and the parent Grid has more than one cell; unused
directions have one cell at 0. -/
structure EvenPair (nDim : Nat) (pG : GBox) (cD : Dom) (cG : GBox) : Prop where
  dims : 1 ≤ nDim ∧ nDim ≤ 3
  child : ∀ i : Fin 3, i.val < nDim → 2 ∣ cG.disp i ∧ 2 ∣ cG.nx i ∧ 0 < cG.nx i ∧ 1 < cD.nx i
  parent : ∀ i : Fin 3, i.val < nDim → 1 < pG.nx i
  flat : ∀ i : Fin 3, ¬ i.val < nDim →
    cG.disp i = 0 ∧ cG.nx i = 1 ∧ cD.nx i = 1 ∧ pG.disp i = 0 ∧ pG.nx i = 1

theorem sumFaces_congr {cf : Cfg} {i1 i2 o1 o2 : Fin 3 → Bool} {f1 f2 : Fin 3 → Int × Int}
    (hi : ∀ d, d.val < cf.nDim → i1 d = i2 d) (ho : ∀ d, d.val < cf.nDim → o1 d = o2 d)
    (hf : ∀ d, d.val < cf.nDim → f1 d = f2 d) : sumFaces cf i1 o1 f1 = sumFaces cf i2 o2 f2 := by
  unfold sumFaces
  apply List.foldl_ext
  intro acc d _
  by_cases hd : d.val < cf.nDim
  · simp only [if_pos hd, hi d hd, ho d hd, hf d hd]
  · simp only [if_neg hd]

/-- One direction of the overlap, in parent cells (`m`) and in child cells. -/
theorem overlap_halves {nDim : Nat} {pG : GBox} {cD : Dom} {cG : GBox} (h : EvenPair nDim pG cD cG)
    (i : Fin 3) :
    (i.val < nDim →
      cG.side.l i = 2 * (coarseSide cD cG).l i ∧ cG.side.r i = 2 * (coarseSide cD cG).r i ∧
      (fineSide pG).l i = 2 * pG.side.l i ∧ (fineSide pG).r i = 2 * pG.side.r i) ∧
    (¬ i.val < nDim →
      cG.side.l i = 0 ∧ (coarseSide cD cG).l i = 0 ∧ cG.side.r i = 1 ∧ (coarseSide cD cG).r i = 1 ∧
      (fineSide pG).l i = 0 ∧ pG.side.l i = 0 ∧ (fineSide pG).r i = 2 ∧ pG.side.r i = 1) := by
  constructor
  · intro hi
    obtain ⟨a, b, c, d⟩ := h.child i hi
    simp only [GBox.side, coarseSide, fineSide]
    simp only [if_pos d]
    rw [Int.mul_tdiv_cancel' a, Int.mul_tdiv_cancel' (Int.dvd_add a b)]
    simp
  · intro hi
    obtain ⟨a, b, c, d, e⟩ := h.flat i hi
    simp only [GBox.side, coarseSide, fineSide, a, b, c, d, e]
    decide

/-- **C18**, the part that holds: for a parent Grid and a child Grid with even displacement and size
(and more than one parent cell in every used direction), parent and child agree on whether they
exchange messages and on the number of words in restriction and in prolongation.
(Missing: odd child Grids, for which it is false, see `words_odd_false`.) -/
theorem words_agree_partial (cf : Cfg) (nl : Nat) (pG : GBox) (cD : Dom) (NG gi : Fin 3 → Nat)
    (cG : GBox) (h : EvenPair cf.nDim pG cD cG) :
    childEntry cf (nl+1) cD NG gi cG pG = parentEntry cf nl pG cD NG gi cG := by
  have hv := overlap_halves h
  have htouch : (∀ i : Fin 3, cG.side.l i ≤ (fineSide pG).r i ∧ cG.side.r i ≥ (fineSide pG).l i) ↔
      (∀ i : Fin 3, pG.side.l i ≤ (coarseSide cD cG).r i ∧ pG.side.r i ≥ (coarseSide cD cG).l i) := by
    refine forall_congr' fun i => ?_
    by_cases hi : i.val < cf.nDim
    · obtain ⟨a, b, c, d⟩ := (hv i).1 hi; rw [a, b, c, d]; omega
    · obtain ⟨a, b, c, d, e, f, g, k⟩ := (hv i).2 hi; rw [a, b, c, d, e, f, g, k]; omega
  unfold childEntry parentEntry checkOverlapTouch
  dsimp only
  by_cases ht : ∀ i : Fin 3, pG.side.l i ≤ (coarseSide cD cG).r i ∧ pG.side.r i ≥ (coarseSide cD cG).l i
  · rw [if_pos ht, if_pos (htouch.2 ht)]
    simp only [if_true]
    -- overlap sizes
    obtain ⟨n, hn⟩ : ∃ n : Fin 3 → Int, n = fun i =>
      min (cG.side.r i) ((fineSide pG).r i) - max (cG.side.l i) ((fineSide pG).l i) := ⟨_, rfl⟩
    obtain ⟨m, hm⟩ : ∃ m : Fin 3 → Int, m = fun i =>
      min (pG.side.r i) ((coarseSide cD cG).r i) - max (pG.side.l i) ((coarseSide cD cG).l i) := ⟨_, rfl⟩
    have hused : ∀ i : Fin 3, i.val < cf.nDim → n i = 2 * m i ∧ 0 ≤ m i := by
      intro i hi
      obtain ⟨a, b, c, d⟩ := (hv i).1 hi
      have := ht i
      have hc := h.child i hi
      have hp := h.parent i hi
      have hpr : pG.side.l i ≤ pG.side.r i := by simp only [GBox.side]; omega
      have hcr : cG.side.l i ≤ cG.side.r i := by simp only [GBox.side]; omega
      rw [hn, hm]; dsimp only
      rw [a, b, c, d]
      omega
    have hflat : ∀ i : Fin 3, ¬ i.val < cf.nDim → n i = 1 ∧ m i = 1 := by
      intro i hi
      obtain ⟨a, b, c, d, e, f, g, k⟩ := (hv i).2 hi
      rw [hn, hm]; dsimp only
      rw [a, b, c, d, e, f, g, k]; decide
    have h0 : (0 : Fin 3).val < cf.nDim := by have := h.dims.1; simp only [Fin.val_zero]; omega
    -- sizes in parent cells
    have hn0 : ∀ i, 0 ≤ m i := by
      intro i
      by_cases hi : i.val < cf.nDim
      · exact (hused i hi).2
      · rw [(hflat i hi).2]; decide
    have hr : ∀ i, (if n i > 1 then (n i).tdiv 2 else n i) = m i := by
      intro i
      by_cases hi : i.val < cf.nDim
      · obtain ⟨e, f⟩ := hused i hi
        rw [e]
        split_ifs with hc
        · exact Int.mul_tdiv_cancel_left _ (by decide)
        · omega
      · obtain ⟨e, f⟩ := hflat i hi; rw [e, f]; decide
    have hnx : ∀ i : Fin 3, (cG.nx i > 1) ↔ (pG.nx i > 1) := by
      intro i
      by_cases hi : i.val < cf.nDim
      · have := h.child i hi; have := h.parent i hi; omega
      · have := h.flat i hi; omega
    have hpos : ∀ i, 0 < n i ↔ 0 < m i := by
      intro i
      by_cases hi : i.val < cf.nDim
      · have := hused i hi; omega
      · have := hflat i hi; omega
    have hnn : ∀ i, 0 ≤ n i := by
      intro i
      by_cases hi : i.val < cf.nDim
      · have := hused i hi; omega
      · have := hflat i hi; omega
    have mulpos : ∀ a b : Int, 0 ≤ a → 0 ≤ b → (a * b > 0 ↔ 0 < a ∧ 0 < b) := by
      intro a b ha hb
      constructor
      · intro hab
        refine ⟨lt_of_le_of_ne ha ?_, lt_of_le_of_ne hb ?_⟩
        · rintro rfl; simp at hab
        · rintro rfl; simp at hab
      · rintro ⟨h1, h2⟩; exact mul_pos h1 h2
    have hvol : (n 0 * n 1 * n 2 > 0) ↔ (m 0 * m 1 * m 2 > 0) := by
      rw [mulpos _ _ (mul_nonneg (hnn 0) (hnn 1)) (hnn 2), mulpos _ _ (mul_nonneg (hn0 0) (hn0 1)) (hn0 2)]
      have e1 := mulpos _ _ (hnn 0) (hnn 1)
      have e2 := mulpos _ _ (hn0 0) (hn0 1)
      simp only [gt_iff_lt] at e1 e2
      rw [e1, e2, hpos 0, hpos 1, hpos 2]
    have hface : ∀ d, childFace cf cG n d = parentFace cf pG m d := by
      intro d
      have ht1 : (if (transverse n d).1 > 1 then (transverse n d).1.tdiv 2 else (transverse n d).1)
          = (transverse m d).1 := by
        fin_cases d <;> exact hr _
      have ht2 : (if (transverse n d).2 > 1 then (transverse n d).2.tdiv 2 else (transverse n d).2)
          = (transverse m d).2 := by
        fin_cases d <;> exact hr _
      have ht3 : ((transverse n d).1 * (transverse n d).2 > 0) ↔
          ((transverse m d).1 * (transverse m d).2 > 0) := by
        unfold transverse
        split_ifs <;> dsimp only <;>
          rw [mulpos _ _ (hnn _) (hnn _), mulpos _ _ (hn0 _) (hn0 _), hpos, hpos]
      unfold childFace parentFace
      dsimp only
      simp only [ht1, ht2, ht3, hvol, hnx]
    have hbody : (fun i : Fin 3 => if i = 0 then (n 0).tdiv 2
        else if cG.nx i > 1 then (n i).tdiv 2 else 1) = m := by
      funext i
      by_cases hi0 : i = 0
      · subst hi0
        rw [if_pos rfl, (hused 0 h0).1]
        exact Int.mul_tdiv_cancel_left _ (by decide)
      · rw [if_neg hi0]
        by_cases hi : i.val < cf.nDim
        · have hc := h.child i hi
          rw [if_pos (by omega), (hused i hi).1]
          exact Int.mul_tdiv_cancel_left _ (by decide)
        · have hc := h.flat i hi
          rw [if_neg (by omega), (hflat i hi).2]
    have hsum : sumFaces cf
        (fun d => decide (cG.side.l d = max (cG.side.l d) ((fineSide pG).l d) ∧ cD.disp d ≠ 0 ∧ gi d = 0))
        (fun d => decide (cG.side.r d = min (cG.side.r d) ((fineSide pG).r d) ∧
          (cD.disp d + cD.nx d).tdiv (irefine (nl+1)) ≠ cf.rootNx d ∧ gi d = NG d - 1))
        (childFace cf cG n) =
        sumFaces cf
        (fun d => decide ((coarseSide cD cG).l d = max (pG.side.l d) ((coarseSide cD cG).l d) ∧
          cD.disp d ≠ 0 ∧ gi d = 0))
        (fun d => decide ((coarseSide cD cG).r d = min (pG.side.r d) ((coarseSide cD cG).r d) ∧
          (cD.disp d + cD.nx d).tdiv (irefine (nl+1)) ≠ cf.rootNx d ∧ gi d = NG d - 1))
        (parentFace cf pG m) := by
      apply sumFaces_congr
      · intro d hd
        obtain ⟨a, b, c, e⟩ := (hv d).1 hd
        rw [a, c]
        congr 1
        have : (2 * (coarseSide cD cG).l d = max (2 * (coarseSide cD cG).l d) (2 * pG.side.l d)) ↔
          ((coarseSide cD cG).l d = max (pG.side.l d) ((coarseSide cD cG).l d)) := by omega
        rw [this]
      · intro d hd
        obtain ⟨a, b, c, e⟩ := (hv d).1 hd
        rw [b, e]
        congr 1
        have : (2 * (coarseSide cD cG).r d = min (2 * (coarseSide cD cG).r d) (2 * pG.side.r d)) ↔
          ((coarseSide cD cG).r d = min (pG.side.r d) ((coarseSide cD cG).r d)) := by omega
        rw [this]
      · intro d _; exact hface d
    subst hn hm
    dsimp only at hbody hsum ⊢
    rw [hbody, hsum]
  · rw [if_neg ht, if_neg (fun hc => ht (htouch.1 hc))]
    rfl

/-- Non-vacuity: 3D MHD, a child Grid of 8×8×8 cells at (8,8,8) (first Grid of its Domain)
overlapping a parent Grid of 6×8×8 cells. -/
example : EvenPair 3 ⟨![0,0,0], ![6,8,8]⟩ ⟨1, ![16,8,8], ![8,8,8]⟩ ⟨![8,8,8], ![8,8,8]⟩ ∧
    parentEntry ⟨3, true, 8, 4, ![16,16,16]⟩ 0 ⟨![0,0,0], ![6,8,8]⟩ ⟨1, ![16,8,8], ![8,8,8]⟩
      ![2,1,1] ![0,0,0] ⟨![8,8,8], ![8,8,8]⟩ = some (896, 18480) := by
  refine ⟨⟨by decide, by decide, by decide, by decide⟩, by decide⟩

/-- **C18 is false for odd child Grids**: a refined Domain of 6 cells divided into two Grids of 3
cells.  The parent expects 15 words from the second Grid, the Grid sends 10. -/
theorem words_odd_false : ∃ (cf : Cfg) (nl : Nat) (pG : GBox) (cD : Dom) (NG gi : Fin 3 → Nat) (cG : GBox),
    (∀ i, 1 ≤ cG.nx i) ∧ 2 ∣ cD.nx 0 ∧ 2 ∣ cD.disp 0 ∧
    (childEntry cf (nl+1) cD NG gi cG pG).map Prod.fst = some 10 ∧
    (parentEntry cf nl pG cD NG gi cG).map Prod.fst = some 15 := by
  refine ⟨⟨1, false, 5, 4, ![16,1,1]⟩, 0, ⟨![0,0,0], ![16,1,1]⟩, ⟨1, ![6,1,1], ![8,0,0]⟩,
    ![2,1,1], ![1,0,0], ⟨![11,0,0], ![3,1,1]⟩, by decide, by decide, by decide, by decide, by decide⟩

/-! ## C51: the overlap tables are filled completely, own Grids first -/

/-- Indices `≥ k` of the candidates that touch and are (not) on this rank, in order. -/
def touchIdx (mine : Bool) : List (Bool × Bool) → Nat → List Nat
  | [], _ => []
  | (t, m) :: rest, k => if t ∧ m = mine then k :: touchIdx mine rest (k+1) else touchIdx mine rest (k+1)

theorem countPass_eq (cands : List (Bool × Bool)) (k : Nat) :
    countPass cands = ((touchIdx true cands k).length + (touchIdx false cands k).length,
      (touchIdx true cands k).length) := by
  induction cands generalizing k with
  | nil => rfl
  | cons c rest ih =>
    obtain ⟨t, m⟩ := c
    simp only [countPass, touchIdx, ih (k+1)]
    cases t <;> cases m <;> simp <;> omega

theorem fillPass_spec (size : Nat) : ∀ (cands : List (Bool × Bool)) (k nMy nC : Nat)
    (tab : Nat → Option Nat) (bad : Nat),
    nMy + (touchIdx true cands k).length ≤ nC →
    nC + (touchIdx false cands k).length ≤ size →
    (∀ i, nMy ≤ i → i < nMy + (touchIdx true cands k).length → tab i = none) →
    (∀ i, nC ≤ i → tab i = none) →
    (fillPass size cands k nMy nC tab bad).2 = bad ∧
    ∀ i, (fillPass size cands k nMy nC tab bad).1 i =
      if nMy ≤ i ∧ i < nMy + (touchIdx true cands k).length then (touchIdx true cands k)[i - nMy]?
      else if nC ≤ i ∧ i < nC + (touchIdx false cands k).length then (touchIdx false cands k)[i - nC]?
      else tab i := by
  intro cands
  induction cands with
  | nil =>
    intro k nMy nC tab bad h1 h2 h3 h4
    refine ⟨rfl, fun i => ?_⟩
    have e1 : ¬ (nMy ≤ i ∧ i < nMy + (touchIdx true [] k).length) := by simp [touchIdx]
    have e2 : ¬ (nC ≤ i ∧ i < nC + (touchIdx false [] k).length) := by simp [touchIdx]
    rw [if_neg e1, if_neg e2]; rfl
  | cons c rest ih =>
    obtain ⟨t, m⟩ := c
    intro k nMy nC tab bad h1 h2 h3 h4
    cases t with
    | false =>
      simp only [touchIdx, Bool.false_eq_true, false_and, if_false, fillPass] at h1 h2 h3 ⊢
      exact ih (k+1) nMy nC tab bad h1 h2 h3 h4
    | true =>
      cases m with
      | true =>
        simp only [touchIdx, true_and, if_true, Bool.true_eq_false, if_false, fillPass,
          List.length_cons] at h1 h2 h3 ⊢
        have hfresh : nMy < size ∧ tab nMy = none := ⟨by omega, h3 nMy le_rfl (by omega)⟩
        rw [if_pos hfresh]
        obtain ⟨r1, r2⟩ := ih (k+1) (nMy+1) nC (Function.update tab nMy (some k)) bad (by omega) h2
          (fun i hi hi' => by rw [Function.update_of_ne (by omega)]; exact h3 i (by omega) (by omega))
          (fun i hi => by rw [Function.update_of_ne (by omega)]; exact h4 i hi)
        refine ⟨r1, fun i => ?_⟩
        rw [r2 i]
        by_cases hi : i = nMy
        · subst hi
          rw [if_neg (by omega), if_neg (by omega), if_pos (by omega), Function.update_self]
          simp
        · by_cases hi2 : nMy + 1 ≤ i ∧ i < nMy + 1 + (touchIdx true rest (k+1)).length
          · rw [if_pos hi2, if_pos (by omega)]
            obtain ⟨j, rfl⟩ : ∃ j, i = nMy + 1 + j := ⟨i - (nMy+1), by omega⟩
            have e1 : nMy + 1 + j - (nMy + 1) = j := by omega
            have e2 : nMy + 1 + j - nMy = j + 1 := by omega
            rw [e1, e2, List.getElem?_cons_succ]
          · rw [if_neg hi2, if_neg (by omega : ¬ (nMy ≤ i ∧ i < nMy + ((touchIdx true rest (k+1)).length + 1))),
              Function.update_of_ne hi]
      | false =>
        simp only [touchIdx, Bool.false_eq_true, and_false, if_false, and_self, if_true, fillPass,
          List.length_cons] at h1 h2 h3 ⊢
        have hfresh : nC < size ∧ tab nC = none := ⟨by omega, h4 nC le_rfl⟩
        rw [if_pos hfresh]
        obtain ⟨r1, r2⟩ := ih (k+1) nMy (nC+1) (Function.update tab nC (some k)) bad (by omega) (by omega)
          (fun i hi hi' => by rw [Function.update_of_ne (by omega)]; exact h3 i (by omega) (by omega))
          (fun i hi => by rw [Function.update_of_ne (by omega)]; exact h4 i (by omega))
        refine ⟨r1, fun i => ?_⟩
        rw [r2 i]
        by_cases hi : i = nC
        · subst hi
          rw [if_neg (by omega), if_neg (by omega), if_neg (by omega), if_pos (by omega),
            Function.update_self]
          simp
        · by_cases hmy : nMy ≤ i ∧ i < nMy + (touchIdx true rest (k+1)).length
          · rw [if_pos hmy, if_pos hmy]
          · rw [if_neg hmy, if_neg hmy]
            by_cases hi2 : nC + 1 ≤ i ∧ i < nC + 1 + (touchIdx false rest (k+1)).length
            · rw [if_pos hi2, if_pos (by omega)]
              obtain ⟨j, rfl⟩ : ∃ j, i = nC + 1 + j := ⟨i - (nC+1), by omega⟩
              have e1 : nC + 1 + j - (nC + 1) = j := by omega
              have e2 : nC + 1 + j - nC = j + 1 := by omega
              rw [e1, e2, List.getElem?_cons_succ]
            · rw [if_neg hi2, if_neg (by omega : ¬ (nC ≤ i ∧ i < nC + ((touchIdx false rest (k+1)).length + 1))),
                Function.update_of_ne hi]

/-- **C51.** The overlap table of a Grid holds every overlapping or touching Grid exactly once, those on
the same rank first, each group in search order; the two passes agree, so nothing is written out
of range or twice and no entry is left unset. -/
theorem overlapTable_complete (cands : List (Bool × Bool)) :
    (overlapTable cands).2 = 0 ∧
    (countPass cands).2 = (touchIdx true cands 0).length ∧
    (countPass cands).1 = (touchIdx true cands 0).length + (touchIdx false cands 0).length ∧
    ∀ i, (overlapTable cands).1 i = (touchIdx true cands 0 ++ touchIdx false cands 0)[i]? := by
  have hc := countPass_eq cands 0
  have hs := fillPass_spec (countPass cands).1 cands 0 0 (countPass cands).2 (fun _ => none) 0
    (by rw [hc]; simp) (by rw [hc]) (fun _ _ _ => rfl) (fun _ _ => rfl)
  refine ⟨hs.1, by rw [hc], by rw [hc], fun i => ?_⟩
  unfold overlapTable
  rw [hs.2 i, hc]
  dsimp only
  by_cases h1 : i < (touchIdx true cands 0).length
  · rw [if_pos (by omega), List.getElem?_append_left h1]; simp
  · rw [if_neg (by omega), List.getElem?_append_right (by omega)]
    split_ifs with h2
    · rfl
    · rw [List.getElem?_eq_none (by omega)]

example : (List.range 4).map (overlapTable [(true,false), (true,true), (false,true), (true,false), (true,true)]).1
    = [some 1, some 4, some 0, some 3] := by decide

/-! ## C19 -/

/-- `g` is a Grid position of a Domain with `NG` Grids. -/
def Pos (NG g : Fin 3 → Nat) : Prop := ∀ i, g i < NG i

theorem commID_lt {NG g : Fin 3 → Nat} (h : Pos NG g) : commID NG g < NG 0 * NG 1 * NG 2 := by
  have h0 := h 0; have h1 := h 1; have h2 := h 2
  unfold commID
  have : (g 2 * NG 1 + g 1) + 1 ≤ NG 1 * NG 2 := by nlinarith
  calc _ < (g 2 * NG 1 + g 1 + 1) * NG 0 := by rw [Nat.succ_mul]; omega
    _ ≤ (NG 1 * NG 2) * NG 0 := Nat.mul_le_mul_right _ this
    _ = _ := by ring

theorem commID_inj {NG g g' : Fin 3 → Nat} (h : Pos NG g) (h' : Pos NG g')
    (he : commID NG g = commID NG g') : g = g' := by
  unfold commID at he
  have h0 := h 0; have h1 := h 1; have h0' := h' 0; have h1' := h' 1
  have e0 : g 0 = g' 0 := by
    have := congrArg (· % NG 0) he
    simpa [Nat.mul_add_mod_self_right, Nat.mod_eq_of_lt h0, Nat.mod_eq_of_lt h0'] using this
  have e12 : g 2 * NG 1 + g 1 = g' 2 * NG 1 + g' 1 := by
    rw [e0] at he
    exact Nat.eq_of_mul_eq_mul_right (by omega) (Nat.add_right_cancel he)
  have e1 : g 1 = g' 1 := by
    have := congrArg (· % NG 1) e12
    simpa [Nat.mul_add_mod_self_right, Nat.mod_eq_of_lt h1, Nat.mod_eq_of_lt h1'] using this
  have e2 : g 2 = g' 2 := by
    rw [e1] at e12
    exact Nat.eq_of_mul_eq_mul_right (by omega) (Nat.add_right_cancel e12)
  funext i
  fin_cases i
  · exact e0
  · exact e1
  · exact e2

/-- Concatenation of `a` blocks of length `b`. -/
theorem getElem?_flatMap_range {α : Type*} (f : Nat → List α) (b : Nat) (hb : ∀ n, (f n).length = b) :
    ∀ (a n m : Nat), n < a → m < b → ((List.range a).flatMap f)[n * b + m]? = (f n)[m]? := by
  intro a
  induction a with
  | zero => intro n m h; omega
  | succ a ih =>
    intro n m hn hm
    have hlen : ((List.range a).flatMap f).length = a * b := by
      rw [List.length_flatMap]
      have : List.map (fun n => (f n).length) (List.range a) = List.replicate a b := by
        rw [List.eq_replicate_iff]; simp [hb]
      rw [this, List.sum_replicate]; rfl
    rw [List.range_succ, List.flatMap_append]
    by_cases hna : n = a
    · subst hna
      rw [List.getElem?_append_right (by omega), hlen]
      simp
    · rw [List.getElem?_append_left (by
        rw [hlen]
        have : (n+1) * b ≤ a * b := Nat.mul_le_mul_right _ (by omega)
        rw [Nat.succ_mul] at this; omega)]
      exact ih n m (by omega) hm

/-- The closed form `commID` is the value of the loop counter: position of the Grid in loop order. -/
theorem gridOrder_commID (NG g : Fin 3 → Nat) (h : Pos NG g) :
    (gridOrder NG)[commID NG g]? = some g := by
  have h0 := h 0; have h1 := h 1; have h2 := h 2
  have hin : ∀ n m, ((List.range (NG 0)).map fun l => (fun i : Fin 3 => if i = 0 then l else if i = 1 then m else n)).length = NG 0 := by
    intro n m; simp
  have hmid : ∀ n, ((List.range (NG 1)).flatMap fun m =>
      (List.range (NG 0)).map fun l => (fun i : Fin 3 => if i = 0 then l else if i = 1 then m else n)).length = NG 1 * NG 0 := by
    intro n
    rw [List.length_flatMap]
    have : List.map (fun m => ((List.range (NG 0)).map fun l => (fun i : Fin 3 => if i = 0 then l else if i = 1 then m else n)).length)
        (List.range (NG 1)) = List.replicate (NG 1) (NG 0) := by
      rw [List.eq_replicate_iff]; simp
    rw [this, List.sum_replicate]; rfl
  have hlt : g 1 * NG 0 + g 0 < NG 1 * NG 0 := by
    have : (g 1 + 1) * NG 0 ≤ NG 1 * NG 0 := Nat.mul_le_mul_right _ h1
    rw [Nat.succ_mul] at this; omega
  have hid : commID NG g = g 2 * (NG 1 * NG 0) + (g 1 * NG 0 + g 0) := by unfold commID; ring
  unfold gridOrder
  rw [hid, getElem?_flatMap_range _ _ hmid _ _ _ h2 hlt,
    getElem?_flatMap_range _ _ (hin (g 2)) _ _ _ h1 h0, List.getElem?_map, List.getElem?_range h0]
  simp only [Option.map_some, Option.some.injEq]
  funext i
  fin_cases i <;> simp

/-- **C19.** With the same wrap-around on both sides of direction `d`: if the right neighbour of Grid
`g` is Grid `g'` then the left neighbour of `g'` is `g`, and conversely; a Grid has no right (left)
neighbour exactly if it is the last (first) one in direction `d` and the direction does not wrap
around (or has only one Grid). -/
theorem neighbours_mutual (NG g g' : Fin 3 → Nat) (d : Fin 3) (wrap : Bool)
    (hg : Pos NG g) (hg' : Pos NG g') :
    (rightID NG g d wrap = commID NG g' ↔ leftID NG g' d wrap = commID NG g) ∧
    (rightID NG g d wrap = -1 ↔ g d = NG d - 1 ∧ (wrap = false ∨ NG d = 1)) ∧
    (leftID NG g d wrap = -1 ↔ g d = 0 ∧ (wrap = false ∨ NG d = 1)) := by
  have hgd := hg d; have hgd' := hg' d
  have upd : ∀ (x : Fin 3 → Nat) v, Pos NG x → v < NG d → Pos NG (Function.update x d v) := by
    intro x v hx hv i
    by_cases hi : i = d
    · subst hi; rw [Function.update_self]; exact hv
    · rw [Function.update_of_ne hi]; exact hx i
  -- right neighbour in terms of positions
  have hr : rightID NG g d wrap = commID NG g' ↔
      (g d < NG d - 1 ∧ g' = Function.update g d (g d + 1)) ∨
      (¬ g d < NG d - 1 ∧ wrap = true ∧ NG d > 1 ∧ g' = Function.update g d 0) := by
    unfold rightID
    split_ifs with h1 h2
    · rw [Int.natCast_inj]
      constructor
      · intro h; exact .inl ⟨h1, (commID_inj (upd g _ hg (by omega)) hg' h).symm⟩
      · rintro (⟨_, rfl⟩ | ⟨h, _⟩)
        · rfl
        · exact absurd h1 h
    · rw [Int.natCast_inj]
      constructor
      · intro h; exact .inr ⟨h1, h2.1, h2.2, (commID_inj (upd g _ hg (by omega)) hg' h).symm⟩
      · rintro (⟨h, _⟩ | ⟨_, _, _, rfl⟩)
        · exact absurd h h1
        · rfl
    · constructor
      · intro h; simp at h
      · rintro (⟨h, _⟩ | ⟨_, a, b, _⟩)
        · exact absurd h h1
        · exact absurd ⟨a, b⟩ h2
  have hl : leftID NG g' d wrap = commID NG g ↔
      (g' d > 0 ∧ g = Function.update g' d (g' d - 1)) ∨
      (¬ g' d > 0 ∧ wrap = true ∧ NG d > 1 ∧ g = Function.update g' d (NG d - 1)) := by
    unfold leftID
    split_ifs with h1 h2
    · rw [Int.natCast_inj]
      constructor
      · intro h; exact .inl ⟨h1, (commID_inj (upd g' _ hg' (by omega)) hg h).symm⟩
      · rintro (⟨_, rfl⟩ | ⟨h, _⟩)
        · rfl
        · exact absurd h1 h
    · rw [Int.natCast_inj]
      constructor
      · intro h; exact .inr ⟨h1, h2.1, h2.2, (commID_inj (upd g' _ hg' (by omega)) hg h).symm⟩
      · rintro (⟨h, _⟩ | ⟨_, _, _, rfl⟩)
        · exact absurd h h1
        · rfl
    · constructor
      · intro h; simp at h
      · rintro (⟨h, _⟩ | ⟨_, a, b, _⟩)
        · exact absurd h h1
        · exact absurd ⟨a, b⟩ h2
  refine ⟨?_, ?_, ?_⟩
  · rw [hr, hl]
    constructor
    · rintro (⟨a, rfl⟩ | ⟨a, b, c, rfl⟩)
      · left; rw [Function.update_self]; refine ⟨by omega, ?_⟩
        simp
      · right; rw [Function.update_self]; refine ⟨by omega, b, c, ?_⟩
        have : NG d - 1 = g d := by omega
        simp [this]
    · rintro (⟨a, rfl⟩ | ⟨a, b, c, rfl⟩)
      · left; rw [Function.update_self]; refine ⟨by omega, ?_⟩
        have : g' d - 1 + 1 = g' d := by omega
        simp [this]
      · right; rw [Function.update_self]; refine ⟨by omega, b, c, ?_⟩
        have : 0 = g' d := by omega
        simp [this]
  · unfold rightID
    split_ifs with h1 h2
    · constructor
      · intro h; simp at h
      · intro h; omega
    · constructor
      · intro h; simp at h
      · rintro ⟨_, h | h⟩
        · rw [h] at h2; simp at h2
        · omega
    · constructor
      · intro _; refine ⟨by omega, ?_⟩
        cases wrap
        · exact .inl rfl
        · right; simp at h2; omega
      · intro _; rfl
  · unfold leftID
    split_ifs with h1 h2
    · constructor
      · intro h; simp at h
      · intro h; omega
    · constructor
      · intro h; simp at h
      · rintro ⟨_, h | h⟩
        · rw [h] at h2; simp at h2
        · omega
    · constructor
      · intro _; refine ⟨by omega, ?_⟩
        cases wrap
        · exact .inl rfl
        · right; simp at h2; omega
      · intro _; rfl

/-- The wrap-around of both sides of a direction agrees whenever both boundary flags of the root Domain
are periodic or neither is, and no user function is enrolled on one side only. -/
theorem wrap_agrees (user : Bool) (disp nx irf rootNx fl fr : Int) (a b : Bool)
    (hf : fl = 4 ↔ fr = 4)
    (ha : wrapLeft user disp nx irf rootNx fl = .ok a) (hb : wrapRight user disp nx irf rootNx fr = .ok b) :
    a = b := by
  unfold wrapLeft at ha
  unfold wrapRight at hb
  split_ifs at ha hb <;> simp only [Res.ok.injEq] at ha hb <;> subst ha hb <;> first | rfl | omega

/-- **C19 fails for mixed flags**: with a periodic left and an outflow right boundary (accepted by
the set-up) Grid 0 of two Grids has Grid 1 as left neighbour, but Grid 1 has no right neighbour. -/
theorem neighbours_mixed_false :
    wrapLeft false 0 8 1 8 4 = .ok true ∧ wrapRight false 0 8 1 8 2 = .ok false ∧
    leftID ![2,1,1] ![0,0,0] 0 true = 1 ∧ commID ![2,1,1] ![1,0,0] = 1 ∧
    rightID ![2,1,1] ![1,0,0] 0 false = -1 := by
  refine ⟨rfl, rfl, ?_, ?_, ?_⟩ <;> simp [leftID, rightID, commID]

example : Pos ![2,3,2] ![1,1,0] ∧ rightID ![2,3,2] ![1,1,0] 1 false = commID ![2,3,2] ![1,2,0] := by
  refine ⟨by unfold Pos; decide, by decide⟩

/-! ## C52: addressing child Grids in the parent's communicator -/

theorem findRank_spec (id : Nat) : ∀ (rs : List Nat) (i : Nat) (acc : Option Nat),
    (id ∉ rs → findRank id rs i acc = acc) ∧
    (id ∈ rs → ∃ k, findRank id rs i acc = some (i + k) ∧ rs[k]? = some id) := by
  intro rs
  induction rs with
  | nil => intro i acc; simp [findRank]
  | cons r rs ih =>
    intro i acc
    simp only [findRank]
    constructor
    · intro h
      rw [List.mem_cons, not_or] at h
      rw [if_neg h.1]
      exact (ih (i+1) acc).1 h.2
    · intro h
      by_cases hrs : id ∈ rs
      · obtain ⟨k, e1, e2⟩ := (ih (i+1) (if id = r then some i else acc)).2 hrs
        exact ⟨k+1, by rw [e1]; congr 1; omega, by rw [List.getElem?_cons_succ]; exact e2⟩
      · have hr : id = r := by
          rcases List.mem_cons.1 h with h | h
          · exact h
          · exact absurd h hrs
        rw [(ih (i+1) _).1 hrs, if_pos hr]
        exact ⟨0, rfl, by simp [hr]⟩

/-- The array `ranks` keeps distinct entries below the number of processes, so it never overflows the
`Nproc_Comm_world` entries allocated for it (src/init_mesh.c:719). -/
theorem addChildren_ranks (P : Nat) : ∀ (ids ranks : List Nat), ranks.Nodup → (∀ r ∈ ranks, r < P) →
    (∀ r ∈ ids, r < P) →
    (addChildren ids ranks).1.Nodup ∧ (∀ r ∈ (addChildren ids ranks).1, r < P) ∧
    ranks <+: (addChildren ids ranks).1 ∧ (∀ r ∈ ids, r ∈ (addChildren ids ranks).1) ∧
    (addChildren ids ranks).1.length ≤ P := by
  intro ids
  induction ids with
  | nil =>
    intro ranks h1 h2 h3
    refine ⟨h1, h2, List.prefix_rfl, by simp, ?_⟩
    have hsub : ranks.toFinset ⊆ Finset.range P := by
      intro x hx; simpa using h2 x (by simpa using hx)
    have := Finset.card_le_card hsub
    rw [List.toFinset_card_of_nodup h1, Finset.card_range] at this
    exact this
  | cons id ids ih =>
    intro ranks h1 h2 h3
    simp only [addChildren]
    by_cases hmem : id ∈ ranks
    · obtain ⟨k, e1, e2⟩ := (findRank_spec id ranks 0 none).2 hmem
      rw [e1]
      dsimp only
      obtain ⟨a, b, c, d, e⟩ := ih ranks h1 h2 (fun r hr => h3 r (by simp [hr]))
      refine ⟨a, b, c, ?_, e⟩
      intro r hr
      rcases List.mem_cons.1 hr with rfl | hr
      · exact c.subset hmem
      · exact d r hr
    · rw [(findRank_spec id ranks 0 none).1 hmem]
      dsimp only
      obtain ⟨a, b, c, d, e⟩ := ih (ranks ++ [id])
        (List.nodup_append.2 ⟨h1, List.nodup_singleton _, by
          intro x hx y hy; rw [List.mem_singleton] at hy; subst hy; rintro rfl; exact hmem hx⟩)
        (by intro r hr; rcases List.mem_append.1 hr with hr | hr
            · exact h2 r hr
            · rw [List.mem_singleton] at hr; subst hr; exact h3 _ (by simp))
        (fun r hr => h3 r (by simp [hr]))
      refine ⟨a, b, (List.prefix_append _ _).trans c, ?_, e⟩
      intro r hr
      rcases List.mem_cons.1 hr with rfl | hr
      · exact c.subset (by simp)
      · exact d r hr

/-- **C52**, the part that holds: if the ranks of the parent Domain's Grids are `0,1,2,…` in order (as
for a root Domain with one Grid on every rank), each child Grid is addressed by its position in the communicator: entry `ID_Comm_Parent` of
the list of ranks is the Grid's own rank.
(Missing: other rank lists, for which it is false, see `commParent_false`.) -/
theorem commParent_correct_partial (P : Nat) (ids : List Nat) (hids : ∀ r ∈ ids, r < P) :
    (addChildren ids (List.range P)).2 = ids ∧ (addChildren ids (List.range P)).1 = List.range P := by
  induction ids with
  | nil => exact ⟨rfl, rfl⟩
  | cons id ids ih =>
    have hid := hids id (by simp)
    obtain ⟨k, e1, e2⟩ := (findRank_spec id (List.range P) 0 none).2 (List.mem_range.2 hid)
    have hk : k = id := by
      rw [List.getElem?_eq_some_iff] at e2
      obtain ⟨h, e⟩ := e2
      rw [List.getElem_range] at e; exact e
    obtain ⟨r1, r2⟩ := ih (fun r hr => hids r (by simp [hr]))
    simp only [addChildren, e1, Nat.zero_add]
    refine ⟨?_, r2⟩
    rw [r1, hk]
    congr 1
    rw [List.getD_eq_getElem?_getD, List.getElem?_range hid]; rfl

/-- **C52 is false in general**: parent Grids on ranks 2, 0 and child Grids on ranks 1, 2
(src/init_mesh.c:787 stores `ranks[irank]` where `irank` is meant).  The child Grid on rank 2 is
addressed as process 2 of the communicator, which is rank 1. -/
theorem commParent_false : ∃ parents children : List Nat,
    assignAll 3 [2, 2, 2] = .ok [[0,1], parents, children] ∧
    ∃ k id : Nat, (addChildren children parents).2[k]? = some id ∧
      (addChildren children parents).1[id]? ≠ children[k]? := by
  refine ⟨[2,0], [1,2], by decide, 1, 2, by decide, by decide⟩

end Athena.Mesh
