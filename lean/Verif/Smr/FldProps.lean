import Verif.Smr.ProProps

/-!
# C31: prolongation of the face-centred field
-/

namespace Athena.Smr

variable {R : Type*} [Field R] [LinearOrder R] [IsStrictOrderedRing R]

/-! ## Specification -/

/-- Discrete divergence of the fine zone `(k,j,i)` (`k,j,i ∈ {0,1}`) of a block whose coarse zone has
sides `dx1, dx2, dx3` (so the fine zone has half of them). -/
def fineDiv (b : Fld R) (dx1 dx2 dx3 : R) (k j i : Nat) : R :=
  (b.x1 k j (i+1) - b.x1 k j i) / (dx1/2) + (b.x2 k (j+1) i - b.x2 k j i) / (dx2/2)
    + (b.x3 (k+1) j i - b.x3 k j i) / (dx3/2)

/-- Divergence of the whole block from its outer faces (the mean of the four fine faces on each side). -/
def blockDiv (b : Fld R) (dx1 dx2 dx3 : R) : R :=
  ((b.x1 0 0 2 + b.x1 0 1 2 + b.x1 1 0 2 + b.x1 1 1 2)/4 -
    (b.x1 0 0 0 + b.x1 0 1 0 + b.x1 1 0 0 + b.x1 1 1 0)/4) / dx1 +
  ((b.x2 0 2 0 + b.x2 0 2 1 + b.x2 1 2 0 + b.x2 1 2 1)/4 -
    (b.x2 0 0 0 + b.x2 0 0 1 + b.x2 1 0 0 + b.x2 1 0 1)/4) / dx2 +
  ((b.x3 2 0 0 + b.x3 2 0 1 + b.x3 2 1 0 + b.x3 2 1 1)/4 -
    (b.x3 0 0 0 + b.x3 0 0 1 + b.x3 0 1 0 + b.x3 0 1 1)/4) / dx3

/-- Divergence of the coarse zone in the middle of the coarse stencil `g`. -/
def coarseDiv (g : Fld R) (dx1 dx2 dx3 : R) : R :=
  (g.x1 1 1 2 - g.x1 1 1 1) / dx1 + (g.x2 1 2 1 - g.x2 1 1 1) / dx2 + (g.x3 2 1 1 - g.x3 1 1 1) / dx3

/-! ## The interior faces -/

omit [LinearOrder R] [IsStrictOrderedRing R] in
theorem sgn_0 : (sgn 0 : R) = -1 := by simp [sgn]
omit [LinearOrder R] [IsStrictOrderedRing R] in
theorem sgn_1 : (sgn 1 : R) = 1 := by simp [sgn]; norm_num

omit [LinearOrder R] [IsStrictOrderedRing R] in
theorem interior_x1 (a : Fld R) (d1 d2 d3 : R) (k j : Nat) :
    (interior a d1 d2 d3).x1 k j 0 = a.x1 k j 0 ∧ (interior a d1 d2 d3).x1 k j 2 = a.x1 k j 2 ∧
    (interior a d1 d2 d3).x2 k 0 j = a.x2 k 0 j ∧ (interior a d1 d2 d3).x2 k 2 j = a.x2 k 2 j ∧
    (interior a d1 d2 d3).x3 0 k j = a.x3 0 k j ∧ (interior a d1 d2 d3).x3 2 k j = a.x3 2 k j := by
  simp [interior]


theorem ratios {d1 d2 d3 : R} (h1 : 0 < d1) (h2 : 0 < d2) (h3 : 0 < d3) : ∃ qU qV qW : R,
    1 / 8 * d2 * d3 / (d2 * d2 + d3 * d3) = qU ∧ 1 / 8 * d1 * d3 / (d1 * d1 + d3 * d3) = qV ∧
    1 / 8 * d1 * d2 / (d1 * d1 + d2 * d2) = qW ∧ (d2/d3 + d3/d2) * qU = 1/8 ∧
    (d1/d3 + d3/d1) * qV = 1/8 ∧ (d1/d2 + d2/d1) * qW = 1/8 := by
  have n1 := h1.ne'
  have n2 := h2.ne'
  have n3 := h3.ne'
  have p1 : d2*d2 + d3*d3 ≠ 0 := by positivity
  have p2 : d1*d1 + d3*d3 ≠ 0 := by positivity
  have p3 : d1*d1 + d2*d2 ≠ 0 := by positivity
  refine ⟨_, _, _, rfl, rfl, rfl, ?_, ?_, ?_⟩ <;> field_simp

theorem interior_div_000 (a : Fld R) {d1 d2 d3 : R} (h1 : 0 < d1) (h2 : 0 < d2) (h3 : 0 < d3) :
    fineDiv (interior a d1 d2 d3) d1 d2 d3 0 0 0 = blockDiv a d1 d2 d3 := by
  obtain ⟨qU, qV, qW, hU, hV, hW, hU', hV', hW'⟩ := ratios h1 h2 h3
  have n1 := h1.ne'
  have n2 := h2.ne'
  have n3 := h3.ne'
  simp only [fineDiv, blockDiv, interior, sum4, sgn_0, sgn_1, zero_add, Nat.reduceAdd, if_true,
    Nat.reduceMul, mul_zero, mul_one, OfNat.ofNat_ne_one, zero_ne_one, one_ne_zero, if_false, hU, hV, hW]
  linear_combination (norm := (field_simp; ring1))
    (-2 : R) / d1 * ((a.x1 1 0 0 - a.x1 0 0 0) - (a.x1 1 0 2 - a.x1 0 0 2)
      - (a.x1 1 1 0 - a.x1 0 1 0) + (a.x1 1 1 2 - a.x1 0 1 2)) * hU' +
    (-2 : R) / d2 * ((a.x2 1 0 0 - a.x2 0 0 0) - (a.x2 1 0 1 - a.x2 0 0 1)
      - (a.x2 1 2 0 - a.x2 0 2 0) + (a.x2 1 2 1 - a.x2 0 2 1)) * hV' +
    (-2 : R) / d3 * ((a.x3 2 0 0 - a.x3 0 0 0) - (a.x3 2 0 1 - a.x3 0 0 1)
      - (a.x3 2 1 0 - a.x3 0 1 0) + (a.x3 2 1 1 - a.x3 0 1 1)) * hW'

theorem interior_div_001 (a : Fld R) {d1 d2 d3 : R} (h1 : 0 < d1) (h2 : 0 < d2) (h3 : 0 < d3) :
    fineDiv (interior a d1 d2 d3) d1 d2 d3 0 0 1 = blockDiv a d1 d2 d3 := by
  obtain ⟨qU, qV, qW, hU, hV, hW, hU', hV', hW'⟩ := ratios h1 h2 h3
  have n1 := h1.ne'
  have n2 := h2.ne'
  have n3 := h3.ne'
  simp only [fineDiv, blockDiv, interior, sum4, sgn_0, sgn_1, zero_add, Nat.reduceAdd, if_true,
    Nat.reduceMul, mul_zero, mul_one, OfNat.ofNat_ne_one, zero_ne_one, one_ne_zero, if_false, hU, hV, hW]
  linear_combination (norm := (field_simp; ring1))
    (-2 : R) / d1 * ((a.x1 1 0 0 - a.x1 0 0 0) - (a.x1 1 0 2 - a.x1 0 0 2)
      - (a.x1 1 1 0 - a.x1 0 1 0) + (a.x1 1 1 2 - a.x1 0 1 2)) * hU' +
    (2 : R) / d2 * ((a.x2 1 0 0 - a.x2 0 0 0) - (a.x2 1 0 1 - a.x2 0 0 1)
      - (a.x2 1 2 0 - a.x2 0 2 0) + (a.x2 1 2 1 - a.x2 0 2 1)) * hV' +
    (2 : R) / d3 * ((a.x3 2 0 0 - a.x3 0 0 0) - (a.x3 2 0 1 - a.x3 0 0 1)
      - (a.x3 2 1 0 - a.x3 0 1 0) + (a.x3 2 1 1 - a.x3 0 1 1)) * hW'

theorem interior_div_010 (a : Fld R) {d1 d2 d3 : R} (h1 : 0 < d1) (h2 : 0 < d2) (h3 : 0 < d3) :
    fineDiv (interior a d1 d2 d3) d1 d2 d3 0 1 0 = blockDiv a d1 d2 d3 := by
  obtain ⟨qU, qV, qW, hU, hV, hW, hU', hV', hW'⟩ := ratios h1 h2 h3
  have n1 := h1.ne'
  have n2 := h2.ne'
  have n3 := h3.ne'
  simp only [fineDiv, blockDiv, interior, sum4, sgn_0, sgn_1, zero_add, Nat.reduceAdd, if_true,
    Nat.reduceMul, mul_zero, mul_one, OfNat.ofNat_ne_one, zero_ne_one, one_ne_zero, if_false, hU, hV, hW]
  linear_combination (norm := (field_simp; ring1))
    (2 : R) / d1 * ((a.x1 1 0 0 - a.x1 0 0 0) - (a.x1 1 0 2 - a.x1 0 0 2)
      - (a.x1 1 1 0 - a.x1 0 1 0) + (a.x1 1 1 2 - a.x1 0 1 2)) * hU' +
    (-2 : R) / d2 * ((a.x2 1 0 0 - a.x2 0 0 0) - (a.x2 1 0 1 - a.x2 0 0 1)
      - (a.x2 1 2 0 - a.x2 0 2 0) + (a.x2 1 2 1 - a.x2 0 2 1)) * hV' +
    (2 : R) / d3 * ((a.x3 2 0 0 - a.x3 0 0 0) - (a.x3 2 0 1 - a.x3 0 0 1)
      - (a.x3 2 1 0 - a.x3 0 1 0) + (a.x3 2 1 1 - a.x3 0 1 1)) * hW'

theorem interior_div_011 (a : Fld R) {d1 d2 d3 : R} (h1 : 0 < d1) (h2 : 0 < d2) (h3 : 0 < d3) :
    fineDiv (interior a d1 d2 d3) d1 d2 d3 0 1 1 = blockDiv a d1 d2 d3 := by
  obtain ⟨qU, qV, qW, hU, hV, hW, hU', hV', hW'⟩ := ratios h1 h2 h3
  have n1 := h1.ne'
  have n2 := h2.ne'
  have n3 := h3.ne'
  simp only [fineDiv, blockDiv, interior, sum4, sgn_0, sgn_1, zero_add, Nat.reduceAdd, if_true,
    Nat.reduceMul, mul_zero, mul_one, OfNat.ofNat_ne_one, zero_ne_one, one_ne_zero, if_false, hU, hV, hW]
  linear_combination (norm := (field_simp; ring1))
    (2 : R) / d1 * ((a.x1 1 0 0 - a.x1 0 0 0) - (a.x1 1 0 2 - a.x1 0 0 2)
      - (a.x1 1 1 0 - a.x1 0 1 0) + (a.x1 1 1 2 - a.x1 0 1 2)) * hU' +
    (2 : R) / d2 * ((a.x2 1 0 0 - a.x2 0 0 0) - (a.x2 1 0 1 - a.x2 0 0 1)
      - (a.x2 1 2 0 - a.x2 0 2 0) + (a.x2 1 2 1 - a.x2 0 2 1)) * hV' +
    (-2 : R) / d3 * ((a.x3 2 0 0 - a.x3 0 0 0) - (a.x3 2 0 1 - a.x3 0 0 1)
      - (a.x3 2 1 0 - a.x3 0 1 0) + (a.x3 2 1 1 - a.x3 0 1 1)) * hW'

theorem interior_div_100 (a : Fld R) {d1 d2 d3 : R} (h1 : 0 < d1) (h2 : 0 < d2) (h3 : 0 < d3) :
    fineDiv (interior a d1 d2 d3) d1 d2 d3 1 0 0 = blockDiv a d1 d2 d3 := by
  obtain ⟨qU, qV, qW, hU, hV, hW, hU', hV', hW'⟩ := ratios h1 h2 h3
  have n1 := h1.ne'
  have n2 := h2.ne'
  have n3 := h3.ne'
  simp only [fineDiv, blockDiv, interior, sum4, sgn_0, sgn_1, zero_add, Nat.reduceAdd, if_true,
    Nat.reduceMul, mul_zero, mul_one, OfNat.ofNat_ne_one, zero_ne_one, one_ne_zero, if_false, hU, hV, hW]
  linear_combination (norm := (field_simp; ring1))
    (2 : R) / d1 * ((a.x1 1 0 0 - a.x1 0 0 0) - (a.x1 1 0 2 - a.x1 0 0 2)
      - (a.x1 1 1 0 - a.x1 0 1 0) + (a.x1 1 1 2 - a.x1 0 1 2)) * hU' +
    (2 : R) / d2 * ((a.x2 1 0 0 - a.x2 0 0 0) - (a.x2 1 0 1 - a.x2 0 0 1)
      - (a.x2 1 2 0 - a.x2 0 2 0) + (a.x2 1 2 1 - a.x2 0 2 1)) * hV' +
    (-2 : R) / d3 * ((a.x3 2 0 0 - a.x3 0 0 0) - (a.x3 2 0 1 - a.x3 0 0 1)
      - (a.x3 2 1 0 - a.x3 0 1 0) + (a.x3 2 1 1 - a.x3 0 1 1)) * hW'

theorem interior_div_101 (a : Fld R) {d1 d2 d3 : R} (h1 : 0 < d1) (h2 : 0 < d2) (h3 : 0 < d3) :
    fineDiv (interior a d1 d2 d3) d1 d2 d3 1 0 1 = blockDiv a d1 d2 d3 := by
  obtain ⟨qU, qV, qW, hU, hV, hW, hU', hV', hW'⟩ := ratios h1 h2 h3
  have n1 := h1.ne'
  have n2 := h2.ne'
  have n3 := h3.ne'
  simp only [fineDiv, blockDiv, interior, sum4, sgn_0, sgn_1, zero_add, Nat.reduceAdd, if_true,
    Nat.reduceMul, mul_zero, mul_one, OfNat.ofNat_ne_one, zero_ne_one, one_ne_zero, if_false, hU, hV, hW]
  linear_combination (norm := (field_simp; ring1))
    (2 : R) / d1 * ((a.x1 1 0 0 - a.x1 0 0 0) - (a.x1 1 0 2 - a.x1 0 0 2)
      - (a.x1 1 1 0 - a.x1 0 1 0) + (a.x1 1 1 2 - a.x1 0 1 2)) * hU' +
    (-2 : R) / d2 * ((a.x2 1 0 0 - a.x2 0 0 0) - (a.x2 1 0 1 - a.x2 0 0 1)
      - (a.x2 1 2 0 - a.x2 0 2 0) + (a.x2 1 2 1 - a.x2 0 2 1)) * hV' +
    (2 : R) / d3 * ((a.x3 2 0 0 - a.x3 0 0 0) - (a.x3 2 0 1 - a.x3 0 0 1)
      - (a.x3 2 1 0 - a.x3 0 1 0) + (a.x3 2 1 1 - a.x3 0 1 1)) * hW'

theorem interior_div_110 (a : Fld R) {d1 d2 d3 : R} (h1 : 0 < d1) (h2 : 0 < d2) (h3 : 0 < d3) :
    fineDiv (interior a d1 d2 d3) d1 d2 d3 1 1 0 = blockDiv a d1 d2 d3 := by
  obtain ⟨qU, qV, qW, hU, hV, hW, hU', hV', hW'⟩ := ratios h1 h2 h3
  have n1 := h1.ne'
  have n2 := h2.ne'
  have n3 := h3.ne'
  simp only [fineDiv, blockDiv, interior, sum4, sgn_0, sgn_1, zero_add, Nat.reduceAdd, if_true,
    Nat.reduceMul, mul_zero, mul_one, OfNat.ofNat_ne_one, zero_ne_one, one_ne_zero, if_false, hU, hV, hW]
  linear_combination (norm := (field_simp; ring1))
    (-2 : R) / d1 * ((a.x1 1 0 0 - a.x1 0 0 0) - (a.x1 1 0 2 - a.x1 0 0 2)
      - (a.x1 1 1 0 - a.x1 0 1 0) + (a.x1 1 1 2 - a.x1 0 1 2)) * hU' +
    (2 : R) / d2 * ((a.x2 1 0 0 - a.x2 0 0 0) - (a.x2 1 0 1 - a.x2 0 0 1)
      - (a.x2 1 2 0 - a.x2 0 2 0) + (a.x2 1 2 1 - a.x2 0 2 1)) * hV' +
    (2 : R) / d3 * ((a.x3 2 0 0 - a.x3 0 0 0) - (a.x3 2 0 1 - a.x3 0 0 1)
      - (a.x3 2 1 0 - a.x3 0 1 0) + (a.x3 2 1 1 - a.x3 0 1 1)) * hW'

theorem interior_div_111 (a : Fld R) {d1 d2 d3 : R} (h1 : 0 < d1) (h2 : 0 < d2) (h3 : 0 < d3) :
    fineDiv (interior a d1 d2 d3) d1 d2 d3 1 1 1 = blockDiv a d1 d2 d3 := by
  obtain ⟨qU, qV, qW, hU, hV, hW, hU', hV', hW'⟩ := ratios h1 h2 h3
  have n1 := h1.ne'
  have n2 := h2.ne'
  have n3 := h3.ne'
  simp only [fineDiv, blockDiv, interior, sum4, sgn_0, sgn_1, zero_add, Nat.reduceAdd, if_true,
    Nat.reduceMul, mul_zero, mul_one, OfNat.ofNat_ne_one, zero_ne_one, one_ne_zero, if_false, hU, hV, hW]
  linear_combination (norm := (field_simp; ring1))
    (-2 : R) / d1 * ((a.x1 1 0 0 - a.x1 0 0 0) - (a.x1 1 0 2 - a.x1 0 0 2)
      - (a.x1 1 1 0 - a.x1 0 1 0) + (a.x1 1 1 2 - a.x1 0 1 2)) * hU' +
    (-2 : R) / d2 * ((a.x2 1 0 0 - a.x2 0 0 0) - (a.x2 1 0 1 - a.x2 0 0 1)
      - (a.x2 1 2 0 - a.x2 0 2 0) + (a.x2 1 2 1 - a.x2 0 2 1)) * hV' +
    (-2 : R) / d3 * ((a.x3 2 0 0 - a.x3 0 0 0) - (a.x3 2 0 1 - a.x3 0 0 1)
      - (a.x3 2 1 0 - a.x3 0 1 0) + (a.x3 2 1 1 - a.x3 0 1 1)) * hW'

/-- All eight fine zones have the divergence of the block. -/
theorem interior_div (a : Fld R) {d1 d2 d3 : R} (h1 : 0 < d1) (h2 : 0 < d2) (h3 : 0 < d3)
    {k j i : Nat} (hk : k < 2) (hj : j < 2) (hi : i < 2) :
    fineDiv (interior a d1 d2 d3) d1 d2 d3 k j i = blockDiv a d1 d2 d3 := by
  have c1 : k = 0 ∨ k = 1 := by omega
  have c2 : j = 0 ∨ j = 1 := by omega
  have c3 : i = 0 ∨ i = 1 := by omega
  rcases c1 with rfl | rfl <;> rcases c2 with rfl | rfl <;> rcases c3 with rfl | rfl
  · exact interior_div_000 a h1 h2 h3
  · exact interior_div_001 a h1 h2 h3
  · exact interior_div_010 a h1 h2 h3
  · exact interior_div_011 a h1 h2 h3
  · exact interior_div_100 a h1 h2 h3
  · exact interior_div_101 a h1 h2 h3
  · exact interior_div_110 a h1 h2 h3
  · exact interior_div_111 a h1 h2 h3

/-! ## Property C31 -/

omit [IsStrictOrderedRing R] in
theorem proFld_outer (cf : ProCfg) (g p : Fld R) (d1 d2 d3 : R) (k j : Nat) :
    (proFld cf g p d1 d2 d3).x1 k j 0 = outer1 cf g p 0 1 k j ∧
    (proFld cf g p d1 d2 d3).x1 k j 2 = outer1 cf g p 2 2 k j ∧
    (proFld cf g p d1 d2 d3).x2 k 0 j = outer2 cf g p 0 1 k j ∧
    (proFld cf g p d1 d2 d3).x2 k 2 j = outer2 cf g p 2 2 k j ∧
    (proFld cf g p d1 d2 d3).x3 0 k j = outer3 cf g p 0 1 k j ∧
    (proFld cf g p d1 d2 d3).x3 2 k j = outer3 cf g p 2 2 k j := by
  have := interior_x1 (outerFaces cf g p) d1 d2 d3 k j
  simpa [proFld, outerFaces] using this

omit [IsStrictOrderedRing R] in
theorem proFld_blockDiv (cf : ProCfg) (g p : Fld R) (d1 d2 d3 : R) :
    blockDiv (proFld cf g p d1 d2 d3) d1 d2 d3 = blockDiv (outerFaces cf g p) d1 d2 d3 := by
  simp [proFld, blockDiv, interior]

/-- **C31, divergence.**  Whatever the coarse field, the values already known on the outer faces, the
order and the shape of the zones: the eight fine zones of a block all get the same discrete divergence,
the one of the block seen from its outer faces. -/
theorem proFld_div (cf : ProCfg) (g p : Fld R) {d1 d2 d3 : R} (h1 : 0 < d1) (h2 : 0 < d2) (h3 : 0 < d3)
    {k j i : Nat} (hk : k < 2) (hj : j < 2) (hi : i < 2) :
    fineDiv (proFld cf g p d1 d2 d3) d1 d2 d3 k j i = blockDiv (proFld cf g p d1 d2 d3) d1 d2 d3 := by
  rw [proFld_blockDiv]
  exact interior_div _ h1 h2 h3 hk hj hi

/-- The known values `a b c d` on a face are either not used (first one 0) or agree on average with the
coarse value (which is what restriction and flux correction maintain, C29). -/
def FaceOk (a b c d coarse : R) : Prop := a = 0 ∨ (a + b + c + d)/4 = coarse

/-- All six faces of the block. -/
structure KnownOk (g p : Fld R) : Prop where
  l1 : FaceOk (p.x1 0 0 0) (p.x1 0 1 0) (p.x1 1 0 0) (p.x1 1 1 0) (g.x1 1 1 1)
  r1 : FaceOk (p.x1 0 0 2) (p.x1 0 1 2) (p.x1 1 0 2) (p.x1 1 1 2) (g.x1 1 1 2)
  l2 : FaceOk (p.x2 0 0 0) (p.x2 0 0 1) (p.x2 1 0 0) (p.x2 1 0 1) (g.x2 1 1 1)
  r2 : FaceOk (p.x2 0 2 0) (p.x2 0 2 1) (p.x2 1 2 0) (p.x2 1 2 1) (g.x2 1 2 1)
  l3 : FaceOk (p.x3 0 0 0) (p.x3 0 0 1) (p.x3 0 1 0) (p.x3 0 1 1) (g.x3 1 1 1)
  r3 : FaceOk (p.x3 2 0 0) (p.x3 2 0 1) (p.x3 2 1 0) (p.x3 2 1 1) (g.x3 2 1 1)

theorem outer_avg (cf : ProCfg) (g p : Fld R) (s c : Nat) :
    (FaceOk (p.x1 0 0 s) (p.x1 0 1 s) (p.x1 1 0 s) (p.x1 1 1 s) (g.x1 1 1 c) →
      (outer1 cf g p s c 0 0 + outer1 cf g p s c 0 1 + outer1 cf g p s c 1 0 + outer1 cf g p s c 1 1)/4
        = g.x1 1 1 c) ∧
    (FaceOk (p.x2 0 s 0) (p.x2 0 s 1) (p.x2 1 s 0) (p.x2 1 s 1) (g.x2 1 c 1) →
      (outer2 cf g p s c 0 0 + outer2 cf g p s c 0 1 + outer2 cf g p s c 1 0 + outer2 cf g p s c 1 1)/4
        = g.x2 1 c 1) ∧
    (FaceOk (p.x3 s 0 0) (p.x3 s 0 1) (p.x3 s 1 0) (p.x3 s 1 1) (g.x3 c 1 1) →
      (outer3 cf g p s c 0 0 + outer3 cf g p s c 0 1 + outer3 cf g p s c 1 0 + outer3 cf g p s c 1 1)/4
        = g.x3 c 1 1) := by
  refine ⟨fun h => ?_, fun h => ?_, fun h => ?_⟩
  · unfold outer1
    by_cases h0 : p.x1 0 0 s = 0
    · simp only [if_pos h0, if_true, one_ne_zero, if_false]; ring
    · simp only [if_neg h0]; exact h.resolve_left h0
  · unfold outer2
    by_cases h0 : p.x2 0 s 0 = 0
    · simp only [if_pos h0, if_true, one_ne_zero, if_false]; ring
    · simp only [if_neg h0]; exact h.resolve_left h0
  · unfold outer3
    by_cases h0 : p.x3 s 0 0 = 0
    · simp only [if_pos h0, if_true, one_ne_zero, if_false]; ring
    · simp only [if_neg h0]; exact h.resolve_left h0

/-- **C31, coarse divergence.**  If the known fine faces agree on average with the coarse faces, all eight
fine zones have exactly the divergence of the coarse zone; in particular a divergence-free coarse field
is prolongated to a divergence-free fine field. -/
theorem proFld_div_coarse (cf : ProCfg) (g p : Fld R) (hp : KnownOk g p)
    {d1 d2 d3 : R} (h1 : 0 < d1) (h2 : 0 < d2) (h3 : 0 < d3)
    {k j i : Nat} (hk : k < 2) (hj : j < 2) (hi : i < 2) :
    fineDiv (proFld cf g p d1 d2 d3) d1 d2 d3 k j i = coarseDiv g d1 d2 d3 := by
  rw [proFld_div cf g p h1 h2 h3 hk hj hi]
  have a1 := (outer_avg cf g p 0 1).1 hp.l1
  have a2 := (outer_avg cf g p 2 2).1 hp.r1
  have a3 := (outer_avg cf g p 0 1).2.1 hp.l2
  have a4 := (outer_avg cf g p 2 2).2.1 hp.r2
  have a5 := (outer_avg cf g p 0 1).2.2 hp.l3
  have a6 := (outer_avg cf g p 2 2).2.2 hp.r3
  unfold blockDiv coarseDiv
  simp only [(proFld_outer cf g p d1 d2 d3 _ _).1, (proFld_outer cf g p d1 d2 d3 _ _).2.1,
    (proFld_outer cf g p d1 d2 d3 _ _).2.2.1, (proFld_outer cf g p d1 d2 d3 _ _).2.2.2.1,
    (proFld_outer cf g p d1 d2 d3 _ _).2.2.2.2.1, (proFld_outer cf g p d1 d2 d3 _ _).2.2.2.2.2]
  rw [a1, a2, a3, a4, a5, a6]

/-- **C31, known fine fields (partial).**  The four known values on a face are kept, provided the first of
them is not exactly 0.  (Full statement: provided the face is known.  It fails, see
`proFld_keeps_false`.) -/
theorem proFld_keeps_partial (cf : ProCfg) (g p : Fld R) (d1 d2 d3 : R) (s : Nat) (hs : s = 0 ∨ s = 2) :
    (p.x1 0 0 s ≠ 0 → ∀ k j, (proFld cf g p d1 d2 d3).x1 k j s = p.x1 k j s) ∧
    (p.x2 0 s 0 ≠ 0 → ∀ k i, (proFld cf g p d1 d2 d3).x2 k s i = p.x2 k s i) ∧
    (p.x3 s 0 0 ≠ 0 → ∀ j i, (proFld cf g p d1 d2 d3).x3 s j i = p.x3 s j i) := by
  rcases hs with rfl | rfl
  · refine ⟨fun h k j => ?_, fun h k j => ?_, fun h k j => ?_⟩
    · rw [(proFld_outer cf g p d1 d2 d3 k j).1, outer1, if_neg h]
    · rw [(proFld_outer cf g p d1 d2 d3 k j).2.2.1, outer2, if_neg h]
    · rw [(proFld_outer cf g p d1 d2 d3 k j).2.2.2.2.1, outer3, if_neg h]
  · refine ⟨fun h k j => ?_, fun h k j => ?_, fun h k j => ?_⟩
    · rw [(proFld_outer cf g p d1 d2 d3 k j).2.1, outer1, if_neg h]
    · rw [(proFld_outer cf g p d1 d2 d3 k j).2.2.2.1, outer2, if_neg h]
    · rw [(proFld_outer cf g p d1 d2 d3 k j).2.2.2.2.2, outer3, if_neg h]

/-- A field that vanishes except for `x1`. -/
def only1 (f : Nat → Nat → Nat → R) : Fld R := ⟨f, fun _ _ _ => 0, fun _ _ _ => 0⟩

/-- **Finding.**  The value 0.0 is used for "not set": the known fine field `(0, 2, 2, 0)` on the left
x1-face, which agrees on average with the coarse value 1, is replaced by `(1, 1, 1, 1)`. -/
theorem proFld_keeps_false : ∃ (g p : Fld ℚ),
    (p.x1 0 0 0 + p.x1 0 1 0 + p.x1 1 0 0 + p.x1 1 1 0)/4 = g.x1 1 1 1 ∧
    (proFld ⟨false, true, false⟩ g p 1 1 1).x1 0 1 0 ≠ p.x1 0 1 0 := by
  refine ⟨only1 fun _ _ _ => 1, only1 fun k j _ => if k = j then 0 else 2, ?_, ?_⟩
  · norm_num [only1]
  · rw [(proFld_outer _ _ _ _ _ _ _ _).1]
    norm_num [outer1, only1, slope, mcdSlope]

/-- Hypotheses of `proFld_div_coarse` hold for a field with a known face with four different values. -/
example : KnownOk (R := ℚ) (only1 fun _ _ _ => 1)
    (only1 fun k j i => if i = 0 then (if k = j then 1/2 else 3/2) else 0) := by
  constructor <;> norm_num [FaceOk, only1]

/-! ### Two-dimensional runs

In 2D `Prolongate` fills the three coarse planes with the same data and the known values of both fine
planes with the same values; the code then uses plane 0 of the result. -/

/-- Coarse data and known values do not depend on `k`. -/
structure Flat (g p : Fld R) : Prop where
  g1 : ∀ k ≤ 2, ∀ j i, g.x1 k j i = g.x1 1 j i
  g2 : ∀ k ≤ 2, ∀ j i, g.x2 k j i = g.x2 1 j i
  g3 : ∀ k ≤ 2, ∀ j i, g.x3 k j i = g.x3 1 j i
  p1 : ∀ k ≤ 1, ∀ j i, p.x1 k j i = p.x1 0 j i
  p2 : ∀ k ≤ 1, ∀ j i, p.x2 k j i = p.x2 0 j i
  p3 : ∀ k ≤ 2, ∀ j i, p.x3 k j i = p.x3 0 j i

/-- 2D divergence of the fine zone `(j,i)` in plane 0. -/
def fineDiv2 (b : Fld R) (dx1 dx2 : R) (j i : Nat) : R :=
  (b.x1 0 j (i+1) - b.x1 0 j i) / (dx1/2) + (b.x2 0 (j+1) i - b.x2 0 j i) / (dx2/2)

theorem slope_flat (cf : ProCfg) (c : R) : slope cf c c c = 0 := slope_uniform cf c

/-- In 2D the four fine zones of plane 0 have the 2D divergence of the coarse zone, provided the known
faces agree on average with the coarse ones. -/
theorem proFld_div_2d (cf : ProCfg) (g p : Fld R) (hf : Flat g p) (hp : KnownOk g p)
    {d1 d2 d3 : R} (h1 : 0 < d1) (h2 : 0 < d2) (h3 : 0 < d3) {j i : Nat} (hj : j < 2) (hi : i < 2) :
    fineDiv2 (proFld cf g p d1 d2 d3) d1 d2 j i =
      (g.x1 1 1 2 - g.x1 1 1 1) / d1 + (g.x2 1 2 1 - g.x2 1 1 1) / d2 := by
  have hd := proFld_div_coarse cf g p hp h1 h2 h3 (k := 0) (by omega) hj hi
  have e1 : ∀ s c k j, k ≤ 1 → outer1 cf g p s c k j = outer1 cf g p s c 0 j := by
    intro s c k j hk
    unfold outer1
    simp only [hf.g1 0 (by omega), hf.g1 2 le_rfl, slope_uniform, hf.p1 k hk]
    split_ifs <;> simp
  have e2 : ∀ s c k j, k ≤ 1 → outer2 cf g p s c k j = outer2 cf g p s c 0 j := by
    intro s c k j hk
    unfold outer2
    simp only [hf.g2 0 (by omega), hf.g2 2 le_rfl, slope_uniform, hf.p2 k hk]
    split_ifs <;> simp
  have e3 : ∀ j i, outer3 cf g p 2 2 j i = outer3 cf g p 0 1 j i := by
    intro j i
    unfold outer3
    simp only [hf.g3 2 le_rfl, hf.p3 2 le_rfl]
  have a1 : ∀ k ≤ 1, ∀ j i, i = 0 ∨ i = 2 → (outerFaces cf g p).x1 k j i = (outerFaces cf g p).x1 0 j i := by
    rintro k hk j i (rfl | rfl) <;> simp only [outerFaces, if_true, OfNat.ofNat_ne_zero, if_false] <;>
      exact e1 _ _ _ _ hk
  have a2 : ∀ k ≤ 1, ∀ j i, j = 0 ∨ j = 2 → (outerFaces cf g p).x2 k j i = (outerFaces cf g p).x2 0 j i := by
    rintro k hk j i (rfl | rfl) <;> simp only [outerFaces, if_true, OfNat.ofNat_ne_zero, if_false] <;>
      exact e2 _ _ _ _ hk
  have a3 : ∀ j i, (outerFaces cf g p).x3 2 j i = (outerFaces cf g p).x3 0 j i := by
    intro j i
    simp only [outerFaces, OfNat.ofNat_ne_zero, if_true, if_false]
    exact e3 _ _
  have hx3 : (proFld cf g p d1 d2 d3).x3 1 j i = (proFld cf g p d1 d2 d3).x3 0 j i := by
    simp only [proFld, interior, sum4, mul_zero, mul_one, a1 1 le_rfl _ 0 (Or.inl rfl), a1 1 le_rfl _ 2 (Or.inr rfl),
      a2 1 le_rfl 0 _ (Or.inl rfl), a2 1 le_rfl 2 _ (Or.inr rfl), a3, sub_self, if_true, zero_ne_one, if_false,
      add_zero, zero_div]
    ring
  unfold fineDiv coarseDiv at hd
  rw [zero_add, hx3, hf.g3 2 le_rfl, sub_self, sub_self] at hd
  unfold fineDiv2
  simpa using hd

example : Flat (R := ℚ) (only1 fun _ j i => j + i) (only1 fun _ j _ => j) := by
  constructor <;> intros <;> rfl

end Athena.Smr
