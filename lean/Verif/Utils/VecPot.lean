import Verif.Mesh.Pos
import Verif.Utils.Quad
import Mathlib.Algebra.Order.Group.Abs
import Mathlib.Tactic.LinearCombination

/-!
# src/utils.c: interface fields from a vector potential, and `compute_div_b`; C41

Exact reals.  The quadrature `qsimp` is a parameter `Q`, which may fail; the actual one is
`Utils.qsimp`.  The static variables `xsav`, `ysav`, `zsav` through which the C code passes the fixed
coordinates to the integrand are replaced by closures.
-/

namespace Athena.VecPot
open Athena.Pos
noncomputable section

/-- The Grid: one axis per direction; `cyl` is `CYLINDRICAL`. -/
structure Grid where
  x : Axis
  y : Axis
  z : Axis
  cyl : Bool

/-- A component of the potential: NULL or a function of position. -/
abbrev Pot := Option (ℝ → ℝ → ℝ → ℝ)

/-- A quadrature. -/
abbrev Quadr := (ℝ → ℝ) → ℝ → ℝ → Res ℝ

/-- The contribution of one edge, without its sign and scale factor: nothing for a NULL component, the
integrand at the point if the edge has no length, else the quadrature; the pattern of
src/utils.c:1098-1107 and the five like it. -/
def edge (Q : Quadr) (f : Option (ℝ → ℝ)) (a b : ℝ) : Res ℝ :=
  match f with
  | none => .ok 0
  | some f => if a = b then .ok (f a) else Q f a b

/-- `xmin`, `ymin`, `zmin` of the zone, src/utils.c:1087-1090. -/
def lo (a : Axis) (i : ℤ) : ℝ := ccPos a i - 1/2 * a.dx

/-- `xmax`, `ymax`, `zmax`. -/
def hi (a : Axis) (i : ℤ) : ℝ := ccPos a i + 1/2 * a.dx

/-- `if (dx > 0.0) b /= dx` with a possibly scaled divisor. -/
def divIf (dx d b : ℝ) : ℝ := if dx > 0 then b / d else b

/-- `vecpot2b1i`, src/utils.c:1077-1122. -/
def b1i (Q : Quadr) (A2 A3 : Pot) (g : Grid) (i j k : ℤ) : Res ℝ := do
  let x := lo g.x i
  let sf := if g.cyl then x else 1
  let dx2 := if g.cyl then x * g.y.dx else g.y.dx
  let p ← edge Q (A2.map fun A y => A x y (lo g.z k)) (lo g.y j) (hi g.y j)
  let q ← edge Q (A2.map fun A y => A x y (hi g.z k)) (lo g.y j) (hi g.y j)
  let r ← edge Q (A3.map fun A z => A x (hi g.y j) z) (lo g.z k) (hi g.z k)
  let s ← edge Q (A3.map fun A z => A x (lo g.y j) z) (lo g.z k) (hi g.z k)
  return divIf g.z.dx g.z.dx (divIf g.y.dx dx2 (sf * p - sf * q + r - s))

/-- `vecpot2b2i`, src/utils.c:1133-1174. -/
def b2i (Q : Quadr) (A1 A3 : Pot) (g : Grid) (i j k : ℤ) : Res ℝ := do
  let y := lo g.y j
  let p ← edge Q (A1.map fun A x => A x y (hi g.z k)) (lo g.x i) (hi g.x i)
  let q ← edge Q (A1.map fun A x => A x y (lo g.z k)) (lo g.x i) (hi g.x i)
  let r ← edge Q (A3.map fun A z => A (lo g.x i) y z) (lo g.z k) (hi g.z k)
  let s ← edge Q (A3.map fun A z => A (hi g.x i) y z) (lo g.z k) (hi g.z k)
  return divIf g.z.dx g.z.dx (divIf g.x.dx g.x.dx (p - q + r - s))

/-- `vecpot2b3i`, src/utils.c:1185-1229. -/
def b3i (Q : Quadr) (A1 A2 : Pot) (g : Grid) (i j k : ℤ) : Res ℝ := do
  let z := lo g.z k
  let rsf := if g.cyl then hi g.x i else 1
  let lsf := if g.cyl then lo g.x i else 1
  let dx2 := if g.cyl then ccPos g.x i * g.y.dx else g.y.dx
  let p ← edge Q (A1.map fun A x => A x (lo g.y j) z) (lo g.x i) (hi g.x i)
  let q ← edge Q (A1.map fun A x => A x (hi g.y j) z) (lo g.x i) (hi g.x i)
  let r ← edge Q (A2.map fun A y => A (hi g.x i) y z) (lo g.y j) (hi g.y j)
  let s ← edge Q (A2.map fun A y => A (lo g.x i) y z) (lo g.y j) (hi g.y j)
  return divIf g.y.dx dx2 (divIf g.x.dx g.x.dx (p - q + rsf * r - lsf * s))

/-- Interface fields `B1i[k][j][i]`, `B2i`, `B3i`. -/
structure Field where
  b1 : ℤ → ℤ → ℤ → ℝ
  b2 : ℤ → ℤ → ℤ → ℝ
  b3 : ℤ → ℤ → ℤ → ℝ

/-- `divB` of one zone as computed by `compute_div_b`, src/utils.c:231-242. -/
def divB (g : Grid) (B : Field) (i j k : ℤ) : ℝ :=
  let x1 := ccPos g.x i
  let rsf := if g.cyl then (x1 + 1/2 * g.x.dx) / x1 else 1
  let lsf := if g.cyl then (x1 - 1/2 * g.x.dx) / x1 else 1
  let dx2 := if g.cyl then x1 * g.y.dx else g.y.dx
  let d := (rsf * B.b1 k j (i + 1) - lsf * B.b1 k j i) / g.x.dx
  let d := if g.y.e > g.y.s then d + (B.b2 k (j + 1) i - B.b2 k j i) / dx2 else d
  if g.z.e > g.z.s then d + (B.b3 (k + 1) j i - B.b3 k j i) / g.z.dx else d

/-- Indices `s … e` of a C loop. -/
def irange (s e : ℤ) : List ℤ := (List.range (e + 1 - s).toNat).map fun (n : ℕ) => s + (n : ℤ)

/-- `compute_div_b`, src/utils.c:218-255. -/
def computeDivB (g : Grid) (B : Field) : ℝ :=
  (irange g.z.s g.z.e).foldl (fun m k => (irange g.y.s g.y.e).foldl (fun m j =>
    (irange g.x.s g.x.e).foldl (fun m i => max m |divB g B i j k|) m) m) 0

/-! ## Specification -/

/-- The zone `(i,j,k)` is active. -/
def Active (g : Grid) (i j k : ℤ) : Prop :=
  (g.x.s ≤ i ∧ i ≤ g.x.e) ∧ (g.y.s ≤ j ∧ j ≤ g.y.e) ∧ (g.z.s ≤ k ∧ k ≤ g.z.e)

/-- `B` holds the interface fields of the potential on all faces of the active zones. -/
def FromPot (Q : Quadr) (A1 A2 A3 : Pot) (g : Grid) (B : Field) : Prop :=
  ∀ i j k, Active g i j k →
    (b1i Q A2 A3 g i j k = .ok (B.b1 k j i) ∧ b1i Q A2 A3 g (i + 1) j k = .ok (B.b1 k j (i + 1))) ∧
    (b2i Q A1 A3 g i j k = .ok (B.b2 k j i) ∧ b2i Q A1 A3 g i (j + 1) k = .ok (B.b2 k (j + 1) i)) ∧
    (b3i Q A1 A2 g i j k = .ok (B.b3 k j i) ∧ b3i Q A1 A2 g i j (k + 1) = .ok (B.b3 (k + 1) j i))

/-- The potential does not depend on x2. -/
def IndepY (A : Pot) : Prop := ∀ f ∈ A, ∀ x y y' z, f x y z = f x y' z

/-- The potential does not depend on x3. -/
def IndepZ (A : Pot) : Prop := ∀ f ∈ A, ∀ x y z z', f x y z = f x y z'

/-- What is assumed of the Grid: positive zone sizes in the directions with more than one zone; the
potential does not depend on a coordinate with a single zone; in cylindrical
coordinates the Grid does not touch the axis. -/
structure Ok (A1 A2 A3 : Pot) (g : Grid) : Prop where
  dx : 0 < g.x.dx
  dy : 0 < g.y.dx
  dz : 0 < g.z.dx
  y1 : g.y.e ≤ g.y.s → IndepY A1 ∧ IndepY A2 ∧ IndepY A3
  z1 : g.z.e ≤ g.z.s → IndepZ A1 ∧ IndepZ A2 ∧ IndepZ A3
  axis : g.cyl = true → 0 < fcPos g.x g.x.s

/-! ## Lemmas -/

theorem lo_eq (a : Axis) (i : ℤ) : lo a i = fcPos a i := by unfold lo ccPos fcPos; ring
theorem hi_eq (a : Axis) (i : ℤ) : hi a i = fcPos a (i + 1) := by
  unfold hi ccPos fcPos; push_cast; ring

theorem bind_ok_inv {α β : Type} {x : Res α} {f : α → Res β} {b : β} (h : x.bind f = .ok b) :
    ∃ a, x = .ok a ∧ f a = .ok b := by
  cases x with
  | ok a => exact ⟨a, rfl, h⟩
  | fatal => cases h
  | ub => cases h

theorem b1i_inv {Q : Quadr} {A2 A3 : Pot} {g : Grid} {i j k : ℤ} {v : ℝ} (h : b1i Q A2 A3 g i j k = .ok v) :
    ∃ p q r s,
      edge Q (A2.map fun A y => A (fcPos g.x i) y (fcPos g.z k)) (fcPos g.y j) (fcPos g.y (j + 1)) = .ok p ∧
      edge Q (A2.map fun A y => A (fcPos g.x i) y (fcPos g.z (k + 1))) (fcPos g.y j) (fcPos g.y (j + 1)) = .ok q ∧
      edge Q (A3.map fun A z => A (fcPos g.x i) (fcPos g.y (j + 1)) z) (fcPos g.z k) (fcPos g.z (k + 1)) = .ok r ∧
      edge Q (A3.map fun A z => A (fcPos g.x i) (fcPos g.y j) z) (fcPos g.z k) (fcPos g.z (k + 1)) = .ok s ∧
      v = divIf g.z.dx g.z.dx (divIf g.y.dx (if g.cyl then fcPos g.x i * g.y.dx else g.y.dx)
        ((if g.cyl then fcPos g.x i else 1) * p - (if g.cyl then fcPos g.x i else 1) * q + r - s)) := by
  unfold b1i at h
  simp only [lo_eq, hi_eq] at h
  obtain ⟨p, h1, h⟩ := bind_ok_inv h
  obtain ⟨q, h2, h⟩ := bind_ok_inv h
  obtain ⟨r, h3, h⟩ := bind_ok_inv h
  obtain ⟨s, h4, h⟩ := bind_ok_inv h
  exact ⟨p, q, r, s, h1, h2, h3, h4, by cases h; rfl⟩

theorem b2i_inv {Q : Quadr} {A1 A3 : Pot} {g : Grid} {i j k : ℤ} {v : ℝ} (h : b2i Q A1 A3 g i j k = .ok v) :
    ∃ p q r s,
      edge Q (A1.map fun A x => A x (fcPos g.y j) (fcPos g.z (k + 1))) (fcPos g.x i) (fcPos g.x (i + 1)) = .ok p ∧
      edge Q (A1.map fun A x => A x (fcPos g.y j) (fcPos g.z k)) (fcPos g.x i) (fcPos g.x (i + 1)) = .ok q ∧
      edge Q (A3.map fun A z => A (fcPos g.x i) (fcPos g.y j) z) (fcPos g.z k) (fcPos g.z (k + 1)) = .ok r ∧
      edge Q (A3.map fun A z => A (fcPos g.x (i + 1)) (fcPos g.y j) z) (fcPos g.z k) (fcPos g.z (k + 1)) = .ok s ∧
      v = divIf g.z.dx g.z.dx (divIf g.x.dx g.x.dx (p - q + r - s)) := by
  unfold b2i at h
  simp only [lo_eq, hi_eq] at h
  obtain ⟨p, h1, h⟩ := bind_ok_inv h
  obtain ⟨q, h2, h⟩ := bind_ok_inv h
  obtain ⟨r, h3, h⟩ := bind_ok_inv h
  obtain ⟨s, h4, h⟩ := bind_ok_inv h
  exact ⟨p, q, r, s, h1, h2, h3, h4, by cases h; rfl⟩

theorem b3i_inv {Q : Quadr} {A1 A2 : Pot} {g : Grid} {i j k : ℤ} {v : ℝ} (h : b3i Q A1 A2 g i j k = .ok v) :
    ∃ p q r s,
      edge Q (A1.map fun A x => A x (fcPos g.y j) (fcPos g.z k)) (fcPos g.x i) (fcPos g.x (i + 1)) = .ok p ∧
      edge Q (A1.map fun A x => A x (fcPos g.y (j + 1)) (fcPos g.z k)) (fcPos g.x i) (fcPos g.x (i + 1)) = .ok q ∧
      edge Q (A2.map fun A y => A (fcPos g.x (i + 1)) y (fcPos g.z k)) (fcPos g.y j) (fcPos g.y (j + 1)) = .ok r ∧
      edge Q (A2.map fun A y => A (fcPos g.x i) y (fcPos g.z k)) (fcPos g.y j) (fcPos g.y (j + 1)) = .ok s ∧
      v = divIf g.y.dx (if g.cyl then ccPos g.x i * g.y.dx else g.y.dx) (divIf g.x.dx g.x.dx
        (p - q + (if g.cyl then fcPos g.x (i + 1) else 1) * r - (if g.cyl then fcPos g.x i else 1) * s)) := by
  unfold b3i at h
  simp only [lo_eq, hi_eq] at h
  obtain ⟨p, h1, h⟩ := bind_ok_inv h
  obtain ⟨q, h2, h⟩ := bind_ok_inv h
  obtain ⟨r, h3, h⟩ := bind_ok_inv h
  obtain ⟨s, h4, h⟩ := bind_ok_inv h
  exact ⟨p, q, r, s, h1, h2, h3, h4, by cases h; rfl⟩

theorem ok_inj {α : Type} {x : Res α} {a b : α} (h1 : x = .ok a) (h2 : x = .ok b) : a = b := by
  rw [h1] at h2; cases h2; rfl

theorem mem_irange {s e i : ℤ} : i ∈ irange s e ↔ s ≤ i ∧ i ≤ e := by
  unfold irange
  simp only [List.mem_map, List.mem_range]
  constructor
  · rintro ⟨n, h, rfl⟩; omega
  · rintro ⟨h1, h2⟩; exact ⟨(i - s).toNat, by omega, by omega⟩

theorem foldl_max_le (l : List ℤ) (f : ℤ → ℝ → ℝ) (M : ℝ) : ∀ m, m ≤ M →
    (∀ i ∈ l, ∀ m, m ≤ M → f i m ≤ M) → l.foldl (fun m i => f i m) m ≤ M := by
  induction l with
  | nil => intro m h _; exact h
  | cons i l ih =>
    intro m h hf
    exact ih _ (hf i List.mem_cons_self m h) fun i' hi' => hf i' (List.mem_cons_of_mem _ hi')

theorem le_foldl_max (l : List ℤ) (f : ℤ → ℝ → ℝ) (hmono : ∀ i m, m ≤ f i m) : ∀ m,
    m ≤ l.foldl (fun m i => f i m) m ∧
    ∀ i ∈ l, ∀ v, (∀ m, v ≤ f i m) → v ≤ l.foldl (fun m i => f i m) m := by
  induction l with
  | nil => intro m; exact ⟨le_rfl, fun i hi => by simp at hi⟩
  | cons i l ih =>
    intro m
    obtain ⟨h1, h2⟩ := ih (f i m)
    refine ⟨le_trans (hmono i m) h1, ?_⟩
    intro i' hi' v hv
    rcases List.mem_cons.mp hi' with rfl | hi'
    · exact le_trans (hv m) h1
    · exact h2 i' hi' v hv

/-! ## Properties -/

/-- `compute_div_b` bounds the divergence of every active zone … -/
theorem computeDivB_bound (g : Grid) (B : Field) (i j k : ℤ) (h : Active g i j k) :
    |divB g B i j k| ≤ computeDivB g B := by
  obtain ⟨h1, h2, h3⟩ := h
  unfold computeDivB
  have m3 : ∀ (k j : ℤ) (i : ℤ) (m : ℝ), m ≤ max m |divB g B i j k| := fun _ _ _ _ => le_max_left _ _
  have m2 : ∀ (k : ℤ) (j : ℤ) (m : ℝ), m ≤ (irange g.x.s g.x.e).foldl (fun m i => max m |divB g B i j k|) m :=
    fun k j m => (le_foldl_max _ _ (m3 k j) m).1
  have m1 : ∀ (k : ℤ) (m : ℝ), m ≤ (irange g.y.s g.y.e).foldl (fun m j =>
      (irange g.x.s g.x.e).foldl (fun m i => max m |divB g B i j k|) m) m :=
    fun k m => (le_foldl_max _ _ (m2 k) m).1
  refine (le_foldl_max _ _ m1 0).2 k (mem_irange.mpr h3) _ fun m => ?_
  refine (le_foldl_max _ _ (m2 k) m).2 j (mem_irange.mpr h2) _ fun m => ?_
  exact (le_foldl_max _ _ (m3 k j) m).2 i (mem_irange.mpr h1) _ fun m => le_max_right _ _

/-- … and is no larger than any bound of them: it is their maximum. -/
theorem computeDivB_least (g : Grid) (B : Field) (M : ℝ) (h0 : 0 ≤ M)
    (h : ∀ i j k, Active g i j k → |divB g B i j k| ≤ M) : computeDivB g B ≤ M := by
  unfold computeDivB
  refine foldl_max_le _ (fun k m => (irange g.y.s g.y.e).foldl (fun m j =>
    (irange g.x.s g.x.e).foldl (fun m i => max m |divB g B i j k|) m) m) M 0 h0 fun k hk m hm => ?_
  refine foldl_max_le _ (fun j m => (irange g.x.s g.x.e).foldl (fun m i => max m |divB g B i j k|) m)
    M m hm fun j hj m hm => ?_
  refine foldl_max_le _ (fun i m => max m |divB g B i j k|) M m hm fun i hi m hm => ?_
  exact max_le hm (h i j k ⟨mem_irange.mp hi, mem_irange.mp hj, mem_irange.mp hk⟩)

theorem computeDivB_zero_iff (g : Grid) (B : Field) :
    computeDivB g B = 0 ↔ ∀ i j k, Active g i j k → divB g B i j k = 0 := by
  constructor
  · intro h i j k ha
    have := computeDivB_bound g B i j k ha
    rw [h] at this
    exact abs_nonpos_iff.mp this
  · intro h
    apply le_antisymm
    · exact computeDivB_least g B 0 le_rfl fun i j k ha => by rw [h i j k ha, abs_zero]
    · unfold computeDivB
      refine (le_foldl_max _ (fun k m => (irange g.y.s g.y.e).foldl (fun m j =>
        (irange g.x.s g.x.e).foldl (fun m i => max m |divB g B i j k|) m) m) ?_ 0).1
      intro k m
      refine (le_foldl_max _ (fun j m =>
        (irange g.x.s g.x.e).foldl (fun m i => max m |divB g B i j k|) m) ?_ m).1
      intro j m
      exact (le_foldl_max _ (fun i m => max m |divB g B i j k|) (fun i m => le_max_left _ _) m).1

theorem edge_map_congr {Q : Quadr} {A : Pot} {f g : (ℝ → ℝ → ℝ → ℝ) → ℝ → ℝ} (h : ∀ F ∈ A, f F = g F) (a b : ℝ) :
    edge Q (A.map f) a b = edge Q (A.map g) a b := by
  cases A with
  | none => rfl
  | some F => simp only [Option.map_some, h F rfl]

/-- C41: for every vector potential (with any of its components absent), every quadrature and every Grid,
Cartesian or cylindrical, the interface fields have exactly zero divergence in every active zone. -/
theorem vecpot_div_zero (Q : Quadr) (A1 A2 A3 : Pot) (g : Grid) (B : Field) (hg : Ok A1 A2 A3 g)
    (hB : FromPot Q A1 A2 A3 g B) (i j k : ℤ) (ha : Active g i j k) : divB g B i j k = 0 := by
  obtain ⟨⟨h1, h2⟩, ⟨h3, h4⟩, ⟨h5, h6⟩⟩ := hB i j k ha
  obtain ⟨p1, q1, r1, s1, a1, a2, a3, a4, e1⟩ := b1i_inv h1
  obtain ⟨p2, q2, r2, s2, b1, b2, b3, b4, e2⟩ := b1i_inv h2
  obtain ⟨p3, q3, r3, s3, c1, c2, c3, c4, e3⟩ := b2i_inv h3
  obtain ⟨p4, q4, r4, s4, d1, d2, d3, d4, e4⟩ := b2i_inv h4
  obtain ⟨p5, q5, r5, s5, f1, f2, f3, f4, e5⟩ := b3i_inv h5
  obtain ⟨p6, q6, r6, s6, g1, g2, g3, g4, e6⟩ := b3i_inv h6
  have hdx := hg.dx; have hdy := hg.dy; have hdz := hg.dz
  -- shared edges
  have E1 := ok_inj a4 c3     -- s1 = r3
  have E2 := ok_inj a3 d3     -- r1 = r4
  have E3 := ok_inj b4 c4     -- s2 = s3
  have E4 := ok_inj b3 d4     -- r2 = s4
  have E5 := ok_inj a1 f4     -- p1 = s5
  have E6 := ok_inj a2 g4     -- q1 = s6
  have E7 := ok_inj b1 f3     -- p2 = r5
  have E8 := ok_inj b2 g3     -- q2 = r6
  have E9 := ok_inj c1 g1     -- p3 = p6
  have E10 := ok_inj c2 f1    -- q3 = p5
  have E11 := ok_inj d1 g2    -- p4 = q6
  have E12 := ok_inj d2 f2    -- q4 = q5
  unfold divIf at e1 e2 e3 e4 e5 e6
  rw [if_pos hdz, if_pos hdy] at e1 e2
  rw [if_pos hdz, if_pos hdx] at e3 e4
  rw [if_pos hdy, if_pos hdx] at e5 e6
  have x1 : ccPos g.x i + 1/2 * g.x.dx = fcPos g.x (i + 1) := hi_eq g.x i
  have x0 : ccPos g.x i - 1/2 * g.x.dx = fcPos g.x i := lo_eq g.x i
  -- a direction with one zone contributes nothing
  have hy : (if g.y.e > g.y.s then (B.b2 k (j + 1) i - B.b2 k j i) else 0) = B.b2 k (j + 1) i - B.b2 k j i := by
    by_cases h : g.y.e > g.y.s
    · rw [if_pos h]
    · rw [if_neg h]
      obtain ⟨i1, i2, i3⟩ := hg.y1 (by omega)
      have F1 : p3 = p4 := ok_inj c1 (by
        rw [← d1]; exact edge_map_congr (fun F hF => by funext x; exact i1 F hF _ _ _ _) _ _)
      have F2 : q3 = q4 := ok_inj c2 (by
        rw [← d2]; exact edge_map_congr (fun F hF => by funext x; exact i1 F hF _ _ _ _) _ _)
      have F3 : r3 = r4 := ok_inj c3 (by
        rw [← d3]; exact edge_map_congr (fun F hF => by funext x; exact i3 F hF _ _ _ _) _ _)
      have F4 : s3 = s4 := ok_inj c4 (by
        rw [← d4]; exact edge_map_congr (fun F hF => by funext x; exact i3 F hF _ _ _ _) _ _)
      rw [e3, e4, F1, F2, F3, F4]; ring
  have hz : (if g.z.e > g.z.s then (B.b3 (k + 1) j i - B.b3 k j i) else 0) = B.b3 (k + 1) j i - B.b3 k j i := by
    by_cases h : g.z.e > g.z.s
    · rw [if_pos h]
    · rw [if_neg h]
      obtain ⟨i1, i2, i3⟩ := hg.z1 (by omega)
      have F1 : p5 = p6 := ok_inj f1 (by
        rw [← g1]; exact edge_map_congr (fun F hF => by funext x; exact i1 F hF _ _ _ _) _ _)
      have F2 : q5 = q6 := ok_inj f2 (by
        rw [← g2]; exact edge_map_congr (fun F hF => by funext x; exact i1 F hF _ _ _ _) _ _)
      have F3 : r5 = r6 := ok_inj f3 (by
        rw [← g3]; exact edge_map_congr (fun F hF => by funext x; exact i2 F hF _ _ _ _) _ _)
      have F4 : s5 = s6 := ok_inj f4 (by
        rw [← g4]; exact edge_map_congr (fun F hF => by funext x; exact i2 F hF _ _ _ _) _ _)
      rw [e5, e6, F1, F2, F3, F4]; ring
  have hform : divB g B i j k = ((if g.cyl then fcPos g.x (i + 1) / ccPos g.x i else 1) * B.b1 k j (i + 1)
        - (if g.cyl then fcPos g.x i / ccPos g.x i else 1) * B.b1 k j i) / g.x.dx
      + (B.b2 k (j + 1) i - B.b2 k j i) / (if g.cyl then ccPos g.x i * g.y.dx else g.y.dx)
      + (B.b3 (k + 1) j i - B.b3 k j i) / g.z.dx := by
    rw [← hy, ← hz]
    unfold divB
    dsimp only
    rw [x1, x0]
    by_cases h : g.y.e > g.y.s <;> by_cases h' : g.z.e > g.z.s <;> simp [h, h']
  rw [hform, e1, e2, e3, e4, e5, e6, E1, E2, E3, E4, E5, E6, E7, E8, E9, E10, E11, E12]
  by_cases hc : g.cyl = true
  · have hpos : 0 < fcPos g.x i := by
      refine lt_of_lt_of_le (hg.axis hc) ?_
      unfold fcPos
      have : ((g.x.s - g.x.s : ℤ) : ℝ) ≤ ((i - g.x.s : ℤ) : ℝ) := by
        exact_mod_cast (by have := ha.1.1; omega : g.x.s - g.x.s ≤ i - g.x.s)
      have := mul_le_mul_of_nonneg_right this hdx.le
      linarith
    have hcc : 0 < ccPos g.x i := by linarith
    have hpos' : 0 < fcPos g.x (i + 1) := by linarith
    have n1 := hpos.ne'; have n2 := hcc.ne'; have n3 := hpos'.ne'
    have n4 := hdx.ne'; have n5 := hdy.ne'; have n6 := hdz.ne'
    simp only [hc, if_true]
    field_simp
    ring
  · have n4 := hdx.ne'; have n5 := hdy.ne'; have n6 := hdz.ne'
    simp only [hc]
    simp only [Bool.false_eq_true, if_false]
    field_simp
    ring

/-- C41: what `compute_div_b` reports for such a field is exactly zero. -/
theorem vecpot_computeDivB (Q : Quadr) (A1 A2 A3 : Pot) (g : Grid) (B : Field) (hg : Ok A1 A2 A3 g)
    (hB : FromPot Q A1 A2 A3 g B) : computeDivB g B = 0 :=
  (computeDivB_zero_iff g B).mpr (vecpot_div_zero Q A1 A2 A3 g B hg hB)

/-! The hypotheses are met, with a field that is not zero: `A3 = x y`, the midpoint rule, 8³ zones. -/
def g0 : Grid := ⟨⟨1, 1/8, 4, 11⟩, ⟨0, 1/4, 4, 11⟩, ⟨0, 1/2, 4, 11⟩, true⟩
def Q0 : Quadr := fun f a b => .ok (f ((a + b) / 2) * (b - a))
def A0 : Pot := some fun x y _ => x * y
def val (r : Res ℝ) : ℝ := match r with | .ok v => v | _ => 0
example : Ok none none A0 g0 :=
  ⟨by norm_num [g0], by norm_num [g0], by norm_num [g0], by norm_num [g0], by norm_num [g0],
    by norm_num [g0, fcPos]⟩
example : ∃ B, FromPot Q0 none none A0 g0 B ∧ B.b1 4 4 4 ≠ 0 := by
  refine ⟨⟨fun k j i => val (b1i Q0 none A0 g0 i j k), fun k j i => val (b2i Q0 none A0 g0 i j k),
    fun k j i => val (b3i Q0 none none g0 i j k)⟩, ?_, ?_⟩
  · have h1 : ∀ i j k, ∃ v, b1i Q0 none A0 g0 i j k = .ok v := by
      intro i j k; unfold b1i edge A0 Q0; simp; split_ifs <;> exact ⟨_, rfl⟩
    have h2 : ∀ i j k, ∃ v, b2i Q0 none A0 g0 i j k = .ok v := by
      intro i j k; unfold b2i edge A0 Q0; simp; split_ifs <;> exact ⟨_, rfl⟩
    have h3 : ∀ i j k, ∃ v, b3i Q0 none none g0 i j k = .ok v := by
      intro i j k; exact ⟨_, rfl⟩
    have key : ∀ {r : Res ℝ}, (∃ v, r = .ok v) → r = .ok (val r) := by
      rintro r ⟨v, rfl⟩; rfl
    intro i j k _
    exact ⟨⟨key (h1 i j k), key (h1 _ j k)⟩, ⟨key (h2 i j k), key (h2 i _ k)⟩, ⟨key (h3 i j k), key (h3 i j _)⟩⟩
  · have : b1i Q0 none A0 g0 4 4 4 = .ok 1 := by
      unfold b1i edge A0 Q0
      simp only [lo_eq, hi_eq]
      norm_num [fcPos, g0, divIf, Res.bind_ok]
    show val (b1i Q0 none A0 g0 4 4 4) ≠ 0
    rw [this]; exact one_ne_zero

end
end Athena.VecPot
