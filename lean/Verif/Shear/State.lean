import Verif.Shear.Sheet
import Mathlib.Tactic.IntervalCases

/-!
# The shearing-sheet boundary: all variables of a row

The variables of one row (one x1 layer, one x3 index), the velocity offset between the two x1
edges of the box, and what a user relies on: what the ghost zones hold, for any time, any cut of
the Domain along x2, both edges and both orders of the remap.
-/

namespace Athena.Shear

/-- The remapped variables: `Remap.U[NREMAP]` and `Remap.s[]`, src/bvals_shear.c:74-85, 199-219. -/
inductive Var where
  | d | m1 | m2 | m3 | e | b1c | b1 | b2 | b3
  | s (n : ℕ)
  deriving DecidableEq

/-- What the routines know about the box: `qshear*Omega_0`, the sizes of the root Domain,
`dx2` and the time. -/
structure Box where
  qom : ℝ
  lx : ℝ
  ly : ℝ
  dx2 : ℝ
  time : ℝ

/-- `qomL`, `yshear`: src/bvals_shear.c:173-174, 767-768. -/
noncomputable def Box.qomL (B : Box) : ℝ := B.qom * B.lx
noncomputable def Box.yshear (B : Box) : ℝ := B.qomL * B.time

/-- Step 2, the offset in velocity between the edges, with the energy that goes with it:
src/bvals_shear.c:199-219 (`q = qomL`), 793-813 (`q = -qomL`); nothing is added with FARGO. -/
noncomputable def offset (q : ℝ) (u : Var → ℝ) : Var → ℝ
  | .m2 => u .m2 + q * u .d
  | .e => u .e + 1 / 2 / u .d * ((u .m2 + q * u .d) ^ 2 - u .m2 ^ 2)
  | v => u v

/-- The offset of an edge: src/bvals_shear.c:202-204, 796-798. -/
noncomputable def bump (fargo : Bool) (s : Edge) (B : Box) : ℝ :=
  if fargo then 0 else match s with
    | .ix1 => B.qomL
    | .ox1 => -B.qomL

/-- `ShearingSheet_ix1`, `ShearingSheet_ox1` for one row: src/bvals_shear.c:145-735, 739-1345,
without the centred B2 and B3 (for B2 see `centred` below).  `first`: the first layer outside
the box, where `B1i[ie+1]` is not overwritten (src/bvals_shear.c:1050). -/
noncomputable def sheet (o : Order) (s : Edge) (C : Cut) (fargo : Bool) (B : Box) (first : Bool)
    (rows : ℤ → ℤ → Var → ℝ) (v : Var) : Res (ℤ → ℤ → ℝ) :=
  match s, first, v with
  | .ox1, true, .b1 => .ok (ghostY C (fun l j => rows l j .b1))
  | _, _, _ => sheetRow o s C (epsOf s B.yshear B.ly B.dx2) (joffset B.yshear B.ly B.dx2)
      (fun l j => offset (bump fargo s B) (rows l j) v)

/-! ## Specification -/

/-- The Grids hold the row `g` of the whole Domain. -/
def HoldsS (C : Cut) (rows : ℤ → ℤ → Var → ℝ) (g : ℤ → Var → ℝ) : Prop :=
  ∀ v, Holds C (fun l j => rows l j v) (fun m => g m v)

/-- Energy which is not kinetic. -/
noncomputable def thermal (u : Var → ℝ) : ℝ :=
  u .e - (u .m1 ^ 2 + u .m2 ^ 2 + u .m3 ^ 2) / (2 * u .d)

/-- A box which has sheared forward, and whose length along x2 is that of the row. -/
structure Box.Fit (B : Box) (C : Cut) : Prop where
  dx : 0 < B.dx2
  ly : B.ly = C.total * B.dx2
  fwd : 0 ≤ B.yshear

/-- The distance sheared, in zones. -/
noncomputable def Box.zones (B : Box) : ℝ := B.yshear / B.dx2

/-- The result of the routine for all variables. -/
def Gives (o : Order) (s : Edge) (C : Cut) (fargo : Bool) (B : Box) (first : Bool)
    (rows : ℤ → ℤ → Var → ℝ) (R : ℤ → ℤ → Var → ℝ) : Prop :=
  ∀ v, sheet o s C fargo B first rows v = .ok (fun l j => R l j v)

/-! ## Theorems -/

/-- The offset adds `q` to the velocity along x2 and leaves everything else but the kinetic
energy alone. -/
theorem offset_spec {u : Var → ℝ} (hd : u .d ≠ 0) (q : ℝ) :
    offset q u .d = u .d ∧ offset q u .m2 / offset q u .d = u .m2 / u .d + q ∧
    thermal (offset q u) = thermal u ∧
    ∀ v, v ≠ .m2 → v ≠ .e → offset q u v = u v := by
  refine ⟨rfl, ?_, ?_, ?_⟩
  · simp only [offset]; field_simp
  · simp only [thermal, offset]; field_simp; ring
  · intro v h1 h2
    cases v <;> first | rfl | exact absurd rfl h1 | exact absurd rfl h2

/-- **What the ghost zones hold.**  For a box that has sheared by `S` zones along x2, `S ≥ 0`: the
routine ends, on every Grid of every cut of the Domain, and every variable of the row, with the
velocity offset of the edge applied, arrives moved by the whole zones of `S` and remapped by the
fraction.  The face field on the outer edge of the box itself is not touched. -/
theorem sheet_state {C : Cut} (h : C.Fit) (o : Order) (s : Edge) (fargo : Bool) {B : Box}
    (hB : B.Fit C) (first : Bool) {rows : ℤ → ℤ → Var → ℝ} {g : ℤ → Var → ℝ} (hr : HoldsS C rows g)
    (per : ∀ m, g (m + C.total) = g m) :
    ∃ R, Gives o s C fargo B first rows R ∧
      (∀ v, ¬(s = .ox1 ∧ first = true ∧ v = .b1) →
        Holds C (fun l j => R l j v) (fun m => remap o (s.sign * Int.fract B.zones)
          (fun k => offset (bump fargo s B) (g k) v) (m - s.sign * ⌊B.zones⌋))) ∧
      (s = .ox1 → first = true → Holds C (fun l j => R l j .b1) (fun m => g m .b1)) := by
  have key : ∀ v, ∃ R, sheetRow o s C (epsOf s B.yshear B.ly B.dx2) (joffset B.yshear B.ly B.dx2)
      (fun l j => offset (bump fargo s B) (rows l j) v) = .ok R ∧
      Holds C R (fun m => remap o (s.sign * Int.fract B.zones)
        (fun k => offset (bump fargo s B) (g k) v) (m - s.sign * ⌊B.zones⌋)) := by
    intro v
    rw [hB.ly]
    apply sheet_row h o s hB.dx hB.fwd (g := fun k => offset (bump fargo s B) (g k) v)
    · intro l l0 l1 j a c
      have e : rows l j = g (l * C.nx + (j - C.js)) := funext fun w => hr w l l0 l1 j a c
      dsimp only
      rw [e]
    · intro m
      rw [per]
  choose R0 e0 h0 using key
  have hb : Holds C (ghostY C (fun l j => rows l j .b1)) (fun m => g m .b1) := by
    apply ghostY_global h
    · intro l l0 l1 j a c
      have := h.ng
      exact hr .b1 l l0 l1 j (by unfold Cut.js at *; omega) (by omega)
    · intro m; rw [per]
  by_cases sp : s = .ox1 ∧ first = true
  · obtain ⟨rfl, rfl⟩ := sp
    refine ⟨fun l j v => if v = .b1 then ghostY C (fun l j => rows l j .b1) l j else R0 v l j,
      ?_, ?_, ?_⟩
    · intro v
      by_cases hv : v = .b1
      · subst hv; simp [sheet]
      · simp only [if_neg hv]
        cases v <;> first | exact absurd rfl hv | exact e0 _
    · intro v hv
      have hv' : v ≠ .b1 := fun e => hv ⟨rfl, rfl, e⟩
      simp only [if_neg hv']
      exact h0 v
    · intro _ _
      simp only [if_true]
      exact hb
  · refine ⟨fun l j v => R0 v l j, ?_, fun v _ => h0 v, fun a b => absurd ⟨a, b⟩ sp⟩
    intro v
    rw [← e0 v]
    unfold sheet
    split
    · exact absurd ⟨rfl, rfl⟩ sp
    · rfl

/-- The routine has one result. -/
theorem gives_unique {o : Order} {s : Edge} {C : Cut} {fargo first : Bool} {B : Box}
    {rows R R' : ℤ → ℤ → Var → ℝ} (a : Gives o s C fargo B first rows R)
    (b : Gives o s C fargo B first rows R') : R = R' := by
  funext l j v
  have := (a v).symm.trans (b v)
  exact congrFun (congrFun (Res.ok.inj this) l) j

/-- The value in zone `j` of Grid `l`, from `sheet_state`. -/
theorem sheet_value {C : Cut} (h : C.Fit) {o : Order} {s : Edge} {fargo : Bool} {B : Box}
    (hB : B.Fit C) {first : Bool} {rows R : ℤ → ℤ → Var → ℝ} {g : ℤ → Var → ℝ} (hr : HoldsS C rows g)
    (per : ∀ m, g (m + C.total) = g m) (hR : Gives o s C fargo B first rows R) {v : Var}
    (hv : ¬(s = .ox1 ∧ first = true ∧ v = .b1)) {l j : ℤ} (l0 : 0 ≤ l) (l1 : l < C.ngr)
    (a : C.js - C.ng ≤ j) (c : j ≤ C.je + C.ng) :
    R l j v = remap o (s.sign * Int.fract B.zones) (fun k => offset (bump fargo s B) (g k) v)
      (l * C.nx + (j - C.js) - s.sign * ⌊B.zones⌋) := by
  obtain ⟨R', g1, g2, -⟩ := sheet_state h o s fargo hB first hr per
  rw [gives_unique hR g1]
  exact g2 v hv l l0 l1 j a c

/-- **The decomposition does not matter.**  Two cuts of the same Domain put the same values in
the same zones. -/
theorem sheet_independent {C C' : Cut} (h : C.Fit) (h' : C'.Fit) (same : C.total = C'.total)
    {o : Order} {s : Edge} {fargo : Bool} {B : Box} (hB : B.Fit C) {first : Bool}
    {rows R rows' R' : ℤ → ℤ → Var → ℝ} {g : ℤ → Var → ℝ} (hr : HoldsS C rows g)
    (hr' : HoldsS C' rows' g) (per : ∀ m, g (m + C.total) = g m)
    (hR : Gives o s C fargo B first rows R) (hR' : Gives o s C' fargo B first rows' R')
    {l j l' j' : ℤ} (l0 : 0 ≤ l) (l1 : l < C.ngr) (a : C.js - C.ng ≤ j) (c : j ≤ C.je + C.ng)
    (l0' : 0 ≤ l') (l1' : l' < C'.ngr) (a' : C'.js - C'.ng ≤ j') (c' : j' ≤ C'.je + C'.ng)
    (place : l * C.nx + (j - C.js) = l' * C'.nx + (j' - C'.js)) : R l j = R' l' j' := by
  have hB' : B.Fit C' := ⟨hB.dx, by rw [hB.ly, same], hB.fwd⟩
  have per' : ∀ m, g (m + C'.total) = g m := by rw [← same]; exact per
  funext v
  by_cases hv : s = .ox1 ∧ first = true ∧ v = .b1
  · obtain ⟨R1, g1, -, g3⟩ := sheet_state h o s fargo hB first hr per
    obtain ⟨R2, k1, -, k3⟩ := sheet_state h' o s fargo hB' first hr' per'
    rw [gives_unique hR g1, gives_unique hR' k1]
    obtain ⟨e1, e2, e3⟩ := hv
    have p := g3 e1 e2 l l0 l1 j a c
    have q := k3 e1 e2 l' l0' l1' j' a' c'
    rw [e3]
    dsimp only at p q
    rw [p, q, place]
  · rw [sheet_value h hB hr per hR hv l0 l1 a c, sheet_value h' hB' hr' per' hR' hv l0' l1' a' c', place]

/-- **Whole zones are exact.**  When the box has sheared by a whole number of zones, every ghost
zone holds the state of its image with the velocity offset of the edge: same density, same
momenta along x1 and x3, same thermal energy, same scalars, velocity along x2 changed by the
offset. -/
theorem sheet_whole {C : Cut} (h : C.Fit) {o : Order} {s : Edge} {fargo : Bool} {B : Box}
    (hB : B.Fit C) {rows R : ℤ → ℤ → Var → ℝ} {g : ℤ → Var → ℝ} (hr : HoldsS C rows g)
    (per : ∀ m, g (m + C.total) = g m) (hR : Gives o s C fargo B false rows R) {n : ℤ}
    (hn : B.zones = n) (hd : ∀ m, g m .d ≠ 0) {l j : ℤ} (l0 : 0 ≤ l) (l1 : l < C.ngr)
    (a : C.js - C.ng ≤ j) (c : j ≤ C.je + C.ng) :
    let u := g (l * C.nx + (j - C.js) - s.sign * n)
    R l j .d = u .d ∧ R l j .m2 / R l j .d = u .m2 / u .d + bump fargo s B ∧
    thermal (R l j) = thermal u ∧ ∀ v, v ≠ .m2 → v ≠ .e → R l j v = u v := by
  intro u
  have e : R l j = offset (bump fargo s B) u := by
    funext v
    rw [sheet_value h hB hr per hR (by simp) l0 l1 a c, hn, Int.fract_intCast, mul_zero, remap_zero,
      Int.floor_intCast]
  rw [e]
  exact offset_spec (hd _) _

/-- **A row which is uniform along x2 stays so**, at any time: the ghost zones hold its state with
the velocity offset of the edge. -/
theorem sheet_uniform {C : Cut} (h : C.Fit) {o : Order} {s : Edge} {fargo : Bool} {B : Box}
    (hB : B.Fit C) {rows R : ℤ → ℤ → Var → ℝ} {u : Var → ℝ} (hr : HoldsS C rows (fun _ => u))
    (hR : Gives o s C fargo B false rows R) (hd : u .d ≠ 0) {l j : ℤ} (l0 : 0 ≤ l) (l1 : l < C.ngr)
    (a : C.js - C.ng ≤ j) (c : j ≤ C.je + C.ng) :
    R l j .d = u .d ∧ R l j .m2 / R l j .d = u .m2 / u .d + bump fargo s B ∧
    thermal (R l j) = thermal u ∧ ∀ v, v ≠ .m2 → v ≠ .e → R l j v = u v := by
  have e : R l j = offset (bump fargo s B) u := by
    funext v
    rw [sheet_value h hB hr (fun _ => rfl) hR (by simp) l0 l1 a c]
    exact remap_const o _ (fun _ _ _ => rfl) _
  rw [e]
  exact offset_spec hd _

/-- **The background shear goes on through the boundary.**  The flow `-q Omega x1` along x2, with any
departure `w` from it, is continued across either edge: the image of the zone at `x` is at `x + lx`
(inner edge) or `x - lx` (outer edge), and the ghost zone at `x` gets the flow of its own place. -/
theorem sheet_shear_flow {C : Cut} (h : C.Fit) {o : Order} {s : Edge} {B : Box}
    (hB : B.Fit C) {rows R : ℤ → ℤ → Var → ℝ} {u : Var → ℝ} (hr : HoldsS C rows (fun _ => u))
    (hR : Gives o s C false B false rows R) (hd : u .d ≠ 0) {x w : ℝ}
    (flow : u .m2 / u .d = -B.qom * (x + s.sign * B.lx) + w) {l j : ℤ} (l0 : 0 ≤ l) (l1 : l < C.ngr)
    (a : C.js - C.ng ≤ j) (c : j ≤ C.je + C.ng) :
    R l j .m2 / R l j .d = -B.qom * x + w := by
  obtain ⟨-, e, -, -⟩ := sheet_uniform h hB hr hR hd l0 l1 a c
  rw [e, flow]
  cases s <;> simp only [bump, Edge.sign, Box.qomL] <;> push_cast <;> simp <;> ring

/-- Sum of a variable over the row, Grid by Grid. -/
noncomputable def rowSum (C : Cut) (f : ℤ → ℤ → ℝ) : ℝ :=
  ∑ l ∈ Finset.range C.ngr.toNat, ∑ k ∈ Finset.range C.nx.toNat, f l (C.js + k)

theorem rowSum_holds {C : Cut} (h : C.Fit) {f : ℤ → ℤ → ℝ} {g : ℤ → ℝ} (hf : HoldsIn C f g) :
    rowSum C f = ∑ m ∈ Finset.range C.total.toNat, g m := by
  have hn := h.ngr
  have hx : 0 < C.nx := by have := h.ng; have := h.nx; omega
  obtain ⟨n, e1⟩ := Int.eq_ofNat_of_zero_le (show 0 ≤ C.ngr by omega)
  obtain ⟨p, e2⟩ := Int.eq_ofNat_of_zero_le hx.le
  have et : C.total.toNat = n * p := by unfold Cut.total; rw [e1, e2]; exact_mod_cast rfl
  have split : ∀ a : ℕ, ∑ m ∈ Finset.range (a * p), g (m : ℤ) =
      ∑ l ∈ Finset.range a, ∑ k ∈ Finset.range p, g ((l : ℤ) * p + k) := by
    intro a
    induction a with
    | zero => simp
    | succ b ih =>
      rw [Nat.succ_mul, Finset.sum_range_add, ih, Finset.sum_range_succ]
      congr 1
  rw [et, split]
  unfold rowSum
  rw [e1, e2]
  apply Finset.sum_congr (by simp)
  intro l hl
  apply Finset.sum_congr (by simp)
  intro k hk
  rw [Finset.mem_range] at hl hk
  have hl' : l < n := by simpa using hl
  have hk' : k < p := by simpa using hk
  rw [hf l (by omega) (by omega) (C.js + k) (by omega) (by unfold Cut.js Cut.je; omega), e2]
  congr 1; ring

theorem sum_shift {g : ℤ → ℝ} {N : ℕ} (per : ∀ m, g (m + N) = g m) (a : ℤ) :
    ∑ m ∈ Finset.range N, g ((m : ℤ) + a) = ∑ m ∈ Finset.range N, g m := by
  have step : ∀ b : ℤ, ∑ m ∈ Finset.range N, g ((m : ℤ) + (b + 1)) = ∑ m ∈ Finset.range N, g ((m : ℤ) + b) := by
    intro b
    have t : ∀ n : ℕ, ∑ m ∈ Finset.range n, g ((m : ℤ) + (b + 1)) =
        ∑ m ∈ Finset.range n, g ((m : ℤ) + b) + (g (n + b) - g b) := by
      intro n
      induction n with
      | zero => simp
      | succ k ih =>
        rw [Finset.sum_range_succ, Finset.sum_range_succ, ih]
        rw [show (k : ℤ) + (b + 1) = ((k + 1 : ℕ) : ℤ) + b by push_cast; ring]
        ring
    rw [t N, show (N : ℤ) + b = b + N by ring, per]
    ring
  induction a using Int.induction_on with
  | zero => simp
  | succ i ih => rw [← ih, step]
  | pred i ih =>
    rw [← ih]
    have := step (-(i : ℤ) - 1)
    rw [show -(i : ℤ) - 1 + 1 = -(i : ℤ) by ring] at this
    exact this.symm

/-- **Nothing is lost along x2.**  The sum over the row of every variable is that of the images
with the velocity offset, at any time and both orders. -/
theorem sheet_sum {C : Cut} (h : C.Fit) {o : Order} {s : Edge} {fargo : Bool} {B : Box}
    (hB : B.Fit C) {rows R : ℤ → ℤ → Var → ℝ} {g : ℤ → Var → ℝ} (hr : HoldsS C rows g)
    (per : ∀ m, g (m + C.total) = g m) (hR : Gives o s C fargo B false rows R) (v : Var) :
    rowSum C (fun l j => R l j v) =
      rowSum C (fun l j => offset (bump fargo s B) (rows l j) v) := by
  have hg := h.ng
  have tn : ((C.total.toNat : ℕ) : ℤ) = C.total := by
    apply Int.toNat_of_nonneg
    have := h.ngr; have := h.nx
    exact mul_nonneg (by omega) (by omega)
  set q := fun k => offset (bump fargo s B) (g k) v with hq
  have pq : ∀ m, q (m + C.total) = q m := by intro m; rw [hq]; dsimp only; rw [per]
  rw [rowSum_holds h (g := fun m => remap o (s.sign * Int.fract B.zones) q (m - s.sign * ⌊B.zones⌋)),
    rowSum_holds h (g := q)]
  · have := sum_shift (g := remap o (s.sign * Int.fract B.zones) q) (N := C.total.toNat)
      (by rw [tn]; exact remap_periodic o pq _) (-(s.sign * ⌊B.zones⌋))
    rw [remap_sum o (by rw [tn]; exact pq)] at this
    exact this
  · intro l l0 l1 j a c
    have e : rows l j = g (l * C.nx + (j - C.js)) :=
      funext fun w => hr w l l0 l1 j (by omega) (by omega)
    dsimp only
    rw [e]
  · intro l l0 l1 j a c
    exact sheet_value h hB hr per hR (by simp) l0 l1 (by omega) (by omega)

/-- **No new extrema at second order.**  A bound on the images (with the offset) is a bound on the
ghost zones; in particular a positive density stays positive. -/
theorem sheet_bounds {C : Cut} (h : C.Fit) {s : Edge} {fargo : Bool} {B : Box}
    (hB : B.Fit C) {rows R : ℤ → ℤ → Var → ℝ} {g : ℤ → Var → ℝ} (hr : HoldsS C rows g)
    (per : ∀ m, g (m + C.total) = g m) (hR : Gives .second s C fargo B false rows R) {v : Var}
    {lo hi : ℝ} (bound : ∀ m, lo ≤ offset (bump fargo s B) (g m) v ∧ offset (bump fargo s B) (g m) v ≤ hi)
    {l j : ℤ} (l0 : 0 ≤ l) (l1 : l < C.ngr) (a : C.js - C.ng ≤ j) (c : j ≤ C.je + C.ng) :
    lo ≤ R l j v ∧ R l j v ≤ hi := by
  rw [sheet_value h hB hr per hR (by simp) l0 l1 a c]
  have f0 := Int.fract_nonneg B.zones
  have f1 := (Int.fract_lt_one B.zones).le
  cases s
  · simp only [Edge.sign, Int.cast_one, one_mul]
    exact remap2_bounds_pos _ f0 f1 _ (bound _).1 (bound _).2 (bound _).1 (bound _).2
  · simp only [Edge.sign, Int.cast_neg, Int.cast_one, neg_mul, one_mul]
    exact remap2_bounds_neg _ (by linarith) (by linarith) _ (bound _).1 (bound _).2 (bound _).1 (bound _).2

/-- **Straight rows are moved exactly**, at both orders and by any distance: where the images are
on a straight line over seven zones, the ghost zone holds the value of the line at the place it
came from. -/
theorem sheet_line {C : Cut} (h : C.Fit) {o : Order} {s : Edge} {fargo : Bool} {B : Box}
    (hB : B.Fit C) {rows R : ℤ → ℤ → Var → ℝ} {g : ℤ → Var → ℝ} (hr : HoldsS C rows g)
    (per : ∀ m, g (m + C.total) = g m) (hR : Gives o s C fargo B false rows R) {v : Var} {p q : ℝ}
    {l j : ℤ} (l0 : 0 ≤ l) (l1 : l < C.ngr) (a : C.js - C.ng ≤ j) (c : j ≤ C.je + C.ng)
    (line : ∀ m : ℤ, |m - (l * C.nx + (j - C.js) - s.sign * ⌊B.zones⌋)| ≤ 3 →
      offset (bump fargo s B) (g m) v = p + q * m) :
    R l j v = p + q * ((l * C.nx + (j - C.js) : ℤ) - s.sign * B.zones) := by
  rw [sheet_value h hB hr per hR (by simp) l0 l1 a c]
  set m0 := l * C.nx + (j - C.js) - s.sign * ⌊B.zones⌋ with hm
  rw [remap_line o (a := p + q * m0) (b := q) m0]
  · have : B.zones = ⌊B.zones⌋ + Int.fract B.zones := (Int.floor_add_fract _).symm
    rw [hm]
    push_cast
    linear_combination (q * s.sign) * this
  · intro k k0 k1
    rw [line (m0 + k) (by rw [abs_le]; constructor <;> omega)]
    push_cast; ring

/-- **Parabolas are moved exactly at third order** where they rise or fall: over the zones from
which the ghost zone is made. -/
theorem sheet_parabola_partial {C : Cut} (h : C.Fit) {s : Edge} {fargo : Bool} {B : Box}
    (hB : B.Fit C) {rows R : ℤ → ℤ → Var → ℝ} {g : ℤ → Var → ℝ} (hr : HoldsS C rows g)
    (per : ∀ m, g (m + C.total) = g m) (hR : Gives .third s C fargo B false rows R) {v : Var} {p q r : ℝ}
    {l j : ℤ} (l0 : 0 ≤ l) (l1 : l < C.ngr) (a : C.js - C.ng ≤ j) (c : j ≤ C.je + C.ng)
    (quad : ∀ k : ℤ, |k| ≤ 3 → offset (bump fargo s B)
      (g (l * C.nx + (j - C.js) - s.sign * ⌊B.zones⌋ + k)) v = p + q * k + r * (k : ℝ) ^ 2)
    (mono : ∀ k : ℤ, |k| ≤ 1 → 0 ≤ (q + r * (2 * k - 1)) * (q + r * (2 * k + 1))) :
    R l j v = p + q * (-(s.sign * Int.fract B.zones)) + r * (-(s.sign * Int.fract B.zones)) ^ 2 := by
  rw [sheet_value h hB hr per hR (by simp) l0 l1 a c]
  set m0 := l * C.nx + (j - C.js) - s.sign * ⌊B.zones⌋ with hm
  set f := fun k => offset (bump fargo s B) (g k) v with hf
  have val : ∀ k : ℤ, |k| ≤ 3 → f (m0 + k) = p + q * k + r * (k : ℝ) ^ 2 := quad
  have z0 : f m0 = p := by have := val 0 (by norm_num); simpa using this
  have z1 : f (m0 - 1) = p - q + r := by
    have := val (-1) (by norm_num); rw [← sub_eq_add_neg] at this; rw [this]; push_cast; ring
  have z2 : f (m0 - 2) = p - 2 * q + 4 * r := by
    have := val (-2) (by norm_num); rw [← sub_eq_add_neg] at this; rw [this]; push_cast; ring
  have y1 : f (m0 + 1) = p + q + r := by
    have := val 1 (by norm_num); rw [this]; push_cast; ring
  have y2 : f (m0 + 2) = p + 2 * q + 4 * r := by
    have := val 2 (by norm_num); rw [this]; push_cast; ring
  have n0 := mono 0 (by norm_num)
  have n1 := mono 1 (by norm_num)
  have n2 := mono (-1) (by norm_num)
  push_cast at n0 n1 n2
  have f0 := Int.fract_nonneg B.zones
  cases s
  · simp only [Edge.sign, Int.cast_one, one_mul]
    rcases f0.eq_or_lt with e | pos
    · rw [← e, remap_zero, z0]; ring
    · exact remap3_quad_pos m0 (fun k a b => val k (by rw [abs_le]; constructor <;> omega))
        (by rw [z0, z1, z2]; nlinarith) (by rw [z0, z1, y1]; nlinarith) pos
  · simp only [Edge.sign, Int.cast_neg, Int.cast_one, neg_mul, one_mul]
    exact remap3_quad_neg m0 (fun k a b => val k (by rw [abs_le]; constructor <;> omega))
      (by rw [z0, z1, y1]; nlinarith) (by rw [z0, y1, y2]; nlinarith) (by linarith)

/-! ## The centred field along x2 -/

/-- Step 7, for the centred B2, before the ghost zones are filled: the face at `je+1` still has its
old value.  src/bvals_shear.c:484-490, 1080-1086. -/
noncomputable def b2cRaw (C : Cut) (old new : ℤ → ℤ → ℝ) (l j : ℤ) : ℝ :=
  1 / 2 * (new l j + if j + 1 ≤ C.je then new l (j + 1) else old l (j + 1))

/-- The centred B2 at the end: ghost zones of Steps 8 and 9, then the two zones put right by
Step 10.  src/bvals_shear.c:511-512, 686-697; 1107-1108, 1282-1293.  `new`: B2i after Step 9. -/
noncomputable def centred (C : Cut) (old new : ℤ → ℤ → ℝ) (l j : ℤ) : ℝ :=
  if j = C.je then 1 / 2 * (new l (C.je + 1) + new l C.je)
  else if j = C.js - 1 then 1 / 2 * (new l (C.js - 1) + new l C.js)
  else ghostY C (b2cRaw C old new) l j

/-- The centred field is the mean of the remapped faces, in all zones, if a Grid has more zones
along x2 than ghost zones. -/
theorem centred_mean {C : Cut} (h : C.Fit) (big : C.ng < C.nx) {old new : ℤ → ℤ → ℝ} {b : ℤ → ℝ}
    (hn : Holds C new b) (per : ∀ m, b (m + C.total) = b m) :
    Holds C (centred C old new) (fun m => 1 / 2 * (b m + b (m + 1))) := by
  have hg := h.ng
  have hr := h.ngr
  intro l l0 l1 j a c
  have raw : ∀ l, 0 ≤ l → l < C.ngr → ∀ j, C.js ≤ j → j < C.je →
      b2cRaw C old new l j = 1 / 2 * (b (l * C.nx + (j - C.js)) + b (l * C.nx + (j - C.js) + 1)) := by
    intro l l0 l1 j a c
    unfold b2cRaw
    rw [if_pos (by omega), hn l l0 l1 j (by omega) (by omega), hn l l0 l1 (j + 1) (by omega) (by omega)]
    rw [show l * C.nx + (j + 1 - C.js) = l * C.nx + (j - C.js) + 1 by ring]
  unfold centred
  dsimp only
  by_cases c1 : j = C.je
  · rw [if_pos c1, hn l l0 l1 _ (by unfold Cut.js Cut.je; omega) (by omega),
      hn l l0 l1 _ (by unfold Cut.js Cut.je; omega) (by omega), c1]
    rw [show l * C.nx + (C.je + 1 - C.js) = l * C.nx + (C.je - C.js) + 1 by ring]
    ring
  rw [if_neg c1]
  by_cases c2 : j = C.js - 1
  · rw [if_pos c2, hn l l0 l1 _ (by omega) (by unfold Cut.js Cut.je at *; omega),
      hn l l0 l1 _ (by omega) (by unfold Cut.js Cut.je at *; omega), c2]
    rw [show l * C.nx + (C.js - 1 - C.js) + 1 = l * C.nx + (C.js - C.js) by ring]
  rw [if_neg c2]
  unfold ghostY
  by_cases c3 : j < C.js
  · rw [if_pos c3]
    unfold leftOf
    split_ifs with hl
    · rw [raw _ (by omega) (by omega) _ (by unfold Cut.js Cut.je at *; omega) (by unfold Cut.js Cut.je at *; omega),
        ← per (l * C.nx + (j - C.js)), ← per (l * C.nx + (j - C.js) + 1), hl]
      congr 2
      · congr 1; unfold Cut.js Cut.je Cut.total; ring
      · congr 1; unfold Cut.js Cut.je Cut.total; ring
    · rw [raw _ (by omega) (by omega) _ (by unfold Cut.js Cut.je at *; omega) (by unfold Cut.js Cut.je at *; omega)]
      congr 2
      · congr 1; unfold Cut.js Cut.je; ring
      · congr 1; unfold Cut.js Cut.je; ring
  rw [if_neg c3]
  by_cases c4 : C.je < j
  · rw [if_pos c4]
    unfold rightOf
    split_ifs with hl
    · rw [raw _ (by omega) (by omega) _ (by unfold Cut.js Cut.je at *; omega) (by unfold Cut.js Cut.je at *; omega),
        ← per (0 * C.nx + _), ← per (0 * C.nx + _ + 1), hl]
      congr 2
      · congr 1; unfold Cut.js Cut.je Cut.total; ring
      · congr 1; unfold Cut.js Cut.je Cut.total; ring
    · rw [raw _ (by omega) (by omega) _ (by unfold Cut.js Cut.je at *; omega) (by unfold Cut.js Cut.je at *; omega)]
      congr 2
      · congr 1; unfold Cut.js Cut.je; ring
      · congr 1; unfold Cut.js Cut.je; ring
  · rw [if_neg c4, raw l l0 l1 j (by omega) (by omega)]

end Athena.Shear
