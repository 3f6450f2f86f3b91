import Verif.Part.ExchGhost
import Verif.Part.Weight
import Mathlib.Algebra.BigOperators.Group.Multiset.Basic
import Mathlib.Algebra.Order.Group.Multiset
import Mathlib.Data.Fin.VecNotation

/-!
# src/particles/output_particle.c, utils_particle.c: binning particles onto the zones of the Domain; C85

`particle_to_grid` on all Grids followed by `exchange_gpcouple(pD, 0)`, and the binning of the feedback
(`distrFB_pred`, `distrFB_corr`) followed by `exchange_gpcouple(pD, 1)` or `(pD, 2)`.
-/

namespace Athena.Part
noncomputable section
open Classical Pos

/-! ## Model -/

/-- Position of the inner boundary of the Domain and width of the zones in one direction. -/
structure Geo where
  x0 : ℝ
  dx : ℝ

/-- The direction of Grid `l` as `getweight` sees it: `MinX[d]` of init_grid.c:84-149. -/
def Line.dim (L : Line) (G : Geo) (l : ℕ) : Dim :=
  ⟨⟨G.x0 + L.off l * G.dx, G.dx, L.s, L.e l⟩, L.act, L.ng⟩

/-- The loop of `particle_to_grid`, output_particle.c:94-129, for one of the quantities `grid_d`, `grid_v1`,
`grid_v2`, `grid_v3`; `amt` is the amount: `drho` or `drho*gr->v1` etc., `x` the position.  Also the loops of
`feedback_predictor`, integrators_particle.c:486-551 (`distrFB_pred` at the position of the particle), and of
`Integrate_Particles` with `feedback_corrector`, :139-150, 583-621 (`distrFB_corr` half way between the old and the
new position); `β` then is what a particle contributes. -/
def binLoop {β : Type} (x : β → Fin 3 → ℝ) (m : Interp) (D1 D2 D3 : Dim) (amt : β → ℝ) :
    List β → (ℤ → ℤ → ℤ → ℝ) → Res (ℤ → ℤ → ℤ → ℝ)
  | [], a => .ok a
  | g :: l, a => do
    let W ← getweight m D1 D2 D3 (x g 0) (x g 1) (x g 2)
    binLoop x m D1 D2 D3 amt l (fun k j i => a k j i + deposit m D1 D2 D3 W (amt g) k j i)

/-- The geometry of the three directions. -/
structure Geo3 where
  G1 : Geo
  G2 : Geo
  G3 : Geo

/-- `particle_to_grid` before the exchange, output_particle.c:63-129, on Grid `(r1, r2, r3)`; the coupling arrays
of the feedback are cleared likewise, integrators_particle.c:476-484, 77-86. -/
def binGrid {β : Type} (x : β → Fin 3 → ℝ) (B : Lattice) (G : Geo3) (m : Interp) (amt : β → ℝ)
    (P : ℕ → ℕ → ℕ → List β) (r3 r2 r1 : ℕ) : Res (ℤ → ℤ → ℤ → ℝ) :=
  binLoop x m (B.L1.dim G.G1 r1) (B.L2.dim G.G2 r2) (B.L3.dim G.G3 r3) amt (P r3 r2 r1) (fun _ _ _ => 0)

/-! ## Specification -/

/-- The share a zone gets of a particle that lies `t` zone widths to the right of its centre. -/
def shape : Interp → ℝ → ℝ
  | .linear, t => if |t| ≤ 1 then 1 - |t| else 0
  | .tsc, t => if |t| ≤ 1/2 then 3/4 - t ^ 2 else if |t| ≤ 3/2 then 1/2 * (3/2 - |t|) ^ 2 else 0
  | .qp, t => if -3/2 ≤ t ∧ t < -1/2 then 1/2 * (t + 1) * (t + 2)
      else if -1/2 ≤ t ∧ t < 1/2 then 1 - t ^ 2
      else if 1/2 ≤ t ∧ t < 3/2 then 1/2 * (1 - t) * (2 - t) else 0

/-- How many zones a particle may be outside its Grid when it is binned: none, or one after half a step. -/
def Lab.slack : Lab → ℤ
  | .corr => 1
  | _ => 0

/-- The share of zone `g` of the Domain in one direction of a particle at `x`: that of the zone and of its
periodic images and mirror images next to the Domain; 1 if the direction does not exist. -/
def Line.share (L : Line) (G : Geo) (m : Interp) (sg x : ℝ) (g : ℤ) : ℝ :=
  if L.act then
    ∑ g' ∈ Finset.Icc (-2) (L.tot + 1), (match L.home sg g' with
      | some (h, t) => if h = g then t else 0
      | none => 0) * shape m ((x - (G.x0 + ((g' : ℝ) + 1/2) * G.dx)) / G.dx)
  else 1

/-- The particle lies in Grid `l` (in one direction) or at most `sl` zones outside. -/
def Line.In (L : Line) (G : Geo) (sl : ℤ) (l : ℕ) (x : ℝ) : Prop :=
  L.act = true → G.x0 + (L.off l - sl) * G.dx ≤ x ∧ x < G.x0 + (L.off (l + 1) + sl) * G.dx

/-- All particles of the Domain. -/
def gathered {β : Type} (B : Lattice) (P : ℕ → ℕ → ℕ → List β) : Multiset β :=
  ∑ r3 ∈ Finset.range (B.L3.n + 1), ∑ r2 ∈ Finset.range (B.L2.n + 1), ∑ r1 ∈ Finset.range (B.L1.n + 1),
    (P r3 r2 r1 : Multiset β)

/-- Every particle is in the list of the Grid it lies in, or is at most `sl` zones outside. -/
def Placed {β : Type} (x : β → Fin 3 → ℝ) (B : Lattice) (G : Geo3) (sl : ℤ) (P : ℕ → ℕ → ℕ → List β) : Prop :=
  ∀ r3 ≤ B.L3.n, ∀ r2 ≤ B.L2.n, ∀ r1 ≤ B.L1.n, ∀ g ∈ P r3 r2 r1,
    B.L1.In G.G1 sl r1 (x g 0) ∧ B.L2.In G.G2 sl r2 (x g 1) ∧ B.L3.In G.G3 sl r3 (x g 2)

/-- Zones have a width, there are two layers of ghost zones, indices fit into an `int`. -/
structure Line.Fit (L : Line) (G : Geo) : Prop where
  dx : 0 < G.dx
  ng : 2 ≤ L.ng
  max : ∀ l ≤ L.n, L.nx l + 2 * L.ng ≤ 2147483648

/-! ## One direction -/

/-- The weight of zone `k` in one direction. -/
def weight1 (m : Interp) (D : Dim) (st : ℤ) (w : ℕ → ℝ) (k : ℤ) : ℝ :=
  if lo D st ≤ k ∧ k ≤ hi m D st then w (k - lo D st).toNat else 0

theorem shape_far (m : Interp) {t : ℝ} (h : 3/2 ≤ t ∨ t < -3/2) : shape m t = 0 := by
  have ha : 3/2 ≤ |t| := by
    rcases h with h | h
    · exact h.trans (le_abs_self t)
    · have := neg_le_abs t; linarith
  cases m with
  | linear => simp only [shape]; rw [if_neg (by linarith)]
  | tsc =>
    simp only [shape]
    rw [if_neg (by linarith)]
    by_cases e : |t| ≤ 3/2
    · have : |t| = 3/2 := le_antisymm e ha
      rw [if_pos e, this]; norm_num
    · rw [if_neg e]
  | qp =>
    simp only [shape]
    rw [if_neg (by rintro ⟨_, _⟩; rcases h with h | h <;> linarith),
      if_neg (by rintro ⟨_, _⟩; rcases h with h | h <;> linarith),
      if_neg (by rintro ⟨_, _⟩; rcases h with h | h <;> linarith)]

/-- In an existing direction the weights of the zones are given by the shape. -/
theorem wei_shape (m : Interp) (D : Dim) (x : ℝ) (h : Inside D x) (hact : D.act = true) :
    ∃ st w, wei m D x = .ok (st, w) ∧ ∀ k, weight1 m D st w k = shape m ((x - ccPos D.ax k) / D.ax.dx) := by
  obtain ⟨hdx, h⟩ := h
  rw [if_pos hact] at h
  obtain ⟨h0, hmax, hl, hu⟩ := h
  obtain ⟨i, hi1, hi2, f1, f2⟩ := exists_zone D x hdx _ _ hl hu
  obtain ⟨a, hc, hx⟩ := cell_of_faces D.ax x i hdx (by omega) (by omega) f1 f2
  have ht : ∀ j : ℤ, (x - ccPos D.ax j) / D.ax.dx = a - j - 1/2 := by
    intro j
    rw [div_eq_iff (ne_of_gt hdx), hx]; unfold ccPos; push_cast; ring
  have hd0 : (i : ℝ) ≤ a := by
    by_contra hn
    have : (a - i) * D.ax.dx < 0 := mul_neg_of_neg_of_pos (by linarith) hdx
    unfold fcPos at f1; push_cast at f1; rw [hx] at f1; nlinarith
  have hd1 : a < i + 1 := by
    by_contra hn
    have : 0 ≤ (a - i - 1) * D.ax.dx := mul_nonneg (by linarith) hdx.le
    unfold fcPos at f2; push_cast at f2; rw [hx] at f2; nlinarith
  have hhalf : x < ccPos D.ax i ↔ a - i < 1/2 := by
    have := ht i
    constructor
    · intro hlt
      have : (x - ccPos D.ax i) / D.ax.dx < 0 := div_neg_of_neg_of_pos (by linarith) hdx
      linarith
    · intro hlt
      by_contra hn
      have : 0 ≤ (x - ccPos D.ax i) / D.ax.dx := div_nonneg (by linarith) hdx.le
      linarith
  have cast : ∀ {j k : ℤ}, j ≤ k → (j : ℝ) ≤ k := fun h => by exact_mod_cast h
  cases m with
  | linear =>
    have gen : ∀ st : ℤ, D.lp ≤ st → st + 1 ≤ D.up → (st : ℝ) + 1/2 ≤ a → a < st + 3/2 → ∀ k,
        weight1 .linear D st (fun n => if n = 0 then 1 - (a - st - 1/2) else if n = 1 then a - st - 1/2 else 0) k
          = shape .linear (a - k - 1/2) := by
      intro st l1 l2 a1 a2 k
      have e1 : lo D st = st := max_eq_left l1
      have e2 : hi .linear D st = st + 1 := min_eq_left (by simp only [Interp.n0]; omega)
      simp only [weight1, e1, e2, shape]
      by_cases c1 : k = st
      · subst c1
        rw [abs_of_nonneg (by linarith), if_pos (show k ≤ k ∧ k ≤ k + 1 by omega), if_pos (show a - k - 1/2 ≤ 1 by linarith)]
        simp
      · by_cases c2 : k = st + 1
        · subst c2
          rw [if_pos ⟨by omega, le_refl _⟩, show (st + 1 - st).toNat = 1 by omega]
          push_cast
          rw [abs_of_nonpos (by linarith), if_pos (show -(a - (st + 1) - 1/2) ≤ 1 by linarith)]
          ring
        · rw [if_neg (by omega)]
          by_cases c3 : k ≤ st - 1
          · have := cast c3; push_cast at this
            by_cases c4 : |a - k - 1/2| ≤ 1
            · rw [if_pos c4]
              rw [abs_of_nonneg (by linarith)] at c4 ⊢
              linarith
            · rw [if_neg c4]
          · have := cast (show st + 2 ≤ k by omega); push_cast at this
            rw [abs_of_nonpos (by linarith), if_neg (by linarith)]
    by_cases hh : x < ccPos D.ax i
    · rw [if_pos hh] at hc
      have hh' := hhalf.mp hh
      refine ⟨0 + i - 1, _, by simp only [wei, hact, if_true, hc, Res.bind_ok]; rfl, ?_⟩
      intro k; rw [ht]
      exact gen (0 + i - 1) (by omega) (by omega) (by push_cast; linarith) (by push_cast; linarith) k
    · rw [if_neg hh] at hc
      have hh' : ¬ a - i < 1/2 := fun e => hh (hhalf.mpr e)
      refine ⟨1 + i - 1, _, by simp only [wei, hact, if_true, hc, Res.bind_ok]; rfl, ?_⟩
      intro k; rw [ht]
      exact gen (1 + i - 1) (by omega) (by omega) (by push_cast; linarith) (by push_cast; linarith) k
  | tsc =>
    have e1 : lo D (i - 1) = i - 1 := max_eq_left (by omega)
    have e2 : hi .tsc D (i - 1) = i - 1 + 2 := min_eq_left (by simp only [Interp.n0]; omega)
    refine ⟨i - 1, _, by simp only [wei, hact, if_true, hc, Res.bind_ok]; rfl, ?_⟩
    intro k; rw [ht]
    simp only [weight1, e1, e2]
    by_cases c1 : k = i - 1
    · subst c1
      rw [if_pos ⟨le_refl _, by omega⟩, show (i - 1 - (i - 1)).toNat = 0 by omega, if_pos rfl]
      simp only [shape]; push_cast
      rw [abs_of_nonneg (by linarith)]
      by_cases z : a - (i - 1) - 1/2 ≤ 1/2
      · have : a = i := by linarith
        rw [if_pos z, this]; norm_num
      · rw [if_neg z, if_pos (by linarith)]; ring
    · by_cases c2 : k = i
      · subst c2
        rw [if_pos ⟨by omega, by omega⟩, show (k - (k - 1)).toNat = 1 by omega, if_neg one_ne_zero, if_pos rfl]
        simp only [shape]
        rw [if_pos (by rw [abs_le]; constructor <;> linarith)]
        try ring
      · by_cases c3 : k = i + 1
        · subst c3
          rw [if_pos ⟨by omega, by omega⟩, show (i + 1 - (i - 1)).toNat = 2 by omega, if_neg two_ne_zero,
            if_neg (show ¬ (2:ℕ) = 1 by omega)]
          simp only [shape]; push_cast
          rw [abs_of_nonpos (by linarith), if_neg (by linarith), if_pos (by linarith)]
          try ring
        · rw [if_neg (by omega), shape_far]
          by_cases c4 : k ≤ i - 2
          · left; have := cast c4; push_cast at this; linarith
          · right; have := cast (show i + 2 ≤ k by omega); push_cast at this; linarith
  | qp =>
    have e1 : lo D (i - 1) = i - 1 := max_eq_left (by omega)
    have e2 : hi .qp D (i - 1) = i - 1 + 2 := min_eq_left (by simp only [Interp.n0]; omega)
    refine ⟨i - 1, _, by simp only [wei, hact, if_true, hc, Res.bind_ok]; rfl, ?_⟩
    intro k; rw [ht]
    simp only [weight1, e1, e2]
    by_cases c1 : k = i - 1
    · subst c1
      rw [if_pos ⟨le_refl _, by omega⟩, show (i - 1 - (i - 1)).toNat = 0 by omega, if_pos rfl]
      simp only [shape]; push_cast
      rw [if_neg (by rintro ⟨_, _⟩; linarith), if_neg (by rintro ⟨_, _⟩; linarith), if_pos ⟨by linarith, by linarith⟩]
      ring
    · by_cases c2 : k = i
      · subst c2
        rw [if_pos ⟨by omega, by omega⟩, show (k - (k - 1)).toNat = 1 by omega, if_neg one_ne_zero, if_pos rfl]
        simp only [shape]
        rw [if_neg (by rintro ⟨_, _⟩; linarith), if_pos ⟨by linarith, by linarith⟩]
        try ring
      · by_cases c3 : k = i + 1
        · subst c3
          rw [if_pos ⟨by omega, by omega⟩, show (i + 1 - (i - 1)).toNat = 2 by omega, if_neg two_ne_zero,
            if_neg (show ¬ (2:ℕ) = 1 by omega)]
          simp only [shape]; push_cast
          rw [if_pos ⟨by linarith, by linarith⟩]
          try ring
        · rw [if_neg (by omega), shape_far]
          by_cases c4 : k ≤ i - 2
          · left; have := cast c4; push_cast at this; linarith
          · right; have := cast (show i + 2 ≤ k by omega); push_cast at this; linarith

/-- The weight of zone `k` of Grid `l` for a particle at `x`. -/
def Line.wt (L : Line) (G : Geo) (m : Interp) (l : ℕ) (x : ℝ) (k : ℤ) : ℝ :=
  if L.act then shape m ((x - (G.x0 + ((L.glob l k : ℝ) + 1/2) * G.dx)) / G.dx) else if k = L.s then 1 else 0

theorem wei_wt (m : Interp) {L : Line} {G : Geo} {w : ℤ} (hL : L.Good w) (hF : L.Fit G) {l : ℕ} (hl : l ≤ L.n) {x : ℝ}
    {sl : ℤ} (hsl : 0 ≤ sl ∧ sl ≤ 1) (hx : L.In G sl l x) : ∃ st u, wei m (L.dim G l) x = .ok (st, u) ∧ ∀ k, weight1 m (L.dim G l) st u k = L.wt G m l x k := by
  have hdx := hF.dx
  by_cases hact : L.act = true
  · obtain ⟨h1, h2⟩ := hx hact
    have hng := hF.ng
    have hmx := hF.max l hl
    have hp := hL.pos l hl
    have hs : L.s = L.ng := by simp [Line.s, hact]
    have he : L.e l = L.s + L.nx l - 1 := rfl
    have hin : Inside (L.dim G l) x := by
      refine ⟨hdx, ?_⟩
      have e1 : (L.dim G l).act = true := hact
      have e2 : (L.dim G l).lp = L.s - L.ng := by simp [Dim.lp, Line.dim, hact]
      have e3 : (L.dim G l).up = L.e l + L.ng := by simp [Dim.up, Line.dim, hact]
      rw [if_pos e1, e2, e3]
      have ng' : (2:ℝ) ≤ L.ng := by exact_mod_cast hng
      have sl' : (sl : ℝ) ≤ 1 := by exact_mod_cast hsl.2
      refine ⟨by omega, by omega, ?_, ?_⟩
      · have : fcPos (L.dim G l).ax (L.s - L.ng + 1) = G.x0 + L.off l * G.dx + (1 - L.ng) * G.dx := by
          simp only [fcPos, Line.dim]; push_cast; ring
        rw [this]; nlinarith
      · have : fcPos (L.dim G l).ax (L.e l + L.ng) = G.x0 + L.off (l + 1) * G.dx + (L.ng - 1) * G.dx := by
          simp only [fcPos, Line.dim]; rw [he, off_succ]; push_cast; ring
        rw [this]; nlinarith
    obtain ⟨st, u, e, h⟩ := wei_shape m _ x hin hact
    refine ⟨st, u, e, fun k => ?_⟩
    rw [h, Line.wt, if_pos hact]
    have : ccPos (L.dim G l).ax k = G.x0 + ((L.glob l k : ℝ) + 1/2) * G.dx := by
      simp only [ccPos, Line.dim, Line.glob]; push_cast; ring
    rw [this]; rfl
  · have hact' : L.act = false := by simpa using hact
    have hfl := hL.flat hact'
    have hl0 : l = 0 := by omega
    have he : L.e l = L.s := by simp [Line.e, hl0, hfl.2]
    refine ⟨L.s, fun n => if n = 0 then 1 else 0, ?_, fun k => ?_⟩
    · have : (L.dim G l).act = false := hact'
      simp only [wei, this]; rfl
    · have e2 : lo (L.dim G l) L.s = L.s := by simp [lo, Dim.lp, Line.dim, hact']
      have e3 : hi m (L.dim G l) L.s = L.s := by
        have : 0 ≤ m.n0 := by cases m <;> simp [Interp.n0]
        simp [hi, Dim.up, Line.dim, hact', he, this]
      rw [weight1, e2, e3, Line.wt, if_neg hact]
      by_cases c : k = L.s
      · subst c; simp
      · rw [if_neg (by omega), if_neg c]

/-- What the zones and ghost zones of Grid `l` standing for zone `g` get together. -/
theorem wt_share (m : Interp) {L : Line} {G : Geo} {w : ℤ} (hL : L.Good w) (hF : L.Fit G) {l : ℕ} (hl : l ≤ L.n) {x : ℝ}
    {sl : ℤ} (hsl : 0 ≤ sl ∧ sl ≤ 1) (hx : L.In G sl l x) (sg : ℝ) {g : ℤ} (hg : 0 ≤ g ∧ g < L.tot) {y : ℤ}
    (hy : y = 1 + sl) :
    ∑ k ∈ (if L.act then Finset.Icc (L.s - y) (L.e l + y) else Finset.Icc L.s (L.e l)),
      L.wt G m l x k * L.counts sg ⟨l, k⟩ g = L.share G m sg x g := by
  have hdx := hF.dx
  by_cases hact : L.act = true
  · obtain ⟨h1, h2⟩ := hx hact
    have he : L.e l = L.s + L.nx l - 1 := rfl
    rw [Line.share, if_pos hact, if_pos hact]
    set f : ℤ → ℝ := fun g' => (match L.home sg g' with
      | some (h, t) => if h = g then t else 0
      | none => 0) * shape m ((x - (G.x0 + ((g' : ℝ) + 1/2) * G.dx)) / G.dx) with hf
    have a0 := off_nonneg hL l (by omega)
    have a1 := off_mono hL (show l + 1 ≤ L.n + 1 by omega) (le_refl _)
    have a2 := off_succ L l
    have sub : ∑ g' ∈ Finset.Icc (L.off l - y) (L.off (l + 1) - 1 + y), f g'
        = ∑ g' ∈ Finset.Icc (-2) (L.tot + 1), f g' := by
      apply Finset.sum_subset
      · intro z hz
        rw [Finset.mem_Icc] at hz ⊢
        unfold Line.tot
        omega
      · intro z _ hz
        rw [Finset.mem_Icc] at hz
        rw [hf]; dsimp only
        rw [shape_far, mul_zero]
        by_cases c : z ≤ L.off l - sl - 2
        · left
          have c' : (z : ℝ) ≤ L.off l - sl - 2 := by exact_mod_cast c
          rw [le_div_iff₀ hdx]; nlinarith
        · right
          have c' : (L.off (l + 1) : ℝ) + sl + 1 ≤ z := by exact_mod_cast (show L.off (l + 1) + sl + 1 ≤ z by omega)
          rw [div_lt_iff₀ hdx]; nlinarith
    rw [← sub]
    refine Finset.sum_bij (fun k _ => L.glob l k) ?_ ?_ ?_ ?_
    · intro k hk
      rw [Finset.mem_Icc] at hk ⊢
      simp only [Line.glob]; omega
    · intro a _ b _ e
      simp only [Line.glob] at e; omega
    · intro b hb
      rw [Finset.mem_Icc] at hb
      exact ⟨b - L.off l + L.s, by rw [Finset.mem_Icc]; omega, by simp only [Line.glob]; omega⟩
    · intro k _
      rw [hf, Line.wt, if_pos hact]
      exact mul_comm _ _
  · have hact' : L.act = false := by simpa using hact
    have hfl := hL.flat hact'
    have hl0 : l = 0 := by omega
    have he : L.e l = L.s := by simp [Line.e, hl0, hfl.2]
    have htot : L.tot = 1 := by rw [Line.tot, hfl.1, off_succ, off_zero, hfl.2]; rfl
    have hgl : L.glob l L.s = 0 := by rw [hl0, Line.glob, off_zero]; ring
    have hg0 : g = 0 := by omega
    rw [if_neg hact, he, Finset.Icc_self, Finset.sum_singleton, Line.share, if_neg hact, Line.wt, if_neg hact, if_pos rfl,
      Line.counts, hgl]
    have : L.home sg 0 = some (0, 1) := by simp [Line.home, htot]
    simp [this, hg0]

/-! ## Three directions -/

theorem deposit_eq (m : Interp) (D1 D2 D3 : Dim) (W : Weights) (v : ℝ) (k j i : ℤ) :
    deposit m D1 D2 D3 W v k j i
      = v * (weight1 m D3 W.ks W.w3 k * weight1 m D2 W.js W.w2 j * weight1 m D1 W.is W.w1 i) := by
  unfold deposit weight1
  by_cases c3 : lo D3 W.ks ≤ k ∧ k ≤ hi m D3 W.ks
  · by_cases c2 : lo D2 W.js ≤ j ∧ j ≤ hi m D2 W.js
    · by_cases c1 : lo D1 W.is ≤ i ∧ i ≤ hi m D1 W.is
      · rw [if_pos ⟨c3, c2, c1⟩, if_pos c3, if_pos c2, if_pos c1]; ring
      · rw [if_neg (fun h => c1 h.2.2), if_neg c1]; ring
    · rw [if_neg (fun h => c2 h.2.1), if_neg c2]; ring
  · rw [if_neg (fun h => c3 h.1), if_neg c3]; ring

/-- The Domain and its geometry are sensible. -/
structure Lattice.Fit (B : Lattice) (G : Geo3) : Prop where
  f1 : B.L1.Fit G.G1
  f2 : B.L2.Fit G.G2
  f3 : B.L3.Fit G.G3

theorem binLoop_sum {β : Type} (x : β → Fin 3 → ℝ) {sl : ℤ} (hsl : 0 ≤ sl ∧ sl ≤ 1) (B : Lattice) (G : Geo3) (m : Interp) {w ng : ℤ} (hB : B.Good w ng) (hF : B.Fit G) (amt : β → ℝ)
    {r3 r2 r1 : ℕ} (h3 : r3 ≤ B.L3.n) (h2 : r2 ≤ B.L2.n) (h1 : r1 ≤ B.L1.n) (l : List β)
    (hl : ∀ g ∈ l, B.L1.In G.G1 sl r1 (x g 0) ∧ B.L2.In G.G2 sl r2 (x g 1) ∧ B.L3.In G.G3 sl r3 (x g 2)) (a : ℤ → ℤ → ℤ → ℝ) :
    ∃ a', binLoop x m (B.L1.dim G.G1 r1) (B.L2.dim G.G2 r2) (B.L3.dim G.G3 r3) amt l a = .ok a' ∧
      ∀ k j i, a' k j i = a k j i + (l.map fun g => amt g *
        (B.L3.wt G.G3 m r3 (x g 2) k * B.L2.wt G.G2 m r2 (x g 1) j * B.L1.wt G.G1 m r1 (x g 0) i)).sum := by
  induction l generalizing a with
  | nil => exact ⟨a, rfl, fun k j i => by simp⟩
  | cons g l ih =>
    obtain ⟨i1, i2, i3⟩ := hl g (List.mem_cons_self ..)
    obtain ⟨s1, u1, e1, w1⟩ := wei_wt m hB.g1 hF.f1 h1 hsl i1
    obtain ⟨s2, u2, e2, w2⟩ := wei_wt m hB.g2 hF.f2 h2 hsl i2
    obtain ⟨s3, u3, e3, w3⟩ := wei_wt m hB.g3 hF.f3 h3 hsl i3
    obtain ⟨a', ea, ha⟩ := ih (fun g' hg' => hl g' (List.mem_cons_of_mem _ hg'))
      (fun k j i => a k j i + deposit m (B.L1.dim G.G1 r1) (B.L2.dim G.G2 r2) (B.L3.dim G.G3 r3)
        ⟨s1, s2, s3, u1, u2, u3⟩ (amt g) k j i)
    refine ⟨a', ?_, fun k j i => ?_⟩
    · rw [← ea]
      simp only [binLoop, getweight, e1, e2, e3, Res.bind_ok]
      rfl
    · rw [ha, List.map_cons, List.sum_cons, deposit_eq]
      simp only [w1, w2, w3]
      ring

/-- The share of zone `(g3, g2, g1)` of the Domain of a particle at `x`; `n` is the component of the coupling array
(0, 1, 2: of a vector). -/
def share3 (B : Lattice) (G : Geo3) (m : Interp) (n : ℕ) (x : Fin 3 → ℝ) (g3 g2 g1 : ℤ) : ℝ :=
  B.L3.share G.G3 m (sign n 2) (x 2) g3 * B.L2.share G.G2 m (sign n 1) (x 1) g2
    * B.L1.share G.G1 m (sign n 0) (x 0) g1

theorem sum_list_comm {ι α : Type*} (s : Finset ι) (l : List α) (f : ι → α → ℝ) :
    ∑ k ∈ s, (l.map (f k)).sum = (l.map fun a => ∑ k ∈ s, f k a).sum := by
  induction l with
  | nil => simp
  | cons a l ih => simp only [List.map_cons, List.sum_cons, Finset.sum_add_distrib, ih]

theorem list_mul {α : Type*} (l : List α) (f : α → ℝ) (c : ℝ) : (l.map f).sum * c = (l.map fun a => f a * c).sum := by
  induction l with
  | nil => simp
  | cons a l ih => simp only [List.map_cons, List.sum_cons, add_mul, ih]

theorem prod_sums (s3 s2 s1 : Finset ℤ) (a b c : ℤ → ℝ) :
    (∑ k ∈ s3, a k) * (∑ j ∈ s2, b j) * (∑ i ∈ s1, c i) = ∑ k ∈ s3, ∑ j ∈ s2, ∑ i ∈ s1, a k * b j * c i := by
  rw [Finset.sum_mul_sum, Finset.sum_mul]
  refine Finset.sum_congr rfl fun k _ => ?_
  rw [Finset.sum_mul]
  exact Finset.sum_congr rfl fun j _ => Finset.mul_sum ..

theorem gathered_sum {β : Type} (B : Lattice) (P : ℕ → ℕ → ℕ → List β) (f : β → ℝ) :
    ((gathered B P).map f).sum = ∑ r3 ∈ Finset.range (B.L3.n + 1), ∑ r2 ∈ Finset.range (B.L2.n + 1),
      ∑ r1 ∈ Finset.range (B.L1.n + 1), ((P r3 r2 r1).map f).sum := by
  have : ∀ S : Multiset β, (S.map f).sum = (Multiset.sumAddMonoidHom.comp (Multiset.mapAddMonoidHom f)) S :=
    fun _ => rfl
  rw [this, gathered, map_sum]
  refine Finset.sum_congr rfl fun r3 _ => ?_
  rw [map_sum]
  refine Finset.sum_congr rfl fun r2 _ => ?_
  rw [map_sum]
  refine Finset.sum_congr rfl fun r1 _ => ?_
  rw [← this, Multiset.map_coe, Multiset.sum_coe]

theorem slack_mem (lab : Lab) : 0 ≤ lab.slack ∧ lab.slack ≤ 1 := by cases lab <;> decide
theorem exc_slack (lab : Lab) : lab.exc = 1 + lab.slack := by cases lab <;> rfl

/-- Binning does not fail. -/
theorem bin_ok {β : Type} (x : β → Fin 3 → ℝ) (lab : Lab) (B : Lattice) (G : Geo3) (m : Interp) {w ng : ℤ} (hB : B.Good w ng) (hF : B.Fit G) (amt : β → ℝ)
    (P : ℕ → ℕ → ℕ → List β) (hP : Placed x B G lab.slack P) :
    ∃ A : Coup, ∀ r3 ≤ B.L3.n, ∀ r2 ≤ B.L2.n, ∀ r1 ≤ B.L1.n, binGrid x B G m amt P r3 r2 r1 = .ok (A r3 r2 r1) := by
  have key : ∀ r3 r2 r1, ∃ a, (r3 ≤ B.L3.n ∧ r2 ≤ B.L2.n ∧ r1 ≤ B.L1.n) → binGrid x B G m amt P r3 r2 r1 = .ok a := by
    intro r3 r2 r1
    by_cases c : r3 ≤ B.L3.n ∧ r2 ≤ B.L2.n ∧ r1 ≤ B.L1.n
    · obtain ⟨a, e, -⟩ := binLoop_sum x (slack_mem lab) B G m hB hF amt c.1 c.2.1 c.2.2 (P r3 r2 r1) (hP _ c.1 _ c.2.1 _ c.2.2)
        (fun _ _ _ => 0)
      exact ⟨a, fun _ => e⟩
    · exact ⟨fun _ _ _ => 0, fun h => absurd h c⟩
  choose A hA using key
  exact ⟨A, fun r3 h3 r2 h2 r1 h1 => hA r3 r2 r1 ⟨h3, h2, h1⟩⟩

/-- C85: binning all particles and exchanging gives each zone of the Domain the amounts of all particles of the
Domain, each times the share of the zone; for binning for output and both steps of the feedback.  (In the predictor
step the code limits the force between binning and exchange: `pred_split_false`.) -/
theorem bin_exact {β : Type} (x : β → Fin 3 → ℝ) (lab : Lab) (B : Lattice) (G : Geo3) (m : Interp) {w ng : ℤ} (hB : B.Good w ng) (hw : lab.exc ≤ w) (hF : B.Fit G)
    (amt : β → ℝ) (n : ℕ) (P : ℕ → ℕ → ℕ → List β) (hP : Placed x B G lab.slack P) (A A' : Coup)
    (hA : ∀ r3 ≤ B.L3.n, ∀ r2 ≤ B.L2.n, ∀ r1 ≤ B.L1.n, binGrid x B G m amt P r3 r2 r1 = .ok (A r3 r2 r1))
    (h : exchange B lab ng n A = .ok A') {p3 p2 p1 : Σ _ : ℕ, ℤ}
    (hp3 : p3 ∈ B.L3.zones 0) (hp2 : p2 ∈ B.L2.zones 0) (hp1 : p1 ∈ B.L1.zones 0) :
    A'.val p3 p2 p1 = ((gathered B P).map fun p => amt p *
      share3 B G m n (x p) (B.L3.glob p3.1 p3.2) (B.L2.glob p2.1 p2.2) (B.L1.glob p1.1 p1.2)).sum := by
  have gr : ∀ {L : Line} (_ : L.Good w) {p : Σ _ : ℕ, ℤ}, p ∈ L.zones 0 →
      0 ≤ L.glob p.1 p.2 ∧ L.glob p.1 p.2 < L.tot := by
    intro L hL p hp
    obtain ⟨a, b, c⟩ : p.1 ≤ L.n ∧ L.s ≤ p.2 ∧ p.2 ≤ L.e p.1 := by
      unfold Line.zones at hp
      rw [Finset.mem_sigma] at hp
      obtain ⟨a, b⟩ := hp
      have := Finset.mem_range.mp a
      refine ⟨by omega, ?_⟩
      split_ifs at b <;> (rw [Finset.mem_Icc] at b; omega)
    have he : L.e p.1 = L.s + L.nx p.1 - 1 := rfl
    have a0 := off_nonneg hL p.1 (by omega)
    have a1 := off_mono hL (show p.1 + 1 ≤ L.n + 1 by omega) (le_refl _)
    have a2 := off_succ L p.1
    unfold Line.tot
    simp only [Line.glob]; omega
  have G3 := gr hB.g3 hp3
  have G2 := gr hB.g2 hp2
  have G1 := gr hB.g1 hp1
  rw [exchange_at B lab hB hw n A A' h hp3 hp2 hp1, gathered_sum]
  set g3 := B.L3.glob p3.1 p3.2
  set g2 := B.L2.glob p2.1 p2.2
  set g1 := B.L1.glob p1.1 p1.2
  unfold zoneSum Line.zones
  simp only [Finset.sum_sigma]
  refine Finset.sum_congr rfl fun r3 hr3 => ?_
  rw [Finset.sum_comm]
  refine Finset.sum_congr rfl fun r2 hr2 => ?_
  have : ∀ (s3 s2 : Finset ℤ) (F : ℤ → ℤ → ℕ → ℝ),
      ∑ k ∈ s3, ∑ j ∈ s2, ∑ r1 ∈ Finset.range (B.L1.n + 1), F k j r1
        = ∑ r1 ∈ Finset.range (B.L1.n + 1), ∑ k ∈ s3, ∑ j ∈ s2, F k j r1 := by
    intro s3 s2 F
    rw [Finset.sum_comm]
    rw [Finset.sum_congr rfl fun j _ => Finset.sum_comm, Finset.sum_comm]
    exact Finset.sum_congr rfl fun r1 _ => Finset.sum_comm
  rw [this]
  refine Finset.sum_congr rfl fun r1 hr1 => ?_
  have b3 : r3 ≤ B.L3.n := by have := Finset.mem_range.mp hr3; omega
  have b2 : r2 ≤ B.L2.n := by have := Finset.mem_range.mp hr2; omega
  have b1 : r1 ≤ B.L1.n := by have := Finset.mem_range.mp hr1; omega
  have hPl := hP r3 b3 r2 b2 r1 b1
  obtain ⟨a, e, ha⟩ := binLoop_sum x (slack_mem lab) B G m hB hF amt b3 b2 b1 (P r3 r2 r1) hPl (fun _ _ _ => 0)
  have hAa : A r3 r2 r1 = a := Res.ok.inj ((hA r3 b3 r2 b2 r1 b1).symm.trans e)
  simp only [Coup.val, hAa, ha, zero_add, list_mul, sum_list_comm]
  congr 1
  refine List.map_congr_left fun p hp => ?_
  obtain ⟨i1, i2, i3⟩ := hPl p hp
  rw [share3, ← wt_share m hB.g3 hF.f3 b3 (slack_mem lab) i3 (sign n 2) G3 (exc_slack lab), ← wt_share m hB.g2 hF.f2 b2 (slack_mem lab) i2 (sign n 1) G2 (exc_slack lab),
    ← wt_share m hB.g1 hF.f1 b1 (slack_mem lab) i1 (sign n 0) G1 (exc_slack lab)]
  rw [prod_sums, Finset.mul_sum]
  refine Finset.sum_congr rfl fun k _ => ?_
  rw [Finset.mul_sum]
  refine Finset.sum_congr rfl fun j _ => ?_
  rw [Finset.mul_sum]
  exact Finset.sum_congr rfl fun i _ => by ring

/-- Two decompositions of the same Domain in one direction. -/
structure Line.Same (L L' : Line) : Prop where
  tot : L.tot = L'.tot
  act : L.act = L'.act
  left : L.left = L'.left
  right : L.right = L'.right

theorem share_same {L L' : Line} (h : L.Same L') (G : Geo) (m : Interp) (sg x : ℝ) (g : ℤ) :
    L.share G m sg x g = L'.share G m sg x g := by
  have : L.home sg = L'.home sg := by
    funext g; simp only [Line.home, h.tot, h.left, h.right]
  simp only [Line.share, h.act, h.tot, this]

/-- C85: what is binned onto a zone of the Domain does not depend on how the Domain is divided into Grids, on the
order of the particles in the lists, or on the number of ghost zones. -/
theorem bin_independent {β : Type} (x : β → Fin 3 → ℝ) (lab : Lab) (B B' : Lattice) (G : Geo3) (m : Interp) {w ng w' ng' : ℤ} (hB : B.Good w ng) (hB' : B'.Good w' ng')
    (hw : lab.exc ≤ w) (hw' : lab.exc ≤ w') (hF : B.Fit G) (hF' : B'.Fit G)
    (s1 : B.L1.Same B'.L1) (s2 : B.L2.Same B'.L2) (s3 : B.L3.Same B'.L3)
    (amt : β → ℝ) (n : ℕ) (P P' : ℕ → ℕ → ℕ → List β) (hP : Placed x B G lab.slack P) (hP' : Placed x B' G lab.slack P')
    (hPP : gathered B P = gathered B' P')
    (A C A' C' : Coup)
    (hA : ∀ r3 ≤ B.L3.n, ∀ r2 ≤ B.L2.n, ∀ r1 ≤ B.L1.n, binGrid x B G m amt P r3 r2 r1 = .ok (A r3 r2 r1))
    (hA' : ∀ r3 ≤ B'.L3.n, ∀ r2 ≤ B'.L2.n, ∀ r1 ≤ B'.L1.n, binGrid x B' G m amt P' r3 r2 r1 = .ok (A' r3 r2 r1))
    (h : exchange B lab ng n A = .ok C) (h' : exchange B' lab ng' n A' = .ok C')
    {p3 p2 p1 q3 q2 q1 : Σ _ : ℕ, ℤ}
    (hp3 : p3 ∈ B.L3.zones 0) (hp2 : p2 ∈ B.L2.zones 0) (hp1 : p1 ∈ B.L1.zones 0)
    (hq3 : q3 ∈ B'.L3.zones 0) (hq2 : q2 ∈ B'.L2.zones 0) (hq1 : q1 ∈ B'.L1.zones 0)
    (e3 : B.L3.glob p3.1 p3.2 = B'.L3.glob q3.1 q3.2) (e2 : B.L2.glob p2.1 p2.2 = B'.L2.glob q2.1 q2.2)
    (e1 : B.L1.glob p1.1 p1.2 = B'.L1.glob q1.1 q1.2) :
    C.val p3 p2 p1 = C'.val q3 q2 q1 := by
  rw [bin_exact x lab B G m hB hw hF amt n P hP A C hA h hp3 hp2 hp1,
    bin_exact x lab B' G m hB' hw' hF' amt n P' hP' A' C' hA' h' hq3 hq2 hq1, hPP, e3, e2, e1]
  simp only [share3, share_same s1, share_same s2, share_same s3]

/-! ## Example -/

def exGeo : Geo3 := ⟨⟨0, 1⟩, ⟨0, 1⟩, ⟨0, 1⟩⟩
def exBinP : Grain := ⟨![23/4, 0, 0], ![1, 2, 3], 0, 1, 0, 0⟩
def exBox2 : Lattice := ⟨exL1, exFlatL, exFlatL⟩
def exBox1 : Lattice := ⟨exWhole, exFlatL, exFlatL⟩
def exPs : ℕ → ℕ → ℕ → List Grain := fun r3 r2 r1 => if r3 = 0 ∧ r2 = 0 ∧ r1 = 0 then [exBinP] else []

/-- The hypotheses of `bin_exact` and `bin_independent` are met by twelve zones in one Grid and in two Grids and a
particle in the sixth zone; the seventh zone, which belongs to another Grid in the second case, gets a quarter. -/
example : exBox1.Good 6 4 ∧ exBox2.Good 6 4 ∧ exBox1.Fit exGeo ∧ exBox2.Fit exGeo ∧
    exWhole.Same exL1 ∧ Placed Grain.x exBox1 exGeo 0 exPs ∧ Placed Grain.x exBox2 exGeo 0 exPs ∧ gathered exBox1 exPs = gathered exBox2 exPs ∧
    share3 exBox2 exGeo .linear 3 exBinP.x 0 0 6 = 1/4 ∧ exL1.glob 1 4 = 6 ∧ exWhole.glob 0 10 = 6 := by
  have g1 : exWhole.Good 6 := ⟨fun _ _ _ => by simp [exWhole], fun _ _ => by simp [exWhole], fun h => by simp [exWhole] at h,
    by simp [exWhole], by simp [exWhole]⟩
  have ff : exFlatL.Fit ⟨0, 1⟩ := ⟨one_pos, by simp [exFlatL], fun _ _ => by simp [exFlatL]⟩
  have t1 : exWhole.tot = 12 := by simp [Line.tot, Line.off, exWhole]
  have t2 : exL1.tot = 12 := by simp [Line.tot, Line.off, exL1]
  have pl : ∀ (L : Line), L.off 0 = 0 → (6 : ℤ) ≤ L.off 1 → Placed Grain.x ⟨L, exFlatL, exFlatL⟩ exGeo 0 exPs := by
    intro L h0 h1 r3 _ r2 _ r1 _ g hg
    unfold exPs at hg
    split_ifs at hg with c
    · obtain ⟨rfl, rfl, rfl⟩ := c
      obtain rfl := List.mem_singleton.mp hg
      refine ⟨fun _ => ?_, fun h => by simp [exFlatL] at h, fun h => by simp [exFlatL] at h⟩
      have h1' : (6:ℝ) ≤ L.off 1 := by exact_mod_cast h1
      simp only [exGeo, exBinP, h0, zero_add, Matrix.cons_val_zero]
      norm_num
      linarith
    · simp at hg
  have o1 : exWhole.off 1 = 12 := by simp [Line.off, exWhole]
  have o2 : exL1.off 1 = 6 := by simp [Line.off, exL1]
  refine ⟨⟨g1, exFlatL_good, exFlatL_good, rfl, rfl, rfl, rfl⟩, ⟨exL1_good, exFlatL_good, exFlatL_good, rfl, rfl, rfl, rfl⟩,
    ⟨⟨one_pos, by simp [exBox1, exWhole], fun _ _ => by simp [exBox1, exWhole]⟩, ff, ff⟩,
    ⟨⟨one_pos, by simp [exBox2, exL1], fun _ _ => by simp [exBox2, exL1]⟩, ff, ff⟩,
    ⟨by rw [t1, t2], rfl, rfl, rfl⟩, pl exWhole (off_zero _) (by omega), pl exL1 (off_zero _) (by omega), ?_, ?_, ?_, ?_⟩
  · simp [gathered, exBox1, exBox2, exFlatL, exWhole, exL1, exPs, Finset.sum_range_succ]
  · have hc : (Finset.Icc (-2) (13:ℤ)) = {-2, -1, 0, 1, 2, 3, 4, 5, 6, 7, 8, 9, 10, 11, 12, 13} := by decide
    have a0 : exBox2.L3.share exGeo.G3 .linear (sign 3 2) (exBinP.x 2) 0 = 1 := by simp [Line.share, exBox2, exFlatL]
    have a1 : exBox2.L2.share exGeo.G2 .linear (sign 3 1) (exBinP.x 1) 0 = 1 := by simp [Line.share, exBox2, exFlatL]
    rw [share3, a0, a1]
    have a2 : exBox2.L1.act = true := rfl
    have a3 : exBox2.L1.tot = 12 := t2
    rw [Line.share, if_pos a2, a3, show (12:ℤ) + 1 = 13 from rfl, hc]
    have hl : exBox2.L1.left = .periodic := rfl
    have hr : exBox2.L1.right = .periodic := rfl
    have hx : exBinP.x 0 = 23/4 := rfl
    have hG : exGeo.G1 = ⟨0, 1⟩ := rfl
    simp only [Line.home, a3, hl, hr, hx, hG, shape]
    norm_num [abs_of_nonneg, abs_of_nonpos]
  · rw [Line.glob, o2]; simp [Line.s, exL1]
  · simp [Line.glob, off_zero, Line.s, exWhole]

/-- A particle of the first Grid that is a quarter of a zone beyond it half way through the step meets the hypotheses
for the corrector; with three zones around it, it reaches the second layer of ghost zones. -/
example : Placed (fun x : Fin 3 → ℝ => x) exBox2 exGeo Lab.corr.slack
      (fun r3 r2 r1 => if r3 = 0 ∧ r2 = 0 ∧ r1 = 0 then [![25/4, 0, 0]] else []) ∧ Lab.exc .corr ≤ 6 ∧
    exL1.wt exGeo.G1 .tsc 0 (25/4) 11 = 1/32 ∧ exL1.e 0 = 9 := by
  refine ⟨?_, by decide, ?_, by simp [Line.e, Line.s, exL1]⟩
  · intro r3 _ r2 _ r1 _ g hg
    dsimp only at hg
    split_ifs at hg with c
    · obtain ⟨rfl, rfl, rfl⟩ := c
      obtain rfl := List.mem_singleton.mp hg
      refine ⟨fun _ => ?_, fun h => by simp [exBox2, exFlatL] at h, fun h => by simp [exBox2, exFlatL] at h⟩
      have o2 : exBox2.L1.off 1 = 6 := by simp [Line.off, exL1, exBox2]
      simp only [exGeo, Lab.slack, off_zero, zero_add, o2, Matrix.cons_val_zero]
      norm_num
    · simp at hg
  · have : exL1.glob 0 11 = 7 := by rw [Line.glob, off_zero]; simp [Line.s, exL1]
    rw [Line.wt, if_pos (show exL1.act = true from rfl), this]
    simp only [shape, exGeo]
    norm_num [abs_of_nonpos]

end
end Athena.Part
