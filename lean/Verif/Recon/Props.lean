import Verif.Recon.Lemmas
import Mathlib.Tactic.FinCases
import Mathlib.Algebra.BigOperators.Fin

/-!
# Properties of the reconstruction (C36)

The statements speak about the arrays `Wl`, `Wr` returned by `lr_states` at the interfaces `il … iu+1`, in terms of the zone values `W`.
-/

namespace Athena.Recon
noncomputable section
open Athena.Hydro

variable {k ns : ℕ}

/-- At every interface `il … iu+1` both states of every variable lie between the values in the two adjacent zones. -/
def Bounded (W : ℤ → Vec k ns) (il iu : ℤ) (o : Out k ns) : Prop :=
  ∀ i, il ≤ i → i ≤ iu + 1 → ∀ n, Between (W (i - 1) n) (W i n) (o.Wl i n) ∧ Between (W (i - 1) n) (W i n) (o.Wr i n)

/-- The states at the interface `i` depend only on the zones `i-r … i+r-1`: they are the same for any other data (and any other range and
previous contents of the arrays) that agree on these zones after a shift by `t`. -/
def StencilL (r : ℤ) (lr : (ℤ → Vec k ns) → (ℤ → ℝ) → ℤ → ℤ → Out k ns → Out k ns) : Prop :=
  ∀ W W' Bxc Bxc' il iu il' iu' o o' i t, il ≤ i → i ≤ iu + 1 → il' ≤ i + t → i + t ≤ iu' + 1 →
    (∀ m, i - r ≤ m → m < i + r → W m = W' (m + t) ∧ Bxc m = Bxc' (m + t)) →
    (lr W Bxc il iu o).Wl i = (lr W' Bxc' il' iu' o').Wl (i + t) ∧ (lr W Bxc il iu o).Wr i = (lr W' Bxc' il' iu' o').Wr (i + t)

/-- Positive data (density, pressure) are reconstructed to positive values. -/
theorem Bounded.pos {W : ℤ → Vec k ns} {il iu : ℤ} {o : Out k ns} (h : Bounded W il iu o) {n} (hW : ∀ i, 0 < W i n) {i : ℤ} (h1 : il ≤ i)
    (h2 : i ≤ iu + 1) : 0 < o.Wl i n ∧ 0 < o.Wr i n :=
  ⟨lt_of_lt_of_le (lt_min (hW _) (hW _)) (h i h1 h2 n).1.1, lt_of_lt_of_le (lt_min (hW _) (hW _)) (h i h1 h2 n).2.1⟩

/-! ## First order -/

theorem lrDc_eq (W : ℤ → Vec k ns) (il iu : ℤ) (o : Out k ns) (j : ℤ) :
    (lrDc W il iu o).Wl j = (if il ≤ j ∧ j ≤ iu + 1 then W (j - 1) else o.Wl j) ∧
    (lrDc W il iu o).Wr j = (if il ≤ j ∧ j ≤ iu + 1 then W j else o.Wr j) := by
  unfold lrDc
  by_cases h : il ≤ iu + 1 + 1
  · have := forLoop_ind il (fun i (o : Out k ns) => (⟨upd o.Wl i (W (i - 1)), upd o.Wr i (W i)⟩ : Out k ns)) o
      (fun i o' => ∀ j, o'.Wl j = (if il ≤ j ∧ j < i then W (j - 1) else o.Wl j) ∧ o'.Wr j = if il ≤ j ∧ j < i then W j else o.Wr j)
      (fun j => by rw [if_neg (by omega), if_neg (by omega)]; exact ⟨rfl, rfl⟩)
      (fun i s hi ih j => by
        unfold upd; dsimp only
        by_cases e : j = i
        · subst e; rw [if_pos rfl, if_pos rfl, if_pos (by omega), if_pos (by omega)]; exact ⟨rfl, rfl⟩
        · rw [if_neg e, if_neg e, (ih j).1, (ih j).2]
          by_cases c : il ≤ j ∧ j < i
          · rw [if_pos c, if_pos (by omega), if_pos c, if_pos (by omega)]; exact ⟨rfl, rfl⟩
          · rw [if_neg c, if_neg (by omega), if_neg c, if_neg (by omega)]; exact ⟨rfl, rfl⟩) (iu + 1) h j
    rw [this.1, this.2]
    by_cases c : il ≤ j ∧ j ≤ iu + 1
    · rw [if_pos (by omega), if_pos c, if_pos (by omega), if_pos c]; exact ⟨rfl, rfl⟩
    · rw [if_neg (by omega), if_neg c, if_neg (by omega), if_neg c]; exact ⟨rfl, rfl⟩
  · rw [forLoop_empty _ _ _ _ (by omega), if_neg (by omega), if_neg (by omega)]; exact ⟨rfl, rfl⟩

/-- C36: donor-cell states are the adjacent zone values. -/
theorem dc_states (W : ℤ → Vec k ns) (il iu : ℤ) (o : Out k ns) (i : ℤ) (h1 : il ≤ i) (h2 : i ≤ iu + 1) :
    (lrDc W il iu o).Wl i = W (i - 1) ∧ (lrDc W il iu o).Wr i = W i := by
  rw [(lrDc_eq W il iu o i).1, (lrDc_eq W il iu o i).2, if_pos ⟨h1, h2⟩, if_pos ⟨h1, h2⟩]; exact ⟨rfl, rfl⟩

theorem dc_bounded (W : ℤ → Vec k ns) (il iu : ℤ) (o : Out k ns) : Bounded W il iu (lrDc W il iu o) := by
  intro i h1 h2 n
  rw [(dc_states W il iu o i h1 h2).1, (dc_states W il iu o i h1 h2).2]
  exact ⟨between_left _ _, between_right _ _⟩

theorem dc_stencil : StencilL (k := k) (ns := ns) 1 (fun W _ il iu o => lrDc W il iu o) := by
  intro W W' Bxc Bxc' il iu il' iu' o o' i t h1 h2 h3 h4 h
  dsimp only
  rw [(dc_states W il iu o i h1 h2).1, (dc_states W il iu o i h1 h2).2, (dc_states W' il' iu' o' _ h3 h4).1,
    (dc_states W' il' iu' o' _ h3 h4).2, (h i (by omega) (by omega)).1, (h (i - 1) (by omega) (by omega)).1,
    show i - 1 + t = i + t - 1 by ring]
  exact ⟨rfl, rfl⟩

/-! ## Second order, primitive variables -/

/-- `Wlv`, `Wrv` of zone `i` in `lr_states_prim2.c`. -/
def z2 (W : ℤ → Vec k ns) (i : ℤ) : Vec k ns × Vec k ns :=
  (fun n => (prim2Zone (W (i - 1) n) (W i n) (W (i + 1) n)).1, fun n => (prim2Zone (W (i - 1) n) (W i n) (W (i + 1) n)).2)

/-- What `lr_states_prim2.c` stores for zone `i`. -/
def out2 (cf : Cfg) (es : Vec k ns → ℝ → Eig k) (q : ℝ) (W : ℤ → Vec k ns) (Bxc : ℤ → ℝ) (i : ℤ) : Vec k ns × Vec k ns :=
  if cf.ctu then prim2Trace cf.hll q (es (W i) (Bxc i)) (vx (W i)) (z2 W i).1 (z2 W i).2 else ((z2 W i).2, (z2 W i).1)

theorem prim2_states (cf : Cfg) (es : Vec k ns → ℝ → Eig k) (q : ℝ) (W : ℤ → Vec k ns) (Bxc : ℤ → ℝ) (il iu : ℤ) (o : Out k ns) (i : ℤ)
    (h1 : il ≤ i) (h2 : i ≤ iu + 1) : (lrPrim2 cf es q W Bxc il iu o).Wl i = (out2 cf es q W Bxc (i - 1)).1 ∧
      (lrPrim2 cf es q W Bxc il iu o).Wr i = (out2 cf es q W Bxc i).2 := by
  have := forLoop_put (out2 cf es q W Bxc) (il - 1) (iu + 1) o i
  rw [if_pos (by omega), if_pos (by omega)] at this
  exact this

/-- C36: with the van Leer integrator second order primitive reconstruction creates no new extrema. -/
theorem prim2_bounded (cf : Cfg) (hc : cf.ctu = false) (es : Vec k ns → ℝ → Eig k) (q : ℝ) (W : ℤ → Vec k ns) (Bxc : ℤ → ℝ) (il iu : ℤ)
    (o : Out k ns) : Bounded W il iu (lrPrim2 cf es q W Bxc il iu o) := by
  intro i h1 h2 n
  rw [(prim2_states cf es q W Bxc il iu o i h1 h2).1, (prim2_states cf es q W Bxc il iu o i h1 h2).2]
  simp only [out2, hc, Bool.false_eq_true, if_false, z2]
  have a := (prim2Zone_between (W (i - 1 - 1) n) (W (i - 1) n) (W (i - 1 + 1) n)).2
  rw [show i - 1 + 1 = i by ring] at a ⊢
  exact ⟨a, ((prim2Zone_between (W (i - 1) n) (W i n) (W (i + 1) n)).1).symm⟩

/-- C36: the linear profile in every zone is centred on the zone's value. -/
theorem prim2_mean (cf : Cfg) (hc : cf.ctu = false) (es : Vec k ns → ℝ → Eig k) (q : ℝ) (W : ℤ → Vec k ns) (Bxc : ℤ → ℝ) (il iu : ℤ)
    (o : Out k ns) (i : ℤ) (h1 : il ≤ i) (h2 : i ≤ iu) (n) :
    ((lrPrim2 cf es q W Bxc il iu o).Wr i n + (lrPrim2 cf es q W Bxc il iu o).Wl (i + 1) n) / 2 = W i n := by
  rw [(prim2_states cf es q W Bxc il iu o i h1 (by omega)).2, (prim2_states cf es q W Bxc il iu o (i + 1) (by omega) (by omega)).1]
  simp only [out2, hc, Bool.false_eq_true, if_false, z2, show i + 1 - 1 = i by ring]
  exact prim2Zone_mean _ _ _

/-- C36: a linear profile is reproduced exactly. -/
theorem prim2_linear (cf : Cfg) (hc : cf.ctu = false) (es : Vec k ns → ℝ → Eig k) (q : ℝ) (W : ℤ → Vec k ns) (Bxc : ℤ → ℝ) (il iu : ℤ)
    (o : Out k ns) (i : ℤ) (h1 : il ≤ i) (h2 : i ≤ iu + 1) (n) (c s : ℝ) (hW : ∀ j, i - 2 ≤ j → j ≤ i + 1 → W j n = c + s * j) :
    (lrPrim2 cf es q W Bxc il iu o).Wl i n = c + s * (i - 1/2) ∧ (lrPrim2 cf es q W Bxc il iu o).Wr i n = c + s * (i - 1/2) := by
  rw [(prim2_states cf es q W Bxc il iu o i h1 h2).1, (prim2_states cf es q W Bxc il iu o i h1 h2).2]
  simp only [out2, hc, Bool.false_eq_true, if_false, z2]
  have key : ∀ j, i - 1 ≤ j → j ≤ i → prim2Zone (W (j - 1) n) (W j n) (W (j + 1) n) = (c + s * (j - 1/2), c + s * (j + 1/2)) := by
    intro j hj1 hj2
    rw [hW _ (by omega) (by omega), hW _ (by omega) (by omega), hW _ (by omega) (by omega)]
    unfold prim2Zone
    push_cast
    rw [show c + s * ((j : ℝ) + 1) - (c + s * ((j : ℝ) - 1)) = 2 * s by ring, show c + s * (j : ℝ) - (c + s * ((j : ℝ) - 1)) = s by ring,
      show c + s * ((j : ℝ) + 1) - (c + s * (j : ℝ)) = s by ring, limit_linear]
    rw [clip_id, clip_id]
    · simp only [Prod.mk.injEq]; constructor <;> ring
    · rw [show c + s * (j : ℝ) + 1/2 * s = (c + s * (j : ℝ)) + 1/2 * ((c + s * ((j : ℝ) + 1)) - (c + s * (j : ℝ))) by ring]
      exact between_lerp (by norm_num) (by norm_num)
    · rw [show c + s * (j : ℝ) - 1/2 * s = (c + s * (j : ℝ)) + 1/2 * ((c + s * ((j : ℝ) - 1)) - (c + s * (j : ℝ))) by ring]
      exact between_lerp (by norm_num) (by norm_num)
  rw [key (i - 1) (by omega) (by omega), key i (by omega) (by omega)]
  push_cast
  constructor <;> ring

theorem waves_zero (E : Eig k) (sel : ℝ → Prop) [DecidablePred sel] (x : Fin (k + 4) → Fin (k + 4) → ℝ) (hx : ∀ n m, x n m = 0) (m) :
    waves E sel x m = 0 := by
  unfold waves; simp [hx]

theorem prim2Trace_uniform (hll : Bool) (q : ℝ) (E : Eig k) (v : ℝ) (w : Vec k ns) : prim2Trace hll q E v w w = (w, w) := by
  unfold prim2Trace
  ext n <;> cases n <;> simp [waves_zero]

/-- C36: uniform data are reproduced (both integrators, any eigensystem). -/
theorem prim2_uniform (cf : Cfg) (es : Vec k ns → ℝ → Eig k) (q : ℝ) (W : ℤ → Vec k ns) (Bxc : ℤ → ℝ) (il iu : ℤ) (o : Out k ns) (i : ℤ)
    (h1 : il ≤ i) (h2 : i ≤ iu + 1) (w : Vec k ns) (hW : ∀ j, i - 2 ≤ j → j ≤ i + 1 → W j = w) :
    (lrPrim2 cf es q W Bxc il iu o).Wl i = w ∧ (lrPrim2 cf es q W Bxc il iu o).Wr i = w := by
  rw [(prim2_states cf es q W Bxc il iu o i h1 h2).1, (prim2_states cf es q W Bxc il iu o i h1 h2).2]
  have key : ∀ j, i - 1 ≤ j → j ≤ i → z2 W j = (w, w) := by
    intro j h1 h2
    unfold z2
    rw [hW _ (by omega) (by omega), hW _ (by omega) (by omega), hW _ (by omega) (by omega)]
    simp only [Prod.mk.injEq]
    constructor <;> funext n <;> simp only [prim2Zone, clip_same]
  unfold out2
  rw [key _ (by omega) (by omega), key _ (by omega) (by omega)]
  simp only [prim2Trace_uniform]
  split_ifs <;> exact ⟨rfl, rfl⟩

theorem z2_congr {W W' : ℤ → Vec k ns} {i t : ℤ} (h : ∀ m, i - 1 ≤ m → m ≤ i + 1 → W m = W' (m + t)) : z2 W i = z2 W' (i + t) := by
  unfold z2
  rw [h (i - 1) (by omega) (by omega), h i (by omega) (by omega), h (i + 1) (by omega) (by omega), show i - 1 + t = i + t - 1 by ring,
    show i + 1 + t = i + t + 1 by ring]

/-- C36: the states at an interface depend on the two zones on either side only. -/
theorem prim2_stencil (cf : Cfg) (es : Vec k ns → ℝ → Eig k) (q : ℝ) :
    StencilL (k := k) (ns := ns) 2 (fun W Bxc il iu o => lrPrim2 cf es q W Bxc il iu o) := by
  intro W W' Bxc Bxc' il iu il' iu' o o' i t h1 h2 h3 h4 h
  dsimp only
  rw [(prim2_states cf es q W Bxc il iu o i h1 h2).1, (prim2_states cf es q W Bxc il iu o i h1 h2).2,
    (prim2_states cf es q W' Bxc' il' iu' o' _ h3 h4).1, (prim2_states cf es q W' Bxc' il' iu' o' _ h3 h4).2]
  have key : ∀ j, i - 1 ≤ j → j ≤ i → out2 cf es q W Bxc j = out2 cf es q W' Bxc' (j + t) := by
    intro j h1 h2
    unfold out2
    rw [z2_congr (fun m a b => (h m (by omega) (by omega)).1), (h j (by omega) (by omega)).1, (h j (by omega) (by omega)).2]
  rw [key (i - 1) (by omega) (by omega), key i (by omega) (by omega), show i - 1 + t = i + t - 1 by ring]
  exact ⟨rfl, rfl⟩

/-! ## Characteristic tracing -/

/-- The matrices are inverse to each other. -/
def Eig.Inv (E : Eig k) : Prop := ∀ m m', ∑ n, E.rem m n * E.lem n m' = if m = m' then 1 else 0

/-- C36: with an HLL-type flux and no wave at rest, the CTU tracing step of `lr_states_prim2.c` advances the interface values by half a time
step of the linearised equations `W_t + A W_x = 0`, `A` being the matrix with the given eigensystem. -/
theorem prim2Trace_hancock (q : ℝ) (E : Eig k) (hE : E.Inv) (h0 : ∀ n, E.ev n ≠ 0) (hlo : E.lo ≤ 0) (hhi : 0 ≤ E.hi) (v : ℝ)
    (Wlv Wrv : Vec k ns) (m : Fin (k + 4)) :
    let AdW := ∑ n, E.ev n * (∑ m', E.lem n m' * (Wrv (Sum.inl m') - Wlv (Sum.inl m'))) * E.rem m n
    (prim2Trace true q E v Wlv Wrv).1 (Sum.inl m) = Wrv (Sum.inl m) - q / 2 * AdW ∧
    (prim2Trace true q E v Wlv Wrv).2 (Sum.inl m) = Wlv (Sum.inl m) - q / 2 * AdW := by
  intro AdW
  have key : ∀ s, waves E (· > 0) (fun n m => 1/2 * q * (s - E.ev n) * (Wrv (Sum.inl m) - Wlv (Sum.inl m))) m +
      waves E (· < 0) (fun n m => 1/2 * q * (s - E.ev n) * (Wrv (Sum.inl m) - Wlv (Sum.inl m))) m =
      1/2 * q * s * (Wrv (Sum.inl m) - Wlv (Sum.inl m)) - q / 2 * AdW := by
    intro s
    unfold waves
    rw [← Finset.sum_add_distrib]
    have e1 : ∀ n, ((if E.ev n > 0 then
          (∑ m', E.lem n m' * (1/2 * q * (s - E.ev n) * (Wrv (Sum.inl m') - Wlv (Sum.inl m')))) * E.rem m n else 0) +
        if E.ev n < 0 then (∑ m', E.lem n m' * (1/2 * q * (s - E.ev n) * (Wrv (Sum.inl m') - Wlv (Sum.inl m')))) * E.rem m n else 0) =
        1/2 * q * s * (∑ m', E.rem m n * E.lem n m' * (Wrv (Sum.inl m') - Wlv (Sum.inl m'))) -
          q / 2 * (E.ev n * (∑ m', E.lem n m' * (Wrv (Sum.inl m') - Wlv (Sum.inl m'))) * E.rem m n) := by
      intro n
      have e : (∑ m', E.lem n m' * (1/2 * q * (s - E.ev n) * (Wrv (Sum.inl m') - Wlv (Sum.inl m')))) * E.rem m n =
          1/2 * q * s * (∑ m', E.rem m n * E.lem n m' * (Wrv (Sum.inl m') - Wlv (Sum.inl m'))) -
          q / 2 * (E.ev n * (∑ m', E.lem n m' * (Wrv (Sum.inl m') - Wlv (Sum.inl m'))) * E.rem m n) := by
        have : ∀ m', E.lem n m' * (1/2 * q * (s - E.ev n) * (Wrv (Sum.inl m') - Wlv (Sum.inl m'))) =
            (1/2 * q * (s - E.ev n)) * (E.lem n m' * (Wrv (Sum.inl m') - Wlv (Sum.inl m'))) := fun m' => by ring
        simp only [this, mul_assoc (E.rem m n), ← Finset.mul_sum]
        ring
      rcases lt_or_gt_of_ne (h0 n) with c | c
      · rw [if_neg (by linarith), if_pos c, zero_add, e]
      · rw [if_pos c, if_neg (by linarith), add_zero, e]
    rw [Finset.sum_congr rfl (fun n _ => e1 n), Finset.sum_sub_distrib, ← Finset.mul_sum, ← Finset.mul_sum, Finset.sum_comm]
    congr 1
    congr 1
    have : ∀ m', ∑ n, E.rem m n * E.lem n m' * (Wrv (Sum.inl m') - Wlv (Sum.inl m')) =
        if m = m' then Wrv (Sum.inl m') - Wlv (Sum.inl m') else 0 := by
      intro m'
      rw [← Finset.sum_mul, hE m m']
      split_ifs <;> simp
    rw [Finset.sum_congr rfl (fun m' _ => this m')]
    simp
  have k1 := key E.hi
  have k2 := key E.lo
  unfold prim2Trace
  simp only [if_true, fmax_eq, fmin_eq, max_eq_left hhi, min_eq_left hlo]
  constructor <;> linarith

section
variable {α : Type} (a b c d e : α)
theorem v5_0 : (![a, b, c, d, e] : Fin 5 → α) 0 = a := rfl
theorem v5_1 : (![a, b, c, d, e] : Fin 5 → α) 1 = b := rfl
theorem v5_2 : (![a, b, c, d, e] : Fin 5 → α) 2 = c := rfl
theorem v5_3 : (![a, b, c, d, e] : Fin 5 → α) 3 = d := rfl
theorem v5_4 : (![a, b, c, d, e] : Fin 5 → α) 4 = e := rfl
end
section
variable {α : Type} (a b c d : α)
theorem v4_0 : (![a, b, c, d] : Fin 4 → α) 0 = a := rfl
theorem v4_1 : (![a, b, c, d] : Fin 4 → α) 1 = b := rfl
theorem v4_2 : (![a, b, c, d] : Fin 4 → α) 2 = c := rfl
theorem v4_3 : (![a, b, c, d] : Fin 4 → α) 3 = d := rfl
end

theorem five (m : Fin 5) : m = 0 ∨ m = 1 ∨ m = 2 ∨ m = 3 ∨ m = 4 := by omega
theorem four (m : Fin 4) : m = 0 ∨ m = 1 ∨ m = 2 ∨ m = 3 := by omega

theorem adb_inv {a d s : ℝ} (ha : a ≠ 0) (hd : d ≠ 0) (hs : s ≠ 0) (m m' : Fin 5) :
    ∑ n, (![![1, 1, 0, 0, 1], ![-a / d, 0, 0, 0, -(-a / d)], ![0, 0, 1, 0, 0], ![0, 0, 0, 1, 0], ![s, 0, 0, 0, s]] : Fin 5 → Fin 5 → ℝ) m n *
      (![![0, -(1/2) * d / a, 0, 0, 1/2 / s], ![1, 0, 0, 0, -1 / s], ![0, 0, 1, 0, 0], ![0, 0, 0, 1, 0],
      ![0, -(-(1/2) * d / a), 0, 0, 1/2 / s]] : Fin 5 → Fin 5 → ℝ) n m' = if m = m' then 1 else 0 := by
  rcases five m with rfl | rfl | rfl | rfl | rfl <;> rcases five m' with rfl | rfl | rfl | rfl | rfl <;>
    (rw [Fin.sum_univ_five]; simp only [v5_0, v5_1, v5_2, v5_3, v5_4]; first | rw [if_pos rfl] | rw [if_pos trivial] | rw [if_neg (by decide)]) <;> (try norm_num) <;> (try field_simp) <;> (try ring)

theorem iso_inv {c d : ℝ} (hc : c ≠ 0) (hd : d ≠ 0) (m m' : Fin 4) :
    ∑ n, (![![1, 0, 0, 1], ![-c / d, 0, 0, c / d], ![0, 1, 0, 0], ![0, 0, 1, 0]] : Fin 4 → Fin 4 → ℝ) m n *
      (![![1/2, -(1/2) * d / c, 0, 0], ![0, 0, 1, 0], ![0, 0, 0, 1], ![1/2, 1/2 * d / c, 0, 0]] : Fin 4 → Fin 4 → ℝ) n m' =
      if m = m' then 1 else 0 := by
  rcases four m with rfl | rfl | rfl | rfl <;> rcases four m' with rfl | rfl | rfl | rfl <;>
    (rw [Fin.sum_univ_four]; simp only [v4_0, v4_1, v4_2, v4_3]; first | rw [if_pos rfl] | rw [if_pos trivial] | rw [if_neg (by decide)]) <;> (try norm_num) <;> (try field_simp) <;> (try ring)

/-- The eigenvectors of `esys_prim_adb_hyd` are inverse to each other. -/
theorem esysAdbHyd_inv {gamma : ℝ} {W : Vec 1 ns} (hd : 0 < W (Sum.inl 0)) (hP : 0 < gamma * W (Sum.inl 4)) : (esysAdbHyd ns gamma W).Inv := by
  have h : 0 < gamma * W (Sum.inl 4) / W (Sum.inl 0) := div_pos hP hd
  exact adb_inv (Real.sqrt_pos.mpr h).ne' hd.ne' h.ne'

theorem esysIsoHyd_inv {cs : ℝ} {W : Vec 0 ns} (hd : 0 < W (Sum.inl 0)) (hc : 0 < cs) : (esysIsoHyd ns cs W).Inv :=
  iso_inv hc.ne' hd.ne'

end
end Athena.Recon
