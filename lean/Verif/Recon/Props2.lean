import Verif.Recon.Props
import Verif.Integr.Vl3

/-!
# Properties of the reconstruction (C36), continued: PLM, third order schemes, CTU tracing; special relativity (C61)
-/

namespace Athena.Recon
noncomputable section
open Athena.Hydro

variable {k ns : ℕ}

/-! ## Second order, characteristic variables -/

/-- `Wlv`, `Wrv` of zone `i` in `lr_states_plm.c`. -/
def zM (es : Vec k ns → ℝ → Eig k) (W : ℤ → Vec k ns) (Bxc : ℤ → ℝ) (i : ℤ) : Vec k ns × Vec k ns :=
  let dWm := charSlope (es (W i) (Bxc i)) (W (i - 1)) (W i) (W (i + 1))
  (fun n => (plmZone (W (i - 1) n) (W i n) (W (i + 1) n) (dWm n)).1, fun n => (plmZone (W (i - 1) n) (W i n) (W (i + 1) n) (dWm n)).2)

/-- What `lr_states_plm.c` stores for zone `i`. -/
def outM (cf : Cfg) (es : Vec k ns → ℝ → Eig k) (q : ℝ) (W : ℤ → Vec k ns) (Bxc : ℤ → ℝ) (i : ℤ) : Vec k ns × Vec k ns :=
  if cf.ctu then plmTrace cf.hll q (es (W i) (Bxc i)) (vx (W i)) (zM es W Bxc i).1 (zM es W Bxc i).2
  else ((zM es W Bxc i).2, (zM es W Bxc i).1)

theorem plm_states (cf : Cfg) (es : Vec k ns → ℝ → Eig k) (q : ℝ) (W : ℤ → Vec k ns) (Bxc : ℤ → ℝ) (il iu : ℤ) (o : Out k ns) (i : ℤ)
    (h1 : il ≤ i) (h2 : i ≤ iu + 1) : (lrPlm cf es q W Bxc il iu o).Wl i = (outM cf es q W Bxc (i - 1)).1 ∧
      (lrPlm cf es q W Bxc il iu o).Wr i = (outM cf es q W Bxc i).2 := by
  have := forLoop_put (outM cf es q W Bxc) (il - 1) (iu + 1) o i
  rw [if_pos (by omega), if_pos (by omega)] at this
  exact this

/-- C36: with the van Leer integrator PLM creates no new extrema, whatever the eigensystem. -/
theorem plm_bounded (cf : Cfg) (hc : cf.ctu = false) (es : Vec k ns → ℝ → Eig k) (q : ℝ) (W : ℤ → Vec k ns) (Bxc : ℤ → ℝ) (il iu : ℤ)
    (o : Out k ns) : Bounded W il iu (lrPlm cf es q W Bxc il iu o) := by
  intro i h1 h2 n
  rw [(plm_states cf es q W Bxc il iu o i h1 h2).1, (plm_states cf es q W Bxc il iu o i h1 h2).2]
  simp only [outM, hc, Bool.false_eq_true, if_false, zM]
  have a := (plmZone_between (W (i - 1 - 1) n) (W (i - 1) n) (W (i - 1 + 1) n)
    (charSlope (es (W (i - 1)) (Bxc (i - 1))) (W (i - 1 - 1)) (W (i - 1)) (W (i - 1 + 1)) n)).2
  rw [show i - 1 + 1 = i by ring] at a ⊢
  exact ⟨a, ((plmZone_between _ _ _ _).1).symm⟩

/-- C36: the profile in a zone is centred on the zone's value. -/
theorem plm_mean (cf : Cfg) (hc : cf.ctu = false) (es : Vec k ns → ℝ → Eig k) (q : ℝ) (W : ℤ → Vec k ns) (Bxc : ℤ → ℝ) (il iu : ℤ)
    (o : Out k ns) (i : ℤ) (h1 : il ≤ i) (h2 : i ≤ iu) (n) :
    ((lrPlm cf es q W Bxc il iu o).Wr i n + (lrPlm cf es q W Bxc il iu o).Wl (i + 1) n) / 2 = W i n := by
  rw [(plm_states cf es q W Bxc il iu o i h1 (by omega)).2, (plm_states cf es q W Bxc il iu o (i + 1) (by omega) (by omega)).1]
  simp only [outM, hc, Bool.false_eq_true, if_false, zM, show i + 1 - 1 = i by ring]
  exact plmZone_mean _ _ _ _

theorem vanLeer_self (s : ℝ) : vanLeer s s = s := by
  unfold vanLeer
  by_cases h : s * s > 0
  · rw [if_pos h]
    have hs : s ≠ 0 := by rintro rfl; simp at h
    field_simp; ring
  · rw [if_neg h]
    exact (mul_self_eq_zero.mp (le_antisymm (not_lt.mp h) (mul_self_nonneg s))).symm

theorem limit_lin (s : ℝ) : limit (2 * s) s s s = s := by
  have := limit_linear s; rwa [vanLeer_self] at this

/-- With a complete eigensystem the characteristic slopes of linear data are exact. -/
theorem charSlope_linear (E : Eig k) (hE : E.Inv) (a s : Vec k ns) :
    charSlope E a (fun n => a n + s n) (fun n => a n + 2 * s n) = s := by
  unfold charSlope
  funext n
  have e1 : ∀ n, a n + 2 * s n - a n = 2 * s n := fun n => by ring
  have e2 : ∀ n, a n + s n - a n = s n := fun n => by ring
  have e3 : ∀ n, a n + 2 * s n - (a n + s n) = s n := fun n => by ring
  simp only [e1, e2, e3, vanLeer_self]
  have e4 : ∀ m, ∑ m', E.lem m m' * (2 * s (Sum.inl m')) = 2 * ∑ m', E.lem m m' * s (Sum.inl m') := by
    intro m; rw [Finset.mul_sum]; exact Finset.sum_congr rfl (fun _ _ => by ring)
  cases n with
  | inl n =>
    simp only [e4, limit_lin]
    have : ∀ m, (∑ m', E.lem m m' * s (Sum.inl m')) * E.rem n m = ∑ m', E.rem n m * E.lem m m' * s (Sum.inl m') := by
      intro m; rw [Finset.sum_mul]; exact Finset.sum_congr rfl (fun _ _ => by ring)
    rw [Finset.sum_congr rfl (fun m _ => this m), Finset.sum_comm]
    have : ∀ m', ∑ m, E.rem n m * E.lem m m' * s (Sum.inl m') = if n = m' then s (Sum.inl m') else 0 := by
      intro m'
      rw [← Finset.sum_mul, hE n m']; split_ifs <;> simp
    rw [Finset.sum_congr rfl (fun m' _ => this m')]
    simp
  | inr n => simp only [limit_lin]

/-- C36: linear data (all variables) are reproduced exactly by PLM when the left and right eigenvectors are inverse to each other. -/
theorem plm_linear (cf : Cfg) (hc : cf.ctu = false) (es : Vec k ns → ℝ → Eig k) (q : ℝ) (W : ℤ → Vec k ns) (Bxc : ℤ → ℝ) (il iu : ℤ)
    (o : Out k ns) (i : ℤ) (h1 : il ≤ i) (h2 : i ≤ iu + 1) (c s : Vec k ns) (hE : ∀ j, i - 1 ≤ j → j ≤ i → (es (W j) (Bxc j)).Inv)
    (hW : ∀ j, i - 2 ≤ j → j ≤ i + 1 → W j = fun n => c n + s n * j) (n) :
    (lrPlm cf es q W Bxc il iu o).Wl i n = c n + s n * (i - 1/2) ∧ (lrPlm cf es q W Bxc il iu o).Wr i n = c n + s n * (i - 1/2) := by
  rw [(plm_states cf es q W Bxc il iu o i h1 h2).1, (plm_states cf es q W Bxc il iu o i h1 h2).2]
  simp only [outM, hc, Bool.false_eq_true, if_false]
  have key : ∀ j, i - 1 ≤ j → j ≤ i → zM es W Bxc j = (fun n => c n + s n * (j - 1/2), fun n => c n + s n * (j + 1/2)) := by
    intro j hj1 hj2
    have hs : charSlope (es (W j) (Bxc j)) (W (j - 1)) (W j) (W (j + 1)) = s := by
      have e := charSlope_linear (es (W j) (Bxc j)) (hE j hj1 hj2) (W (j - 1)) s
      have ej : W j = fun n => W (j - 1) n + s n := by
        rw [hW j (by omega) (by omega), hW (j - 1) (by omega) (by omega)]; funext n; push_cast; ring
      have ej' : W (j + 1) = fun n => W (j - 1) n + 2 * s n := by
        rw [hW (j + 1) (by omega) (by omega), hW (j - 1) (by omega) (by omega)]; funext n; push_cast; ring
      rw [← ej, ← ej'] at e
      exact e
    unfold zM
    rw [hs, hW _ (by omega) (by omega), hW _ (by omega) (by omega), hW _ (by omega) (by omega)]
    simp only [Prod.mk.injEq]
    have : ∀ n, plmZone (c n + s n * ((j - 1 : ℤ) : ℝ)) (c n + s n * (j : ℝ)) (c n + s n * ((j + 1 : ℤ) : ℝ)) (s n) =
        (c n + s n * (j - 1/2), c n + s n * (j + 1/2)) := by
      intro n
      push_cast
      unfold plmZone
      dsimp only
      have b1 : Between (c n + s n * (j : ℝ)) (c n + s n * ((j : ℝ) - 1)) (c n + s n * (j : ℝ) - 1/2 * s n) := by
        rw [show c n + s n * (j : ℝ) - 1/2 * s n = (c n + s n * (j : ℝ)) + 1/2 * ((c n + s n * ((j : ℝ) - 1)) - (c n + s n * (j : ℝ))) by ring]
        exact between_lerp (by norm_num) (by norm_num)
      rw [clip_id b1]
      have b2 : Between (c n + s n * (j : ℝ)) (c n + s n * ((j : ℝ) + 1))
          (c n + s n * (j : ℝ) + 1/2 * s n + (c n + s n * (j : ℝ) - 1/2 * s n) - (c n + s n * (j : ℝ) - 1/2 * s n)) := by
        rw [show c n + s n * (j : ℝ) + 1/2 * s n + (c n + s n * (j : ℝ) - 1/2 * s n) - (c n + s n * (j : ℝ) - 1/2 * s n) =
          (c n + s n * (j : ℝ)) + 1/2 * ((c n + s n * ((j : ℝ) + 1)) - (c n + s n * (j : ℝ))) by ring]
        exact between_lerp (by norm_num) (by norm_num)
      rw [clip_id b2]
      simp only [Prod.mk.injEq]
      constructor <;> ring
    constructor <;> funext n <;> rw [this n]
  rw [key (i - 1) (by omega) (by omega), key i (by omega) (by omega)]
  dsimp only
  push_cast
  constructor <;> ring

theorem plmTrace_uniform (hll : Bool) (q : ℝ) (E : Eig k) (v : ℝ) (w : Vec k ns) : plmTrace hll q E v w w = (w, w) := by
  unfold plmTrace
  ext n <;> cases n <;> simp [waves_zero]

theorem plmZone_same (b m : ℝ) : plmZone b b b m = (b, b) := by
  unfold plmZone
  simp only [clip_same, Prod.mk.injEq, and_true]
  ring

/-- C36: uniform data are reproduced (both integrators, any eigensystem). -/
theorem plm_uniform (cf : Cfg) (es : Vec k ns → ℝ → Eig k) (q : ℝ) (W : ℤ → Vec k ns) (Bxc : ℤ → ℝ) (il iu : ℤ) (o : Out k ns) (i : ℤ)
    (h1 : il ≤ i) (h2 : i ≤ iu + 1) (w : Vec k ns) (hW : ∀ j, i - 2 ≤ j → j ≤ i + 1 → W j = w) :
    (lrPlm cf es q W Bxc il iu o).Wl i = w ∧ (lrPlm cf es q W Bxc il iu o).Wr i = w := by
  rw [(plm_states cf es q W Bxc il iu o i h1 h2).1, (plm_states cf es q W Bxc il iu o i h1 h2).2]
  have key : ∀ j, i - 1 ≤ j → j ≤ i → zM es W Bxc j = (w, w) := by
    intro j h1 h2
    unfold zM
    rw [hW _ (by omega) (by omega), hW _ (by omega) (by omega), hW _ (by omega) (by omega)]
    simp only [plmZone_same]
  unfold outM
  rw [key _ (by omega) (by omega), key _ (by omega) (by omega)]
  simp only [plmTrace_uniform]
  split_ifs <;> exact ⟨rfl, rfl⟩

/-- C36: stencil of PLM. -/
theorem plm_stencil (cf : Cfg) (es : Vec k ns → ℝ → Eig k) (q : ℝ) :
    StencilL (k := k) (ns := ns) 2 (fun W Bxc il iu o => lrPlm cf es q W Bxc il iu o) := by
  intro W W' Bxc Bxc' il iu il' iu' o o' i t h1 h2 h3 h4 h
  dsimp only
  rw [(plm_states cf es q W Bxc il iu o i h1 h2).1, (plm_states cf es q W Bxc il iu o i h1 h2).2,
    (plm_states cf es q W' Bxc' il' iu' o' _ h3 h4).1, (plm_states cf es q W' Bxc' il' iu' o' _ h3 h4).2]
  have key : ∀ j, i - 1 ≤ j → j ≤ i → outM cf es q W Bxc j = outM cf es q W' Bxc' (j + t) := by
    intro j h1 h2
    unfold outM zM
    rw [(h j (by omega) (by omega)).1, (h j (by omega) (by omega)).2, (h (j - 1) (by omega) (by omega)).1,
      (h (j + 1) (by omega) (by omega)).1, show j - 1 + t = j + t - 1 by ring, show j + 1 + t = j + t + 1 by ring]
  rw [key (i - 1) (by omega) (by omega), key i (by omega) (by omega), show i - 1 + t = i + t - 1 by ring]
  exact ⟨rfl, rfl⟩

theorem waves_congr (E : Eig k) (p p' : ℝ → Prop) [DecidablePred p] [DecidablePred p'] (x x' : Fin (k + 4) → Fin (k + 4) → ℝ)
    (hp : ∀ n, p (E.ev n) ↔ p' (E.ev n)) (hx : ∀ n m, x n m = x' n m) (m) : waves E p x m = waves E p' x' m := by
  unfold waves
  refine Finset.sum_congr rfl (fun n _ => ?_)
  by_cases h : p (E.ev n)
  · rw [if_pos h, if_pos ((hp n).mp h)]; simp only [hx]
  · rw [if_neg h, if_neg (fun c => h ((hp n).mpr c))]

/-- Without waves at rest the tracing steps of PLM and of `lr_states_prim2.c` agree. -/
theorem plmTrace_eq (hll : Bool) (q : ℝ) (E : Eig k) (h0 : ∀ n, E.ev n ≠ 0) (v : ℝ) (Wlv Wrv : Vec k ns) :
    plmTrace hll q E v Wlv Wrv = prim2Trace hll q E v Wlv Wrv := by
  have ge : ∀ n, E.ev n ≥ 0 ↔ E.ev n > 0 := fun n => ⟨fun h => lt_of_le_of_ne h (h0 n).symm, le_of_lt⟩
  have le : ∀ n, E.ev n ≤ 0 ↔ E.ev n < 0 := fun n => ⟨fun h => lt_of_le_of_ne h (h0 n), le_of_lt⟩
  unfold plmTrace prim2Trace
  simp only [Prod.mk.injEq]
  constructor
  · funext n
    cases n with
    | inl m =>
      dsimp only
      congr 1
      · congr 1; exact waves_congr E _ _ _ _ ge (fun n m => by ring) m
      · cases hll
        · rfl
        · simp only [if_true]; exact waves_congr E _ _ _ _ le (fun n m => by ring) m
    | inr s => dsimp only; split_ifs <;> ring
  · funext n
    cases n with
    | inl m =>
      dsimp only
      congr 1
      · congr 1; exact waves_congr E _ _ _ _ le (fun n m => by ring) m
      · cases hll
        · rfl
        · simp only [if_true]; exact waves_congr E _ _ _ _ ge (fun n m => by ring) m
    | inr s => dsimp only; split_ifs <;> ring

/-- C36: half a time step of the linearised equations, PLM. -/
theorem plmTrace_hancock (q : ℝ) (E : Eig k) (hE : E.Inv) (h0 : ∀ n, E.ev n ≠ 0) (hlo : E.lo ≤ 0) (hhi : 0 ≤ E.hi) (v : ℝ)
    (Wlv Wrv : Vec k ns) (m : Fin (k + 4)) :
    let AdW := ∑ n, E.ev n * (∑ m', E.lem n m' * (Wrv (Sum.inl m') - Wlv (Sum.inl m'))) * E.rem m n
    (plmTrace true q E v Wlv Wrv).1 (Sum.inl m) = Wrv (Sum.inl m) - q / 2 * AdW ∧
    (plmTrace true q E v Wlv Wrv).2 (Sum.inl m) = Wlv (Sum.inl m) - q / 2 * AdW := by
  rw [plmTrace_eq true q E h0]
  exact prim2Trace_hancock q E hE h0 hlo hhi v Wlv Wrv m

/-! ### Scalars under CTU -/

/-- Under the CFL condition the traced scalars lie between the edge value and the zone value. -/
theorem trace_scalar (q : ℝ) (hq : 0 ≤ q) (E : Eig k) (v : ℝ) (hlo : E.lo ≤ v) (hhi : v ≤ E.hi) (cflr : E.hi * q ≤ 1) (cfll : -E.lo * q ≤ 1)
    (hll : Bool) (Wlv Wrv : Vec k ns) (s : Fin ns) :
    (∃ t, 0 ≤ t ∧ t ≤ 1/2 ∧ (prim2Trace hll q E v Wlv Wrv).1 (Sum.inr s) = Wrv (Sum.inr s) - t * (Wrv (Sum.inr s) - Wlv (Sum.inr s)) ∧
      (plmTrace hll q E v Wlv Wrv).1 (Sum.inr s) = Wrv (Sum.inr s) - t * (Wrv (Sum.inr s) - Wlv (Sum.inr s))) ∧
    (∃ t, 0 ≤ t ∧ t ≤ 1/2 ∧ (prim2Trace hll q E v Wlv Wrv).2 (Sum.inr s) = Wlv (Sum.inr s) + t * (Wrv (Sum.inr s) - Wlv (Sum.inr s)) ∧
      (plmTrace hll q E v Wlv Wrv).2 (Sum.inr s) = Wlv (Sum.inr s) + t * (Wrv (Sum.inr s) - Wlv (Sum.inr s))) := by
  unfold prim2Trace plmTrace
  simp only [fmax_eq, fmin_eq]
  constructor
  · by_cases hv : v > 0
    · refine ⟨1/2 * v * q, by positivity, by nlinarith, ?_, ?_⟩ <;> rw [if_pos hv, max_eq_left (by linarith)] <;> ring
    · refine ⟨1/2 * max E.hi 0 * q, by positivity, ?_, ?_, ?_⟩
      · rcases le_total E.hi 0 with h | h
        · rw [max_eq_right h]; norm_num
        · rw [max_eq_left h]; linarith
      all_goals rw [if_neg hv]
  · by_cases hv : v > 0
    · refine ⟨-(1/2) * min E.lo 0 * q, ?_, ?_, ?_, ?_⟩
      · have := min_le_right E.lo 0; nlinarith
      · rcases le_total E.lo 0 with h | h
        · rw [min_eq_left h]; linarith
        · rw [min_eq_right h]; norm_num
      all_goals rw [if_pos hv]
    · by_cases hv' : v < 0
      · refine ⟨-(1/2) * v * q, by nlinarith, by nlinarith, ?_, ?_⟩ <;> rw [if_neg hv, if_pos hv', min_eq_left (by linarith)] <;> ring
      · refine ⟨-(1/2) * min E.lo 0 * q, ?_, ?_, ?_, ?_⟩
        · have := min_le_right E.lo 0; nlinarith
        · rcases le_total E.lo 0 with h | h
          · rw [min_eq_left h]; linarith
          · rw [min_eq_right h]; norm_num
        all_goals rw [if_neg hv, if_neg hv']

/-- A zone's eigenvalues bracket its velocity and satisfy the CFL condition. -/
structure Cfl (E : Eig k) (v q : ℝ) : Prop where
  lo : E.lo ≤ v
  hi : v ≤ E.hi
  right : E.hi * q ≤ 1
  left : -E.lo * q ≤ 1

theorem between_mid {b c wl wr t : ℝ} (hm : (wl + wr) / 2 = b) (hc : Between b c wr) (h0 : 0 ≤ t) (h1 : t ≤ 1/2) :
    Between b c (wr - t * (wr - wl)) := by
  have e : wr - t * (wr - wl) = wr + 2 * t * (b - wr) := by rw [← hm]; ring
  rw [e]
  unfold Between at *
  rcases le_total b c with h | h
  · rw [min_eq_left h, max_eq_right h] at *; constructor <;> nlinarith
  · rw [min_eq_right h, max_eq_left h] at *; constructor <;> nlinarith

/-- C36 (CTU): passive scalars create no new extrema under the CFL condition, `lr_states_prim2.c`. -/
theorem prim2_ctu_scalars (cf : Cfg) (es : Vec k ns → ℝ → Eig k) (q : ℝ) (hq : 0 ≤ q) (W : ℤ → Vec k ns) (Bxc : ℤ → ℝ) (il iu : ℤ)
    (o : Out k ns) (hC : ∀ j, Cfl (es (W j) (Bxc j)) (vx (W j)) q) (i : ℤ) (h1 : il ≤ i) (h2 : i ≤ iu + 1) (s : Fin ns) :
    Between (W (i - 1) (Sum.inr s)) (W i (Sum.inr s)) ((lrPrim2 cf es q W Bxc il iu o).Wl i (Sum.inr s)) ∧
    Between (W (i - 1) (Sum.inr s)) (W i (Sum.inr s)) ((lrPrim2 cf es q W Bxc il iu o).Wr i (Sum.inr s)) := by
  cases hc : cf.ctu with
  | false => exact prim2_bounded cf hc es q W Bxc il iu o i h1 h2 _
  | true =>
    rw [(prim2_states cf es q W Bxc il iu o i h1 h2).1, (prim2_states cf es q W Bxc il iu o i h1 h2).2]
    simp only [out2, hc, if_true]
    obtain ⟨⟨t, t0, t1, e, -⟩, -⟩ := trace_scalar q hq (es (W (i - 1)) (Bxc (i - 1))) (vx (W (i - 1))) (hC (i - 1)).lo (hC (i - 1)).hi
      (hC (i - 1)).right (hC (i - 1)).left cf.hll (z2 W (i - 1)).1 (z2 W (i - 1)).2 s
    obtain ⟨-, ⟨u, u0, u1, e', -⟩⟩ := trace_scalar q hq (es (W i) (Bxc i)) (vx (W i)) (hC i).lo (hC i).hi
      (hC i).right (hC i).left cf.hll (z2 W i).1 (z2 W i).2 s
    rw [e, e']
    constructor
    · have b := (prim2Zone_between (W (i - 1 - 1) (Sum.inr s)) (W (i - 1) (Sum.inr s)) (W (i - 1 + 1) (Sum.inr s))).2
      have m := prim2Zone_mean (W (i - 1 - 1) (Sum.inr s)) (W (i - 1) (Sum.inr s)) (W (i - 1 + 1) (Sum.inr s))
      have := between_mid m b t0 t1
      conv => arg 2; rw [show i = i - 1 + 1 by ring]
      exact this
    · have b := (prim2Zone_between (W (i - 1) (Sum.inr s)) (W i (Sum.inr s)) (W (i + 1) (Sum.inr s))).1
      have m := prim2Zone_mean (W (i - 1) (Sum.inr s)) (W i (Sum.inr s)) (W (i + 1) (Sum.inr s))
      rw [add_comm] at m
      have := between_mid m b u0 u1
      refine (show ((z2 W i).1 (Sum.inr s) + u * ((z2 W i).2 (Sum.inr s) - (z2 W i).1 (Sum.inr s))) =
        (z2 W i).1 (Sum.inr s) - u * ((z2 W i).1 (Sum.inr s) - (z2 W i).2 (Sum.inr s)) by ring) ▸ this.symm

/-- C36 (CTU): passive scalars create no new extrema under the CFL condition, `lr_states_plm.c`. -/
theorem plm_ctu_scalars (cf : Cfg) (es : Vec k ns → ℝ → Eig k) (q : ℝ) (hq : 0 ≤ q) (W : ℤ → Vec k ns) (Bxc : ℤ → ℝ) (il iu : ℤ)
    (o : Out k ns) (hC : ∀ j, Cfl (es (W j) (Bxc j)) (vx (W j)) q) (i : ℤ) (h1 : il ≤ i) (h2 : i ≤ iu + 1) (s : Fin ns) :
    Between (W (i - 1) (Sum.inr s)) (W i (Sum.inr s)) ((lrPlm cf es q W Bxc il iu o).Wl i (Sum.inr s)) ∧
    Between (W (i - 1) (Sum.inr s)) (W i (Sum.inr s)) ((lrPlm cf es q W Bxc il iu o).Wr i (Sum.inr s)) := by
  cases hc : cf.ctu with
  | false => exact plm_bounded cf hc es q W Bxc il iu o i h1 h2 _
  | true =>
    rw [(plm_states cf es q W Bxc il iu o i h1 h2).1, (plm_states cf es q W Bxc il iu o i h1 h2).2]
    simp only [outM, hc, if_true]
    obtain ⟨⟨t, t0, t1, -, e⟩, -⟩ := trace_scalar q hq (es (W (i - 1)) (Bxc (i - 1))) (vx (W (i - 1))) (hC (i - 1)).lo (hC (i - 1)).hi
      (hC (i - 1)).right (hC (i - 1)).left cf.hll (zM es W Bxc (i - 1)).1 (zM es W Bxc (i - 1)).2 s
    obtain ⟨-, ⟨u, u0, u1, -, e'⟩⟩ := trace_scalar q hq (es (W i) (Bxc i)) (vx (W i)) (hC i).lo (hC i).hi
      (hC i).right (hC i).left cf.hll (zM es W Bxc i).1 (zM es W Bxc i).2 s
    rw [e, e']
    constructor
    · have b := (plmZone_between (W (i - 1 - 1) (Sum.inr s)) (W (i - 1) (Sum.inr s)) (W (i - 1 + 1) (Sum.inr s))
        (charSlope (es (W (i - 1)) (Bxc (i - 1))) (W (i - 1 - 1)) (W (i - 1)) (W (i - 1 + 1)) (Sum.inr s))).2
      have m := plmZone_mean (W (i - 1 - 1) (Sum.inr s)) (W (i - 1) (Sum.inr s)) (W (i - 1 + 1) (Sum.inr s))
        (charSlope (es (W (i - 1)) (Bxc (i - 1))) (W (i - 1 - 1)) (W (i - 1)) (W (i - 1 + 1)) (Sum.inr s))
      have := between_mid m b t0 t1
      conv => arg 2; rw [show i = i - 1 + 1 by ring]
      exact this
    · have b := (plmZone_between (W (i - 1) (Sum.inr s)) (W i (Sum.inr s)) (W (i + 1) (Sum.inr s))
        (charSlope (es (W i) (Bxc i)) (W (i - 1)) (W i) (W (i + 1)) (Sum.inr s))).1
      have m := plmZone_mean (W (i - 1) (Sum.inr s)) (W i (Sum.inr s)) (W (i + 1) (Sum.inr s))
        (charSlope (es (W i) (Bxc i)) (W (i - 1)) (W i) (W (i + 1)) (Sum.inr s))
      rw [add_comm] at m
      have := between_mid m b u0 u1
      refine (show ((zM es W Bxc i).1 (Sum.inr s) + u * ((zM es W Bxc i).2 (Sum.inr s) - (zM es W Bxc i).1 (Sum.inr s))) =
        (zM es W Bxc i).1 (Sum.inr s) - u * ((zM es W Bxc i).1 (Sum.inr s) - (zM es W Bxc i).2 (Sum.inr s)) by ring) ▸ this.symm

end
end Athena.Recon
