import Verif.Recon.ScaleEs
import Verif.Hydro.HlleMirror

/-!
# C130, C131: the conversions and the HLLE flux in other units

Densities are multiplied by `k²`, speeds by `v`, fields by `k v`, hence momenta by `k² v` and energies and pressures by `k² v²`; the
fluxes have another factor `v`.  `k` may be negative: the field is then reversed.
-/

namespace Athena.Hydro
noncomputable section
open Athena.Recon (bind_sc fdiv_sc fsqrt_sc sqrt_sc fmax_sp fmin_sp)
variable {ns : ℕ}

def Cons1D.un (k v : ℝ) (U : Cons1D ns) : Cons1D ns :=
  ⟨k * k * U.d, k * k * v * U.Mx, k * k * v * U.My, k * k * v * U.Mz, k * k * (v * v) * U.E, k * v * U.By, k * v * U.Bz, fun n => k * k * U.s n⟩
def Prim1D.un (k v : ℝ) (W : Prim1D ns) : Prim1D ns :=
  ⟨k * k * W.d, v * W.Vx, v * W.Vy, v * W.Vz, k * k * (v * v) * W.P, k * v * W.By, k * v * W.Bz, W.r⟩
def Cons1D.fl (k v : ℝ) (U : Cons1D ns) : Cons1D ns :=
  ⟨k * k * v * U.d, k * k * (v * v) * U.Mx, k * k * (v * v) * U.My, k * k * (v * v) * U.Mz, k * k * (v * v * v) * U.E, k * (v * v) * U.By,
    k * (v * v) * U.Bz, fun n => k * k * v * U.s n⟩
/-- The constants in other units, with the floor as given. -/
def Phys.un (p : Phys) (v tiny : ℝ) : Phys := { p with cs2 := v * v * p.cs2, tiny := tiny }

/-- The floor `TINY_NUMBER` does not distinguish the units: there is none, or the unit of density is the same.  (It is used as a pressure
and as the square of a speed.) -/
def FloorOk (p : Phys) (k v tiny : ℝ) : Prop :=
  p.iso = true ∨ (tiny = v * v * p.tiny ∧ (k * k = 1 ∨ p.tiny = 0))

variable {p : Phys} {k v tiny : ℝ}

theorem un_iso : (p.un v tiny).iso = p.iso := by cases p; rfl
theorem un_mhd : (p.un v tiny).mhd = p.mhd := by cases p; rfl
theorem un_gamma : (p.un v tiny).gamma = p.gamma := by cases p; rfl
theorem un_cs2 : (p.un v tiny).cs2 = v * v * p.cs2 := by cases p; rfl
theorem un_tiny : (p.un v tiny).tiny = tiny := by cases p; rfl

theorem floor_p (h : FloorOk p k v tiny) (hi : p.iso = false) : tiny = k * k * (v * v) * p.tiny := by
  rcases h with h | ⟨h1, h2 | h2⟩
  · simp [hi] at h
  · rw [h1, h2, one_mul]
  · rw [h1, h2]; ring
theorem floor_v (h : FloorOk p k v tiny) (hi : p.iso = false) : tiny = v * v * p.tiny := by
  rcases h with h | ⟨h1, -⟩
  · simp [hi] at h
  · exact h1

theorem c2p_un (hk : k ≠ 0) (hv : 0 < v) (ht : FloorOk p k v tiny) (U : Cons1D ns) (Bx : ℝ) :
    cons1DToPrim1D (p.un v tiny) (U.un k v) (k * v * Bx) = (cons1DToPrim1D p U Bx).map (Prim1D.un k v) := by
  have hkk : 0 < k * k := mul_self_pos.mpr hk
  unfold cons1DToPrim1D
  simp only [Option.bind_eq_bind]
  refine bind_sc (g := fun t => 1 / (k * k) * t) (by
    simp only [Cons1D.un]; rw [show (1 : ℝ) = 1 * 1 by ring, fdiv_sc hkk.ne']; simp) fun di _ => ?_
  simp only [Option.pure_def, Option.map_some, Prim1D.un, un_iso, un_mhd, un_gamma, un_cs2, un_tiny, Cons1D.un, Phys.gamma1, Option.some.injEq, Prim1D.mk.injEq]
  refine ⟨trivial, by field_simp, by field_simp, by field_simp, ?_, by split_ifs <;> simp, by split_ifs <;> simp, ?_⟩
  · cases hi : p.iso
    · simp only [Bool.false_eq_true, if_false]
      rw [floor_p ht hi, ← fmax_sp (mul_pos hkk (mul_pos hv hv))]
      congr 1
      cases p.mhd <;> simp only [Bool.false_eq_true, if_false, if_true] <;> field_simp
    · simp
  · funext n; field_simp

theorem p2c_do (W : Prim1D ns) (Bx : ℝ) : prim1DToCons1D p W Bx =
    (if p.iso then some 0 else (fdiv W.P p.gamma1).bind fun e =>
      some (if p.mhd then e + 1/2 * W.d * (W.Vx * W.Vx + W.Vy * W.Vy + W.Vz * W.Vz) + 1/2 * (Bx * Bx + W.By * W.By + W.Bz * W.Bz)
        else e + 1/2 * W.d * (W.Vx * W.Vx + W.Vy * W.Vy + W.Vz * W.Vz))).bind fun E =>
    some ⟨W.d, W.d * W.Vx, W.d * W.Vy, W.d * W.Vz, E, if p.mhd then W.By else 0, if p.mhd then W.Bz else 0, fun n => W.r n * W.d⟩ := by
  unfold prim1DToCons1D
  cases p.iso <;> simp [Option.bind_assoc]

theorem p2c_un (hk : k ≠ 0) (hv : 0 < v) (W : Prim1D ns) (Bx : ℝ) :
    prim1DToCons1D (p.un v tiny) (W.un k v) (k * v * Bx) = (prim1DToCons1D p W Bx).map (Cons1D.un k v) := by
  rw [p2c_do, p2c_do]
  refine bind_sc (g := fun t => k * k * (v * v) * t) ?_ fun E _ => ?_
  · simp only [un_iso, un_mhd, un_gamma, un_cs2, un_tiny, Phys.gamma1]
    cases p.iso
    · simp only [Bool.false_eq_true, if_false]
      refine bind_sc (g := fun t => k * k * (v * v) * t) (by
        simp only [Prim1D.un]
        have := fdiv_sc (one_ne_zero (α := ℝ)) (x := k * k * (v * v)) W.P (p.gamma - 1)
        rwa [one_mul, div_one] at this) fun e _ => ?_
      simp only [Option.pure_def, Option.map_some, Prim1D.un, Option.some.injEq]
      cases p.mhd <;> simp only [Bool.false_eq_true, if_false, if_true] <;> ring
    · simp
  · simp only [Option.pure_def, Option.map_some, Prim1D.un, Cons1D.un, un_iso, un_mhd, un_gamma, un_cs2, un_tiny, Option.some.injEq, Cons1D.mk.injEq]
    refine ⟨trivial, by ring, by ring, by ring, trivial, by split_ifs <;> simp, by split_ifs <;> simp, ?_⟩
    funext n; ring

/-- The Roe averages in other units. -/
def Roe.un (k v : ℝ) (r : Roe) : Roe :=
  ⟨k * k * r.d, v * r.v1, v * r.v2, v * r.v3, v * v * r.h, k * v * r.b2, k * v * r.b3, v * v * r.x, r.y⟩

theorem magP_un (W : Prim1D ns) (Bx : ℝ) : magP (p.un v tiny) (W.un k v) (k * v * Bx) = k * k * (v * v) * magP p W Bx := by
  simp only [magP, un_iso, un_mhd, un_gamma, un_cs2, un_tiny, Prim1D.un, sqr]
  split_ifs <;> ring

theorem roeAvg_do (Ul Ur : Cons1D ns) (Wl Wr : Prim1D ns) (Bx : ℝ) : roeAvg p Ul Ur Wl Wr Bx =
    (fsqrt Wl.d).bind fun sl => (fsqrt Wr.d).bind fun sr => (fdiv 1 (sl + sr)).bind fun i =>
    (if p.mhd then fdiv (1/2 * (sqr (Wl.By - Wr.By) + sqr (Wl.Bz - Wr.Bz))) (sqr (sl + sr)) else some 0).bind fun x =>
    (if p.mhd then fdiv (1/2 * (Wl.d + Wr.d)) (sl * sr) else some 0).bind fun y =>
    (if p.iso then some 0 else (fdiv (Ul.E + Wl.P + magP p Wl Bx) sl).bind fun a => (fdiv (Ur.E + Wr.P + magP p Wr Bx) sr).bind fun b =>
      some ((a + b) * i)).bind fun h =>
    some ⟨sl * sr, (sl * Wl.Vx + sr * Wr.Vx) * i, (sl * Wl.Vy + sr * Wr.Vy) * i, (sl * Wl.Vz + sr * Wr.Vz) * i, h,
      if p.mhd then (sr * Wl.By + sl * Wr.By) * i else 0, if p.mhd then (sr * Wl.Bz + sl * Wr.Bz) * i else 0, x, y⟩ := by
  unfold roeAvg
  cases p.mhd <;> cases p.iso <;> simp [Option.bind_assoc]

theorem roeAvg_un (hk : k ≠ 0) (hv : 0 < v) (Ul Ur : Cons1D ns) (Wl Wr : Prim1D ns) (Bx : ℝ) :
    roeAvg (p.un v tiny) (Ul.un k v) (Ur.un k v) (Wl.un k v) (Wr.un k v) (k * v * Bx) = (roeAvg p Ul Ur Wl Wr Bx).map (Roe.un k v) := by
  obtain ⟨a, ha, haa⟩ : ∃ a : ℝ, 0 < a ∧ k * k = a * a := ⟨|k|, abs_pos.mpr hk, (abs_mul_abs_self k).symm⟩
  have ha' := ha.ne'
  have hv' := hv.ne'
  have hsq : ∀ d : ℝ, fsqrt (k * k * d) = (fsqrt d).map fun t => a * t := fun d => by rw [haa, fsqrt_sc ha]
  rw [roeAvg_do, roeAvg_do]
  simp only [magP_un]
  refine bind_sc (hsq _) fun sl _ => ?_
  refine bind_sc (hsq _) fun sr _ => ?_
  rw [← mul_add]
  refine bind_sc (g := fun t => 1 / a * t) (by rw [show (1 : ℝ) = 1 * 1 by ring, fdiv_sc ha']; simp) fun i _ => ?_
  refine bind_sc (g := fun t => v * v * t) ?_ fun x _ => ?_
  · simp only [un_iso, un_mhd, un_gamma, un_cs2, un_tiny, Prim1D.un]
    cases p.mhd
    · simp
    · simp only [if_true]
      rw [show 1/2 * (sqr (k * v * Wl.By - k * v * Wr.By) + sqr (k * v * Wl.Bz - k * v * Wr.Bz)) = k * k * (v * v) * (1/2 * (sqr (Wl.By - Wr.By) + sqr (Wl.Bz - Wr.Bz))) by
          simp only [sqr]; ring,
        show sqr (a * (sl + sr)) = a * a * sqr (sl + sr) by simp only [sqr]; ring, fdiv_sc (mul_ne_zero ha' ha'), haa]
      congr 1
      funext t
      rw [mul_div_cancel_left₀ _ (mul_ne_zero ha' ha')]
  refine bind_sc (g := fun t => t) ?_ fun y _ => ?_
  · simp only [un_iso, un_mhd, un_gamma, un_cs2, un_tiny, Prim1D.un]
    cases p.mhd
    · simp
    · simp only [if_true]
      rw [show 1/2 * (k * k * Wl.d + k * k * Wr.d) = k * k * (1/2 * (Wl.d + Wr.d)) by ring, show a * sl * (a * sr) = a * a * (sl * sr) by ring,
        fdiv_sc (mul_ne_zero ha' ha'), haa]
      congr 1
      funext t
      rw [div_self (mul_ne_zero ha' ha'), one_mul]
  refine bind_sc (g := fun t => v * v * t) ?_ fun h _ => ?_
  · simp only [un_iso, un_mhd, un_gamma, un_cs2, un_tiny, Prim1D.un, Cons1D.un]
    cases p.iso
    · simp only [Bool.false_eq_true, if_false]
      have e : ∀ E P m s : ℝ, fdiv (k * k * (v * v) * E + k * k * (v * v) * P + k * k * (v * v) * m) (a * s) = (fdiv (E + P + m) s).map fun t => a * (v * v) * t := by
        intro E P m s
        rw [show k * k * (v * v) * E + k * k * (v * v) * P + k * k * (v * v) * m = k * k * (v * v) * (E + P + m) by ring, fdiv_sc ha', haa]
        congr 1
        funext t
        field_simp
      refine bind_sc (e _ _ _ _) fun A _ => ?_
      refine bind_sc (e _ _ _ _) fun B _ => ?_
      simp only [Option.pure_def, Option.map_some, Option.some.injEq]
      field_simp
    · simp
  simp only [Option.pure_def, Option.map_some, Roe.un, Option.some.injEq, Roe.mk.injEq, un_iso, un_mhd, un_gamma, un_cs2, un_tiny, Prim1D.un]
  refine ⟨by rw [haa]; ring, by field_simp, by field_simp, by field_simp, trivial, ?_, ?_, trivial, trivial⟩
  · cases p.mhd <;> simp only [Bool.false_eq_true, if_false, if_true] <;> field_simp
    simp
  · cases p.mhd <;> simp only [Bool.false_eq_true, if_false, if_true] <;> field_simp
    simp

theorem cs_un (hv : 0 < v) : (p.un v tiny).cs = v * p.cs := by
  simp only [Phys.cs, un_cs2]; exact sqrt_sc hv _

theorem roeC_un (hk : k ≠ 0) (hv : 0 < v) (ht : FloorOk p k v tiny) (r : Roe) (Bx : ℝ) :
    roeC (p.un v tiny) (r.un k v) (k * v * Bx) = (roeC p r Bx).map fun c => v * c := by
  have hkk : 0 < k * k := mul_self_pos.mpr hk
  have hvv := mul_pos hv hv
  have g1 : (p.un v tiny).gamma1 = p.gamma1 := rfl
  have g2 : (p.un v tiny).gamma2 = p.gamma2 := rfl
  unfold roeC
  simp only [g1, g2, cs_un hv, Option.bind_eq_bind]
  simp only [un_iso, un_mhd, un_gamma, un_cs2, un_tiny, Roe.un]
  cases p.mhd
  · simp only [Bool.false_eq_true, if_false]
    cases hi : p.iso
    · simp only [Bool.false_eq_true, if_false]
      rw [floor_v ht hi, show v * v * r.h - 1/2 * (v * r.v1 * (v * r.v1) + v * r.v2 * (v * r.v2) + v * r.v3 * (v * r.v3)) =
        v * v * (r.h - 1/2 * (r.v1 * r.v1 + r.v2 * r.v2 + r.v3 * r.v3)) by ring, fmax_sp hvv,
        show ∀ z, p.gamma1 * (v * v * z) = v * v * (p.gamma1 * z) from fun z => by ring, fsqrt_sc hv]
    · simp
  · simp only [if_true]
    refine bind_sc (g := fun t => 1 / (k * k) * t) (by rw [show (1 : ℝ) = 1 * 1 by ring, fdiv_sc hkk.ne']; simp) fun di _ => ?_
    have e1 : k * v * Bx * (k * v * Bx) * (1 / (k * k) * di) = v * v * (Bx * Bx * di) := by field_simp
    have e2 : k * v * r.b2 * (k * v * r.b2) + k * v * r.b3 * (k * v * r.b3) = k * k * (v * v) * (r.b2 * r.b2 + r.b3 * r.b3) := by ring
    have e3 : ∀ z, k * k * (v * v) * z * (1 / (k * k) * di) = v * v * (z * di) := fun z => by field_simp
    rw [e1, e2]
    generalize Bx * Bx * di = A
    generalize r.b2 * r.b2 + r.b3 * r.b3 = B
    have e4 : (if p.iso = true then k * k * (v * v) * B * r.y else (p.gamma1 - p.gamma2 * r.y) * (k * k * (v * v) * B)) =
        k * k * (v * v) * (if p.iso = true then B * r.y else (p.gamma1 - p.gamma2 * r.y) * B) := by split_ifs <;> ring
    have e5 : (if p.iso = true then v * v * p.cs2 + v * v * r.x else fmax (p.gamma1 * (v * v * r.h - (v * v * A + k * k * (v * v) * B * (1 / (k * k) * di)) - 1/2 * (v * r.v1 * (v * r.v1) + v * r.v2 * (v * r.v2) + v * r.v3 * (v * r.v3))) - p.gamma2 * (v * v * r.x)) tiny) =
        v * v * (if p.iso = true then p.cs2 + r.x else fmax (p.gamma1 * (r.h - (A + B * di) - 1/2 * (r.v1 * r.v1 + r.v2 * r.v2 + r.v3 * r.v3)) - p.gamma2 * r.x) p.tiny) := by
      cases hi : p.iso
      · simp only [Bool.false_eq_true, if_false]
        rw [floor_v ht hi, e3, ← fmax_sp hvv]
        congr 1; ring
      · simp only [if_true]; ring
    rw [e4, e5, e3]
    generalize (if p.iso = true then B * r.y else (p.gamma1 - p.gamma2 * r.y) * B) * di = C
    generalize (if p.iso = true then p.cs2 + r.x else fmax (p.gamma1 * (r.h - (A + B * di) - 1/2 * (r.v1 * r.v1 + r.v2 * r.v2 + r.v3 * r.v3)) - p.gamma2 * r.x) p.tiny) = T
    refine bind_sc (g := fun t => v * v * t) (by
      rw [show (v * v * A + v * v * C - v * v * T) * (v * v * A + v * v * C - v * v * T) + 4 * (v * v * T) * (v * v * C) =
        v * v * (v * v) * ((A + C - T) * (A + C - T) + 4 * T * C) by ring, fsqrt_sc hvv]) fun q _ => ?_
    rw [show 1/2 * (v * v * A + v * v * C + v * v * T + v * v * q) = v * v * (1/2 * (A + C + T + q)) by ring, fsqrt_sc hv]

theorem sideC_un (hk : k ≠ 0) (hv : 0 < v) (U : Cons1D ns) (W : Prim1D ns) (Bx : ℝ) :
    sideC (p.un v tiny) (U.un k v) (W.un k v) (k * v * Bx) = (sideC p U W Bx).map fun c => v * c := by
  have hkk : 0 < k * k := mul_self_pos.mpr hk
  have hvv := mul_pos hv hv
  have e : ∀ x d : ℝ, fdiv (k * k * (v * v) * x) (k * k * d) = (fdiv x d).map fun t => v * v * t := fun x d => by
    rw [fdiv_sc hkk.ne', mul_div_cancel_left₀ _ hkk.ne']
  unfold sideC
  simp only [Option.bind_eq_bind, un_iso, un_mhd, un_gamma, un_cs2, un_tiny, Cons1D.un, Prim1D.un]
  refine bind_sc (g := fun t => v * v * t) (by
    cases p.iso
    · simp only [Bool.false_eq_true, if_false]
      rw [show p.gamma * (k * k * (v * v) * W.P) = k * k * (v * v) * (p.gamma * W.P) by ring, e]
    · simp) fun T _ => ?_
  refine bind_sc (g := fun t => v * v * t) (by
    cases p.mhd
    · simp
    · simp only [if_true]
      rw [show k * v * Bx * (k * v * Bx) = k * k * (v * v) * (Bx * Bx) by ring, e]) fun A _ => ?_
  refine bind_sc (g := fun t => v * v * t) (by
    cases p.mhd
    · simp
    · simp only [if_true]
      rw [show k * v * U.By * (k * v * U.By) + k * v * U.Bz * (k * v * U.Bz) = k * k * (v * v) * (U.By * U.By + U.Bz * U.Bz) by ring, e]) fun C _ => ?_
  refine bind_sc (g := fun t => v * v * t) (by
    rw [show (v * v * A + v * v * C - v * v * T) * (v * v * A + v * v * C - v * v * T) + 4 * (v * v * T) * (v * v * C) =
      v * v * (v * v) * ((A + C - T) * (A + C - T) + 4 * T * C) by ring, fsqrt_sc hvv]) fun q _ => ?_
  rw [show 1/2 * (v * v * A + v * v * C + v * v * T + v * v * q) = v * v * (1/2 * (A + C + T + q)) by ring, fsqrt_sc hv]

theorem speeds_un (hk : k ≠ 0) (hv : 0 < v) (ht : FloorOk p k v tiny) (Ul Ur : Cons1D ns) (Wl Wr : Prim1D ns) (Bx : ℝ) :
    speeds (p.un v tiny) (Ul.un k v) (Ur.un k v) (Wl.un k v) (Wr.un k v) (k * v * Bx) = (speeds p Ul Ur Wl Wr Bx).map fun a => (v * a.1, v * a.2) := by
  unfold speeds
  simp only [Option.bind_eq_bind]
  refine bind_sc (roeAvg_un hk hv Ul Ur Wl Wr Bx) fun r _ => ?_
  refine bind_sc (roeC_un hk hv ht r Bx) fun c _ => ?_
  refine bind_sc (sideC_un hk hv Ul Wl Bx) fun cl _ => ?_
  refine bind_sc (sideC_un hk hv Ur Wr Bx) fun cr _ => ?_
  simp only [Option.pure_def, Option.map_some, Option.some.injEq, Prod.mk.injEq, Roe.un, Prim1D.un, ← fmin_sp hv, ← fmax_sp hv, mul_sub, mul_add, and_self]

theorem sideFlux_un (U : Cons1D ns) (W : Prim1D ns) (Bx b : ℝ) :
    sideFlux (p.un v tiny) (U.un k v) (W.un k v) (k * v * Bx) (v * b) = (sideFlux p U W Bx b).fl k v := by
  simp only [sideFlux, magP_un]
  cases hi : p.iso <;> cases hm : p.mhd <;>
    simp only [un_iso, un_mhd, un_gamma, un_cs2, un_tiny, Cons1D.un, Cons1D.fl, Prim1D.un, sqr, hi, hm, Bool.false_eq_true, if_true, if_false, Cons1D.mk.injEq] <;>
    refine ⟨?_, ?_, ?_, ?_, ?_, ?_, ?_, ?_⟩ <;> (try funext n) <;> ring

theorem comb_un (f : ℝ → ℝ → ℝ) (hf : ∀ c x y, f (c * x) (c * y) = c * f x y) (F G : Cons1D ns) :
    comb (p.un v tiny) f (F.fl k v) (G.fl k v) = (comb p f F G).fl k v := by
  simp only [comb, Cons1D.fl, un_iso, un_mhd, un_gamma, un_cs2, un_tiny, hf, Cons1D.mk.injEq]
  refine ⟨trivial, trivial, trivial, trivial, ?_, ?_, ?_, ?_⟩
  · split_ifs <;> simp
  · split_ifs <;> simp
  · split_ifs <;> simp
  · funext n; simp

theorem scalars_un (hk : k ≠ 0) (hv : 0 < v) (Wl Wr : Prim1D ns) (F : Cons1D ns) :
    scalars (Wl.un k v) (Wr.un k v) (F.fl k v) = (scalars Wl Wr F).fl k v := by
  have h : 0 < k * k * v := mul_pos (mul_self_pos.mpr hk) hv
  simp only [scalars, Cons1D.fl, Prim1D.un, Cons1D.mk.injEq, true_and]
  funext n
  simp only [ge_iff_le, mul_nonneg_iff_of_pos_left h]
  split_ifs <;> ring

/-- C130: the HLLE flux in other units. -/
theorem hlle_un (hk : k ≠ 0) (hv : 0 < v) (ht : FloorOk p k v tiny) (Ul Ur : Cons1D ns) (Wl Wr : Prim1D ns) (Bx : ℝ) :
    hlle (p.un v tiny) (Ul.un k v) (Ur.un k v) (Wl.un k v) (Wr.un k v) (k * v * Bx) = (hlle p Ul Ur Wl Wr Bx).map (Cons1D.fl k v) := by
  unfold hlle
  simp only [Option.bind_eq_bind]
  refine bind_sc (speeds_un hk hv ht Ul Ur Wl Wr Bx) fun a _ => ?_
  obtain ⟨al, ar⟩ := a
  dsimp only
  have e1 : fmax (v * ar) 0 = v * fmax ar 0 := by rw [← fmax_sp hv, mul_zero]
  have e2 : fmin (v * al) 0 = v * fmin al 0 := by rw [← fmin_sp hv, mul_zero]
  rw [e1, e2]
  refine bind_sc (g := fun t => t) (by
    rw [show 1/2 * (v * fmax ar 0 + v * fmin al 0) = v * (1/2 * (fmax ar 0 + fmin al 0)) by ring, ← mul_sub, fdiv_sc hv.ne', div_self hv.ne']
    simp only [one_mul]) fun tmp _ => ?_
  simp only [Option.pure_def, Option.map_some, sideFlux_un, Option.some.injEq]
  rw [comb_un _ (fun c x y => by ring), scalars_un hk hv]

end
end Athena.Hydro
