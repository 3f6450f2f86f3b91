import Verif.Run.Cfl
import Mathlib.Tactic.LinearCombination

/-!
# C130, C131: the time step in other units, and with the magnetic field reversed

Densities are multiplied by `a²`, speeds by `v`, fields by `a v`, lengths by `x`: the time step must be multiplied by `x / v`.
-/

namespace Athena.Run
noncomputable section

/-! ## Specification -/

/-- A zone in other units. -/
def Zone.un (a v : ℝ) (z : Zone) : Zone :=
  ⟨a * a * z.d, fun n => a * a * v * z.m n, a * a * (v * v) * z.e, fun n => a * v * z.bc n, fun n => a * v * z.bi n⟩
/-- The constants of the equation of state in other units. -/
def Eos.un (a v : ℝ) : Eos → Eos
  | .adiabatic g tiny => .adiabatic g (a * a * (v * v) * tiny)
  | .isothermal cs2 => .isothermal (v * v * cs2)
/-- A Grid in other units. -/
def GridV.un (a v x : ℝ) (g : GridV) : GridV :=
  ⟨g.nx, fun n => x * g.dx n, g.zones.map (Zone.un a v), g.parts.map fun p n => v * p n⟩

/-! ## Proof -/

variable {a v x : ℝ}

theorem zv_un (ha : a ≠ 0) (z : Zone) (n : Fin 3) : (z.un a v).v n = v * z.v n := by
  simp only [Zone.v, Zone.un, mul_one_div]
  rw [mul_assoc, mul_div_mul_left _ _ (mul_ne_zero ha ha), mul_div_assoc]
theorem zq_un (ha : a ≠ 0) (z : Zone) : (z.un a v).qsq = v * v * z.qsq := by
  simp only [Zone.qsq, zv_un ha]; ring
theorem zb_un (ha : 0 < a) (hv : 0 < v) (z : Zone) (n : Fin 3) : (z.un a v).b n = a * v * z.b n := by
  simp only [Zone.b, Zone.un]
  rw [← mul_sub, abs_mul, abs_of_pos (mul_pos ha hv), mul_add]
theorem zbsq_un (ha : 0 < a) (hv : 0 < v) (z : Zone) : (z.un a v).bsq = a * a * (v * v) * z.bsq := by
  simp only [Zone.bsq, zb_un ha hv]; ring
theorem inv_un (ha : a ≠ 0) (p d : ℝ) : a * a * (v * v) * p * (1 / (a * a * d)) = v * v * (p * (1 / d)) := by
  rw [mul_one_div, mul_one_div, mul_assoc (a * a), mul_div_mul_left _ _ (mul_ne_zero ha ha), mul_div_assoc]
theorem zasq_un (ha : 0 < a) (hv : 0 < v) (eos : Eos) (mhd : Bool) (z : Zone) :
    (z.un a v).asq (eos.un a v) mhd = v * v * z.asq eos mhd := by
  cases eos with
  | isothermal cs2 => rfl
  | adiabatic g tiny =>
    have hk : 0 ≤ a * a * (v * v) := by positivity
    simp only [Zone.asq, Eos.un, zq_un ha.ne', zbsq_un ha hv]
    have e : (g - 1) * ((z.un a v).e - 1/2 * (z.un a v).d * (v * v * z.qsq) - (if mhd then 1/2 * (a * a * (v * v) * z.bsq) else 0)) =
        a * a * (v * v) * ((g - 1) * (z.e - 1/2 * z.d * z.qsq - (if mhd then 1/2 * z.bsq else 0))) := by
      simp only [Zone.un]; split_ifs <;> ring
    rw [e, ← mul_max_of_nonneg _ _ hk]
    have := inv_un (v := v) ha.ne' (g * max ((g - 1) * (z.e - 1/2 * z.d * z.qsq - (if mhd then 1/2 * z.bsq else 0))) tiny) z.d
    rw [← this]
    simp only [Zone.un]; ring
theorem sqrtV (hv : 0 < v) (y : ℝ) : Real.sqrt (v * v * y) = v * Real.sqrt y := by
  rw [Real.sqrt_mul (mul_self_nonneg v), Real.sqrt_mul_self hv.le]
theorem zcf_un (ha : 0 < a) (hv : 0 < v) (eos : Eos) (mhd : Bool) (z : Zone) (n : Fin 3) :
    (z.un a v).cfsq (eos.un a v) mhd n = v * v * z.cfsq eos mhd n := by
  simp only [Zone.cfsq, zasq_un ha hv, zbsq_un ha hv, zb_un ha hv]
  cases mhd with
  | false => simp
  | true =>
    simp only [if_true]
    have e1 : a * a * (v * v) * z.bsq * (1 / (z.un a v).d) = v * v * (z.bsq * (1 / z.d)) := inv_un ha.ne' _ _
    rw [e1]
    have e2 : 4 * (v * v * z.asq eos true) * (a * v * z.b (transv n).1 * (a * v * z.b (transv n).1) + a * v * z.b (transv n).2 * (a * v * z.b (transv n).2)) *
        (1 / (z.un a v).d) = v * v * (v * v) * (4 * z.asq eos true * (z.b (transv n).1 * z.b (transv n).1 + z.b (transv n).2 * z.b (transv n).2) * (1 / z.d)) := by
      have := inv_un (v := v) ha.ne' (v * v * (4 * z.asq eos true * (z.b (transv n).1 * z.b (transv n).1 + z.b (transv n).2 * z.b (transv n).2))) z.d
      simp only [Zone.un]
      linear_combination this
    rw [e2]
    have e3 : (v * v * (z.bsq * (1 / z.d)) - v * v * z.asq eos true) * (v * v * (z.bsq * (1 / z.d)) - v * v * z.asq eos true) +
        v * v * (v * v) * (4 * z.asq eos true * (z.b (transv n).1 * z.b (transv n).1 + z.b (transv n).2 * z.b (transv n).2) * (1 / z.d)) =
        v * v * (v * v) * ((z.bsq * (1 / z.d) - z.asq eos true) * (z.bsq * (1 / z.d) - z.asq eos true) +
          4 * z.asq eos true * (z.b (transv n).1 * z.b (transv n).1 + z.b (transv n).2 * z.b (transv n).2) * (1 / z.d)) := by ring
    rw [e3, sqrtV (mul_pos hv hv)]
    ring

theorem foldl_max_sc {α β : Type} {s : ℝ} (hs : 0 ≤ s) (m : α → β) (f : α → ℝ) (g : β → ℝ) (h : ∀ z, g (m z) = s * f z) : ∀ (l : List α) (y : ℝ),
    (l.map m).foldl (fun y z => max y (g z)) (s * y) = s * l.foldl (fun y z => max y (f z)) y
  | [], _ => rfl
  | z :: l, y => by
    simp only [List.map_cons, List.foldl_cons, h, ← mul_max_of_nonneg _ _ hs]
    exact foldl_max_sc hs m f g h l _

theorem maxV_un (ha : 0 < a) (hv : 0 < v) (eos : Eos) (mhd : Bool) (V : Fin 3 → ℝ) (g : GridV) (n : Fin 3) :
    maxV (.newton (eos.un a v) mhd) (fun n => v * V n) (g.un a v x) n = v * maxV (.newton eos mhd) V g n := by
  have hz : ∀ z : Zone, |(z.un a v).v n| + Real.sqrt ((z.un a v).cfsq (eos.un a v) mhd n) = v * (|z.v n| + Real.sqrt (z.cfsq eos mhd n)) := by
    intro z
    rw [zv_un ha.ne', zcf_un ha hv, sqrtV hv, abs_mul, abs_of_pos hv]; ring
  by_cases hn : g.nx n > 1
  · simp only [maxV, show (g.un a v x).nx n > 1 from hn, hn, if_true]
    have e := foldl_max_sc hv.le (Zone.un a v) (fun z => |z.v n| + Real.sqrt (z.cfsq eos mhd n))
      (fun z => |z.v n| + Real.sqrt (z.cfsq (eos.un a v) mhd n)) hz g.zones (V n)
    have e' := foldl_max_sc hv.le (fun (p : Fin 3 → ℝ) n => v * p n) (fun p => p n) (fun p => p n) (fun _ => rfl) g.parts
      (g.zones.foldl (fun y z => max y (|z.v n| + Real.sqrt (z.cfsq eos mhd n))) (V n))
    rw [← e'] ; rw [← e]; rfl
  · simp only [maxV, show ¬ (g.un a v x).nx n > 1 from hn, hn, if_false]

theorem gridDti_un (hv : 0 < v) (hx : 0 < x) (V : Fin 3 → ℝ) (g : GridV) (dti : ℝ) :
    gridDti (fun n => v * V n) (g.un a v x) (v / x * dti) = v / x * gridDti V g dti := by
  have hs : 0 ≤ v / x := (div_pos hv hx).le
  have key : ∀ (y : ℝ) (n : Fin 3), (if (g.un a v x).nx n > 1 then max (v / x * y) (v * V n / (g.un a v x).dx n) else v / x * y) =
      v / x * (if g.nx n > 1 then max y (V n / g.dx n) else y) := by
    intro y n
    by_cases hn : g.nx n > 1
    · rw [if_pos hn, if_pos (show (g.un a v x).nx n > 1 from hn), mul_max_of_nonneg _ _ hs, div_mul_div_comm]; rfl
    · rw [if_neg hn, if_neg (show ¬ (g.un a v x).nx n > 1 from hn)]
  simp only [gridDti, List.foldl, key]

/-- **C130.** The inverse of the largest stable time step of a rank, in other units.  (The floor of the pressure is that of the new units.) -/
theorem rankDti_units (ha : 0 < a) (hv : 0 < v) (hx : 0 < x) (eos : Eos) (mhd : Bool) : ∀ (gs : List GridV) (V : Fin 3 → ℝ) (dti : ℝ),
    rankDti (.newton (eos.un a v) mhd) (gs.map (GridV.un a v x)) (fun n => v * V n) (v / x * dti) = v / x * rankDti (.newton eos mhd) gs V dti
  | [], _, _ => rfl
  | g :: gs, V, dti => by
    simp only [rankDti, List.map_cons]
    have e : maxV (.newton (eos.un a v) mhd) (fun n => v * V n) (g.un a v x) = fun n => v * maxV (.newton eos mhd) V g n :=
      funext fun n => maxV_un ha hv eos mhd V g n
    rw [e, gridDti_un hv hx]
    exact rankDti_units ha hv hx eos mhd gs _ _

/-- A Grid of two zones of unequal velocity and field. -/
def exGu : GridV := ⟨![2, 1, 1], ![1, 1, 1], [⟨1, ![1, 0, 0], 9, ![1, 2, 0], ![1, 2, 0]⟩, ⟨2, ![0, 1, 0], 9, ![-1, 1, 1], ![1, 1, 1]⟩], [![1/2, 0, 0]]⟩
/-- The time step of `new_dt` (Courant number over `max_dti`, both starting from 0) for it in CGS-like units. -/
example : rankDti (.newton (.isothermal (1000 * 1000 * 1)) true) [exGu.un 3 1000 7] (fun _ => 1000 * 0) (1000 / 7 * 0) =
    1000 / 7 * rankDti (.newton (.isothermal 1) true) [exGu] (fun _ => 0) 0 :=
  rankDti_units (by norm_num) (by norm_num) (by norm_num) (.isothermal 1) true [exGu] (fun _ => 0) 0

/-! ## The field reversed -/

/-- The zone with the magnetic field reversed. -/
def Zone.rev (z : Zone) : Zone := { z with bc := fun n => -z.bc n, bi := fun n => -z.bi n }
/-- The Grid with the magnetic field reversed. -/
def GridV.rev (g : GridV) : GridV := { g with zones := g.zones.map Zone.rev }

/-- One zone in which the field grows from -3/2 at the left face to -1/2 at the right face. -/
def exGr : GridV := ⟨![2, 1, 1], ![1, 1, 1], [⟨1, ![0, 0, 0], 9, ![-1, 0, 0], ![-3/2, 0, 0]⟩], []⟩

/-- **C131.** The equations of MHD do not distinguish a field from its opposite, but the time step of `new_dt` does: lines 98-103 add
`|Bi - Bc|` to `Bc`, not to `|Bc|`. -/
theorem dt_reverse_false : ¬ ∀ (eos : Eos) (g : GridV) (V : Fin 3 → ℝ) (dti : ℝ),
    rankDti (.newton eos true) [g.rev] V dti = rankDti (.newton eos true) [g] V dti := by
  intro h
  have := h (.isothermal 1) exGr (fun _ => 0) 0
  have s1 : Real.sqrt (9/16) = 3/4 := by rw [show (9:ℝ)/16 = 3/4 * (3/4) by norm_num, Real.sqrt_mul_self (by norm_num)]
  have s2 : Real.sqrt (25/16) = 5/4 := by rw [show (25:ℝ)/16 = 5/4 * (5/4) by norm_num, Real.sqrt_mul_self (by norm_num)]
  have s3 : Real.sqrt (9/4) = 3/2 := by rw [show (9:ℝ)/4 = 3/2 * (3/2) by norm_num, Real.sqrt_mul_self (by norm_num)]
  have a1 : |(-3/2 : ℝ) - -1| = 1/2 := by rw [abs_of_neg (by norm_num)]; norm_num
  have a2 : |-(-3/2 : ℝ) - - -1| = 1/2 := by rw [abs_of_pos (by norm_num)]; norm_num
  have b1 : (⟨1, ![0, 0, 0], 9, ![-1, 0, 0], ![-3/2, 0, 0]⟩ : Zone).cfsq (.isothermal 1) true 0 = 1 := by
    simp only [Zone.cfsq, Zone.asq, Zone.bsq, Zone.b, transv, if_true, Matrix.cons_val_zero, Matrix.cons_val_one, Matrix.cons_val, a1]
    norm_num [s1]
  have b2 : (⟨1, ![0, 0, 0], 9, ![-1, 0, 0], ![-3/2, 0, 0]⟩ : Zone).rev.cfsq (.isothermal 1) true 0 = 9/4 := by
    simp only [Zone.cfsq, Zone.asq, Zone.bsq, Zone.b, Zone.rev, transv, if_true, Matrix.cons_val_zero, Matrix.cons_val_one, Matrix.cons_val, a2]
    norm_num [s2]
  have v1 : ∀ z : Zone, z.m 0 = 0 → z.v 0 = 0 := fun z hz => by simp [Zone.v, hz]
  simp only [rankDti, gridDti, maxV, exGr, GridV.rev, List.foldl, List.map, b1, b2] at this
  rw [v1 _ rfl, v1 _ rfl] at this
  simp [s3] at this
  norm_num at this

/-- **C131.** On a Grid whose face and centre values of the field agree in every zone the time step does not depend on the sign of the field. -/
theorem dt_reverse_partial (eos : Eos) (g : GridV) (V : Fin 3 → ℝ) (dti : ℝ) (hg : ∀ z ∈ g.zones, ∀ n, z.bi n = z.bc n) :
    rankDti (.newton eos true) [g.rev] V dti = rankDti (.newton eos true) [g] V dti := by
  have hb : ∀ z ∈ g.zones, ∀ n, z.rev.b n = -z.b n := by
    intro z hz n
    simp [Zone.b, Zone.rev, hg z hz n]
  have hs : ∀ z ∈ g.zones, z.rev.bsq = z.bsq := fun z hz => by simp only [Zone.bsq, hb z hz, neg_mul_neg]
  have ha : ∀ z ∈ g.zones, z.rev.asq eos true = z.asq eos true := by
    intro z hz
    cases eos with
    | isothermal _ => rfl
    | adiabatic _ _ => simp only [Zone.asq, hs z hz]; rfl
  have hc : ∀ z ∈ g.zones, ∀ n, z.rev.cfsq eos true n = z.cfsq eos true n := by
    intro z hz n
    simp only [Zone.cfsq, hs z hz, ha z hz, hb z hz, neg_mul_neg]; rfl
  have hm : ∀ n, maxV (.newton eos true) V g.rev n = maxV (.newton eos true) V g n := by
    intro n
    have e : ∀ (l : List Zone), (∀ z ∈ l, z ∈ g.zones) → ∀ y : ℝ,
        (l.map Zone.rev).foldl (fun a z => max a (|z.v n| + Real.sqrt (z.cfsq eos true n))) y =
          l.foldl (fun a z => max a (|z.v n| + Real.sqrt (z.cfsq eos true n))) y := by
      intro l
      induction l with
      | nil => intros; rfl
      | cons z l ih =>
        intro hl y
        simp only [List.map_cons, List.foldl_cons, hc z (hl z (by simp))]
        exact ih (fun z hz => hl z (by simp [hz])) _
    simp only [maxV, GridV.rev, e g.zones (fun _ h => h)]
  simp only [rankDti]
  rw [show maxV (.newton eos true) V g.rev = maxV (.newton eos true) V g from funext hm]
  rfl
/-- Its hypothesis is met by a Grid with a field of either sign. -/
example : ∀ z ∈ (⟨![2, 1, 1], ![1, 1, 1], [⟨1, ![0, 0, 0], 9, ![-1, 2, 0], ![-1, 2, 0]⟩], []⟩ : GridV).zones, ∀ n, z.bi n = z.bc n := by
  simp

end
end Athena.Run
