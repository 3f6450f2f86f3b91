import Verif.Smr.Pro
import Mathlib.Tactic.NormNum
import Mathlib.Tactic.LinearCombination
import Mathlib.Tactic.Positivity
import Mathlib.Tactic.SplitIfs
import Mathlib.Data.Rat.Defs

/-!
# C30, C31: prolongation of conserved variables and of the face-centred field
-/

namespace Athena.Smr

variable {R : Type*} [Field R] [LinearOrder R] [IsStrictOrderedRing R] {ns : Nat}

/-! ## The limited slope -/

/-- The slope moves a quarter (or half) zone by at most half the difference to either neighbour. -/
theorem mcdSlope_bounds (a c b : R) :
    (0 < mcdSlope a c b → a < c ∧ c < b ∧ mcdSlope a c b ≤ 2*(c - a) ∧ mcdSlope a c b ≤ 2*(b - c)) ∧
    (mcdSlope a c b < 0 → c < a ∧ b < c ∧ 2*(c - a) ≤ mcdSlope a c b ∧ 2*(b - c) ≤ mcdSlope a c b) := by
  unfold mcdSlope
  dsimp only
  by_cases h1 : 0 < c - a ∧ 0 < b - c
  · rw [if_pos h1]
    obtain ⟨h1, h2⟩ := h1
    constructor <;> intro _ <;> split_ifs at * <;> refine ⟨?_, ?_, ?_, ?_⟩ <;> linarith
  · rw [if_neg h1]
    by_cases h2 : c - a < 0 ∧ b - c < 0
    · rw [if_pos h2]
      obtain ⟨h2, h3⟩ := h2
      constructor <;> intro _ <;> split_ifs at * <;> refine ⟨?_, ?_, ?_, ?_⟩ <;> linarith
    · rw [if_neg h2]
      simp

/-- On a linear profile the slope is exact. -/
theorem mcdSlope_linear (c q : R) : mcdSlope (c - q) c (c + q) = q := by
  unfold mcdSlope
  dsimp only
  rcases lt_trichotomy q 0 with h | h | h
  · rw [if_neg (by intro hh; linarith [hh.1]), if_pos ⟨by linarith, by linarith⟩]
    split_ifs <;> linarith
  · subst h; simp
  · rw [if_pos ⟨by linarith, by linarith⟩]
    split_ifs <;> linarith

theorem mcdSlope_uniform (c : R) : mcdSlope c c c = 0 := by simp [mcdSlope]

theorem slope_uniform (cf : ProCfg) (c : R) : slope cf c c c = 0 := by
  unfold slope; split_ifs <;> simp [mcdSlope_uniform]

omit [LinearOrder R] [IsStrictOrderedRing R] in
theorem off_zero : (off 0 : R) = -(1/4) := by simp [off]

omit [LinearOrder R] in
theorem off_one [LinearOrder R] [IsStrictOrderedRing R] : (off 1 : R) = 1/4 := by
  simp [off]; norm_num

/-- Half of the one-sided differences bounds the displacement in one direction. -/
theorem off_slope_bounds (cf : ProCfg) (a c b : R) (i : Fin 2) :
    1/2*(min c (min a b) - c) ≤ off i * slope cf a c b ∧
    off i * slope cf a c b ≤ 1/2*(max c (max a b) - c) := by
  have hi : (off i : R) = -(1/4) ∨ (off i : R) = 1/4 := by
    rcases (by omega : i = 0 ∨ i = 1) with rfl | rfl
    · left; exact off_zero
    · right; exact off_one
  obtain ⟨h1, h2⟩ := mcdSlope_bounds a c b
  have m1 : min c (min a b) ≤ c := min_le_left _ _
  have m2 : min c (min a b) ≤ a := (min_le_right _ _).trans (min_le_left _ _)
  have m3 : min c (min a b) ≤ b := (min_le_right _ _).trans (min_le_right _ _)
  have n1 : c ≤ max c (max a b) := le_max_left _ _
  have n2 : a ≤ max c (max a b) := (le_max_left _ _).trans (le_max_right _ _)
  have n3 : b ≤ max c (max a b) := (le_max_right _ _).trans (le_max_right _ _)
  unfold slope
  split_ifs
  · simp only [mul_zero]; constructor <;> linarith
  · rcases lt_trichotomy (mcdSlope a c b) 0 with h | h | h
    · obtain ⟨p1, p2, p3, p4⟩ := h2 h
      rcases hi with hi | hi <;> rw [hi] <;> constructor <;> linarith
    · rw [h]; simp only [mul_zero]; constructor <;> linarith
    · obtain ⟨p1, p2, p3, p4⟩ := h1 h
      rcases hi with hi | hi <;> rw [hi] <;> constructor <;> linarith

/-! ## Specification: what C30 says about one variable -/

/-- `f k j i` are eight fine values whose average is `c`. -/
def AvgIs (f : Fin 2 → Fin 2 → Fin 2 → R) (c : R) : Prop :=
  (f 0 0 0 + f 0 0 1 + f 0 1 0 + f 0 1 1 + f 1 0 0 + f 1 0 1 + f 1 1 0 + f 1 1 1) / 8 = c

/-- The quantities prolongated independently: density, momenta, field components, scalars. -/
inductive Sel (ns : Nat) where
  | d | m1 | m2 | m3 | b1 | b2 | b3
  | s (n : Fin ns)

/-- The value of a selected quantity. -/
def Sel.get (v : Sel ns) (u : ConsS R ns) : R :=
  match v with
  | .d => u.d | .m1 => u.m1 | .m2 => u.m2 | .m3 => u.m3
  | .b1 => u.b1 | .b2 => u.b2 | .b3 => u.b3 | .s n => u.s n

omit [IsStrictOrderedRing R] in
/-- Every selected quantity is either copied in all eight zones or interpolated in all eight. -/
theorem proCon_get (cf : ProCfg) (bad : ConsS R ns → Bool) (a c b d e f g : ConsS R ns) (v : Sel ns) :
    (∀ k j i, v.get (proCon cf bad a c b d e f g k j i) = v.get c) ∨
    (∀ k j i, v.get (proCon cf bad a c b d e f g k j i) =
      proVar cf (v.get a) (v.get c) (v.get b) (v.get d) (v.get e) (v.get f) (v.get g) k j i) := by
  unfold proCon
  by_cases h : cf.firstOrder
  · left; intros; rw [if_pos h]
  · simp only [if_neg h]
    split_ifs with h2
    · left; intros; trivial
    · right; intros; cases v <;> rfl

theorem proVar_avg (cf : ProCfg) (a c b d e f g : R) : AvgIs (proVar cf a c b d e f g) c := by
  unfold AvgIs proVar
  rw [off_zero, off_one]
  ring

/-- **C30, conservation.**  The eight fine values of density, momenta, cell-centred field and scalars
average to the coarse value, for every stencil, every order and every SR fallback test. -/
theorem proCon_conserves (cf : ProCfg) (bad : ConsS R ns → Bool) (a c b d e f g : ConsS R ns)
    (v : Sel ns) :
    AvgIs (fun k j i => v.get (proCon cf bad a c b d e f g k j i)) (v.get c) := by
  rcases proCon_get cf bad a c b d e f g v with h | h
  · simp only [AvgIs, h]; ring
  · simp only [h]; exact proVar_avg cf _ _ _ _ _ _ _

/-- In a run with fewer dimensions the neighbours in the missing directions are copies of the zone
itself (src/smr.c, Prolongate); then the four values (2D, any plane `k`) or the two values (1D) average
to the coarse value too. -/
theorem proCon_conserves_2d1d (cf : ProCfg) (bad : ConsS R ns → Bool) (a c b d e : ConsS R ns)
    (v : Sel ns) (k j : Fin 2) :
    (let f := fun j i => v.get (proCon cf bad a c b d e c c k j i)
     (f 0 0 + f 0 1 + f 1 0 + f 1 1) / 4 = v.get c) ∧
    (let f := fun i => v.get (proCon cf bad a c b c c c c k j i)
     (f 0 + f 1) / 2 = v.get c) := by
  constructor
  · rcases proCon_get cf bad a c b d e c c v with h | h
    · simp only [h]; ring
    · simp only [h, proVar, slope_uniform, off_zero, off_one]; ring
  · rcases proCon_get cf bad a c b c c c c v with h | h
    · simp only [h]; ring
    · simp only [h, proVar, slope_uniform, off_zero, off_one]; ring

/-- **C30, no new extrema along a line.**  With neighbours in one direction only (any one), every fine
value lies between the smallest and the largest of the three coarse values. -/
theorem proCon_range_1d (cf : ProCfg) (bad : ConsS R ns → Bool) (a c b : ConsS R ns) (v : Sel ns)
    (k j i : Fin 2) (u : ConsS R ns)
    (hu : u = proCon cf bad a c b c c c c k j i ∨ u = proCon cf bad c c c a b c c k j i ∨
      u = proCon cf bad c c c c c a b k j i) :
    min (v.get c) (min (v.get a) (v.get b)) ≤ v.get u ∧
    v.get u ≤ max (v.get c) (max (v.get a) (v.get b)) := by
  have m1 := min_le_left (v.get c) (min (v.get a) (v.get b))
  have n1 := le_max_left (v.get c) (max (v.get a) (v.get b))
  rcases hu with rfl | rfl | rfl
  · rcases proCon_get cf bad a c b c c c c v with h | h <;> rw [h]
    · exact ⟨m1, n1⟩
    · have := off_slope_bounds cf (v.get a) (v.get c) (v.get b) i
      simp only [proVar, slope_uniform, mul_zero, add_zero]
      constructor <;> linarith [this.1, this.2]
  · rcases proCon_get cf bad c c c a b c c v with h | h <;> rw [h]
    · exact ⟨m1, n1⟩
    · have := off_slope_bounds cf (v.get a) (v.get c) (v.get b) j
      simp only [proVar, slope_uniform, mul_zero, add_zero]
      constructor <;> linarith [this.1, this.2]
  · rcases proCon_get cf bad c c c c c a b v with h | h <;> rw [h]
    · exact ⟨m1, n1⟩
    · have := off_slope_bounds cf (v.get a) (v.get c) (v.get b) k
      simp only [proVar, slope_uniform, mul_zero, add_zero]
      constructor <;> linarith [this.1, this.2]

/-- **C30, no new extrema in a plane.**  In a 2D run every fine value stays within any interval that
contains the five coarse values used. -/
theorem proCon_range_2d (cf : ProCfg) (bad : ConsS R ns → Bool) (a c b d e : ConsS R ns) (v : Sel ns)
    (lo hi : R) (h : ∀ u ∈ [a, c, b, d, e], lo ≤ v.get u ∧ v.get u ≤ hi) (k j i : Fin 2) :
    lo ≤ v.get (proCon cf bad a c b d e c c k j i) ∧
    v.get (proCon cf bad a c b d e c c k j i) ≤ hi := by
  simp only [List.mem_cons, List.not_mem_nil, or_false, forall_eq_or_imp, forall_eq] at h
  obtain ⟨⟨a1, a2⟩, ⟨c1, c2⟩, ⟨b1, b2⟩, ⟨d1, d2⟩, ⟨e1, e2⟩⟩ := h
  rcases proCon_get cf bad a c b d e c c v with h | h <;> rw [h]
  · exact ⟨c1, c2⟩
  · have h1 := off_slope_bounds cf (v.get a) (v.get c) (v.get b) i
    have h2 := off_slope_bounds cf (v.get d) (v.get c) (v.get e) j
    have q1 : lo ≤ min (v.get c) (min (v.get a) (v.get b)) := le_min c1 (le_min a1 b1)
    have q2 : lo ≤ min (v.get c) (min (v.get d) (v.get e)) := le_min c1 (le_min d1 e1)
    have q3 : max (v.get c) (max (v.get a) (v.get b)) ≤ hi := max_le c2 (max_le a2 b2)
    have q4 : max (v.get c) (max (v.get d) (v.get e)) ≤ hi := max_le c2 (max_le d2 e2)
    simp only [proVar, slope_uniform, mul_zero, add_zero]
    constructor <;> linarith [h1.1, h1.2, h2.1, h2.2]

/-- What does hold in 3D: the displacement is at most 3/2 of the largest difference. -/
theorem proCon_range_3d_partial (cf : ProCfg) (bad : ConsS R ns → Bool) (a c b d e f g : ConsS R ns)
    (v : Sel ns) (lo hi : R) (h : ∀ u ∈ [a, c, b, d, e, f, g], lo ≤ v.get u ∧ v.get u ≤ hi)
    (k j i : Fin 2) :
    v.get c - 3/2*(v.get c - lo) ≤ v.get (proCon cf bad a c b d e f g k j i) ∧
    v.get (proCon cf bad a c b d e f g k j i) ≤ v.get c + 3/2*(hi - v.get c) := by
  simp only [List.mem_cons, List.not_mem_nil, or_false, forall_eq_or_imp, forall_eq] at h
  obtain ⟨⟨a1, a2⟩, ⟨c1, c2⟩, ⟨b1, b2⟩, ⟨d1, d2⟩, ⟨e1, e2⟩, ⟨f1, f2⟩, ⟨g1, g2⟩⟩ := h
  rcases proCon_get cf bad a c b d e f g v with h | h <;> rw [h]
  · constructor <;> linarith
  · have h1 := off_slope_bounds cf (v.get a) (v.get c) (v.get b) i
    have h2 := off_slope_bounds cf (v.get d) (v.get c) (v.get e) j
    have h3 := off_slope_bounds cf (v.get f) (v.get c) (v.get g) k
    have q1 : lo ≤ min (v.get c) (min (v.get a) (v.get b)) := le_min c1 (le_min a1 b1)
    have q2 : lo ≤ min (v.get c) (min (v.get d) (v.get e)) := le_min c1 (le_min d1 e1)
    have q5 : lo ≤ min (v.get c) (min (v.get f) (v.get g)) := le_min c1 (le_min f1 g1)
    have q3 : max (v.get c) (max (v.get a) (v.get b)) ≤ hi := max_le c2 (max_le a2 b2)
    have q4 : max (v.get c) (max (v.get d) (v.get e)) ≤ hi := max_le c2 (max_le d2 e2)
    have q6 : max (v.get c) (max (v.get f) (v.get g)) ≤ hi := max_le c2 (max_le f2 g2)
    simp only [proVar]
    constructor <;> linarith [h1.1, h1.2, h2.1, h2.2, h3.1, h3.2]

/-- A state at rest with density `ρ`, energy `e` and nothing else. -/
def rest (ρ e : R) : ConsS R 0 := ⟨ρ, 0, 0, 0, some e, 0, 0, 0, fun n => n.elim0⟩

/-- **Finding.**  In 3D the three limited slopes add up, and positive coarse densities can be
prolongated to a negative density (the range property does not extend to three directions; 1D and 2D are
`proCon_range_1d`, `proCon_range_2d`). -/
theorem proCon_negative_density_3d_false :
    ∃ a c b : ConsS ℚ 0, 0 < a.d ∧ 0 < c.d ∧ 0 < b.d ∧
      (proCon ⟨false, false, false⟩ (fun _ => false) a c b a b a b 0 0 0).d < 0 := by
  refine ⟨rest (1/100) 1, rest 1 1, rest 4 1, ?_, ?_, ?_, ?_⟩
  · norm_num [rest]
  · norm_num [rest]
  · norm_num [rest]
  · norm_num [rest, proCon, proFluid, proVar, slope, mcdSlope, off]

/-! ### The energy -/

omit [IsStrictOrderedRing R] in
theorem proCon_energy (cf : ProCfg) (hsr : cf.sr = false) (h1 : cf.firstOrder = false)
    (bad : ConsS R ns → Bool) (a c b d e f g : ConsS R ns) (k j i : Fin 2) :
    proCon cf bad a c b d e f g k j i =
      { proFluid cf a c b d e f g k j i with e := proEnergy cf a c b d e f g k j i } := by
  unfold proCon
  rw [if_neg (by simp [h1])]
  simp only [hsr, Bool.false_eq_true, false_and, if_false]

omit [IsStrictOrderedRing R] in
theorem kinE_e (u : ConsS R ns) (x : Option R) : kinE { u with e := x } = kinE u := rfl

omit [IsStrictOrderedRing R] in
theorem magE_e (cf : ProCfg) (u : ConsS R ns) (x : Option R) : magE cf { u with e := x } = magE cf u :=
  rfl

omit [IsStrictOrderedRing R] in
/-- The internal energy of a prolongated state is the interpolated internal energy. -/
theorem proCon_intE (cf : ProCfg) (hsr : cf.sr = false) (h1 : cf.firstOrder = false)
    (bad : ConsS R ns → Bool) (a c b d e f g : ConsS R ns) (k j i : Fin 2)
    {pa pc pb pd pe pf pg : R} (ha : intE cf a = some pa) (hc : intE cf c = some pc)
    (hb : intE cf b = some pb) (hd : intE cf d = some pd) (he : intE cf e = some pe)
    (hf : intE cf f = some pf) (hg : intE cf g = some pg)
    (hden : (proCon cf bad a c b d e f g k j i).d ≠ 0) :
    intE cf (proCon cf bad a c b d e f g k j i) = some (proVar cf pa pc pb pd pe pf pg k j i) := by
  rw [proCon_energy cf hsr h1] at hden ⊢
  have hd' : (proFluid cf a c b d e f g k j i).d ≠ 0 := hden
  have hk : kinE (proFluid cf a c b d e f g k j i) = some
      (1/2 * ((proFluid cf a c b d e f g k j i).m1^2 + (proFluid cf a c b d e f g k j i).m2^2 +
        (proFluid cf a c b d e f g k j i).m3^2) / (proFluid cf a c b d e f g k j i).d) := by
    unfold kinE qdiv; rw [if_neg hd']
  unfold intE
  rw [kinE_e, magE_e, hk]
  simp only [proEnergy, hsr, Bool.false_eq_true, if_false, ha, hc, hb, hd, he, hf, hg, proVarO,
    Option.bind_some, hk, Option.map_some]
  congr 1
  ring

/-- In 1D and 2D runs a positive internal energy (pressure) stays positive, and within the range of the
coarse neighbours, although the total energy is not conserved. -/
theorem proCon_pressure_2d (cf : ProCfg) (hsr : cf.sr = false) (h1 : cf.firstOrder = false)
    (bad : ConsS R ns → Bool) (a c b d e : ConsS R ns) (k j i : Fin 2) (lo hi : R)
    (hρ : ∀ u ∈ [a, c, b, d, e], 0 < u.d)
    (hp : ∀ u ∈ [a, c, b, d, e], ∃ p, intE cf u = some p ∧ lo ≤ p ∧ p ≤ hi) :
    ∃ p, intE cf (proCon cf bad a c b d e c c k j i) = some p ∧ lo ≤ p ∧ p ≤ hi := by
  have hden : (proCon cf bad a c b d e c c k j i).d ≠ 0 := by
    set m := min c.d (min (min a.d b.d) (min d.d e.d)) with hm
    simp only [List.mem_cons, List.not_mem_nil, or_false, forall_eq_or_imp, forall_eq] at hρ
    have m0 : 0 < m := lt_min hρ.2.1 (lt_min (lt_min hρ.1 hρ.2.2.1) (lt_min hρ.2.2.2.1 hρ.2.2.2.2))
    set M := max c.d (max (max a.d b.d) (max d.d e.d)) with hM
    have := (proCon_range_2d cf bad a c b d e Sel.d m M (by
      simp only [List.mem_cons, List.not_mem_nil, or_false, forall_eq_or_imp, forall_eq, Sel.get]
      simp only [hm, hM, min_le_iff, le_max_iff, le_refl, true_or, or_true, and_self]) k j i).1
    simp only [Sel.get] at this
    exact (lt_of_lt_of_le m0 this).ne'
  simp only [List.mem_cons, List.not_mem_nil, or_false, forall_eq_or_imp, forall_eq] at hp
  obtain ⟨⟨pa, ha, a1, a2⟩, ⟨pc, hc, c1, c2⟩, ⟨pb, hb, b1, b2⟩, ⟨pd, hd, d1, d2⟩, ⟨pe, he, e1, e2⟩⟩ := hp
  refine ⟨_, proCon_intE cf hsr h1 bad a c b d e c c k j i ha hc hb hd he hc hc hden, ?_⟩
  have g1 := off_slope_bounds cf pa pc pb i
  have g2 := off_slope_bounds cf pd pc pe j
  have q1 : lo ≤ min pc (min pa pb) := le_min c1 (le_min a1 b1)
  have q2 : lo ≤ min pc (min pd pe) := le_min c1 (le_min d1 e1)
  have q3 : max pc (max pa pb) ≤ hi := max_le c2 (max_le a2 b2)
  have q4 : max pc (max pd pe) ≤ hi := max_le c2 (max_le d2 e2)
  simp only [proVar, slope_uniform, mul_zero, add_zero]
  constructor <;> linarith [g1.1, g1.2, g2.1, g2.2]

/-- **C30, uniform states.**  Eight (seven) equal coarse states with non-zero density are reproduced
exactly, energy included. -/
theorem proCon_uniform (cf : ProCfg) (bad : ConsS R ns → Bool) (c : ConsS R ns) (hd : c.d ≠ 0) (x : R)
    (he : c.e = some x) (k j i : Fin 2) : proCon cf bad c c c c c c c k j i = c := by
  unfold proCon
  by_cases h : cf.firstOrder
  · rw [if_pos h]
  rw [if_neg h]
  dsimp only
  split_ifs with h2
  · rfl
  · have hf : proFluid cf c c c c c c c k j i = { c with e := none } := by
      simp [proFluid, proVar, slope_uniform]
    have hk : kinE { c with e := none } = kinE c := rfl
    have hk2 : kinE c = some (1/2 * (c.m1^2 + c.m2^2 + c.m3^2) / c.d) := by simp [kinE, qdiv, hd]
    have hm : magE cf { c with e := none } = magE cf c := rfl
    have : proEnergy cf c c c c c c c k j i = c.e := by
      unfold proEnergy
      split_ifs
      · simp [proVarO, he, proVar, slope_uniform]
      · rw [hf]
        dsimp only
        rw [hk, hm]
        simp only [intE, he, hk2, Option.bind_some, Option.map_some, proVarO, proVar, slope_uniform,
          mul_zero, add_zero]
        congr 1; ring
    simp only [hf, this]

/-- **Finding (stated in the source as intentional).**  The total energy is not conserved: uniform
density and internal energy, linear velocity; the average of the two fine energies is 81/32, not 80/32. -/
theorem proCon_energy_false : ∃ a c b : ConsS ℚ 0, 0 < a.d ∧ 0 < c.d ∧ 0 < b.d ∧
    (let f := fun k j i => (proCon ⟨false, false, false⟩ (fun _ => false) a c b c c c c k j i).e
     f 0 0 0 = some (73/32) ∧ f 0 0 1 = some (89/32) ∧ c.e = some (5/2)) := by
  refine ⟨⟨1, 0, 0, 0, some 2, 0, 0, 0, fun n => n.elim0⟩, ⟨1, 1, 0, 0, some (5/2), 0, 0, 0, fun n => n.elim0⟩,
    ⟨1, 2, 0, 0, some 4, 0, 0, 0, fun n => n.elim0⟩, ?_, ?_, ?_, ?_, ?_, ?_⟩ <;>
    norm_num [proCon, proFluid, proEnergy, proVarO, intE, kinE, magE, qdiv, proVar, slope, mcdSlope, off]

/-- Concrete instance: a stencil with slopes in all three directions. -/
example : (proCon (R := ℚ) ⟨false, false, false⟩ (fun _ => false) (rest 1 1) (rest 2 1) (rest 3 1)
    (rest 1 1) (rest 4 1) (rest 3 1) (rest 2 1) 1 1 0).d = 17/8 := by
  norm_num [rest, proCon, proFluid, proVar, slope, mcdSlope, off]

/-- Hypotheses of `proCon_pressure_2d` hold for such states. -/
example : (∀ u ∈ [rest (1:ℚ) 1, rest 2 1], 0 < u.d) ∧
    ∀ u ∈ [rest (1:ℚ) 1, rest 2 1], ∃ p, intE ⟨false, false, false⟩ u = some p ∧ 1 ≤ p ∧ p ≤ 1 := by
  constructor <;> simp [rest, intE, kinE, qdiv, magE]

end Athena.Smr
