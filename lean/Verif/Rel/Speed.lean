import Verif.Rel.Convert

/-!
The closed-form speed of `speed (coef ..)` is the flow speed.
-/
namespace Athena.Rel

theorem sqrtN_of_nonneg {x : ℝ} (h : 0 ≤ x) : sqrtN x = some √x := by simp [sqrtN, h]

theorem cbrtN_of_nonneg {x : ℝ} (h : 0 ≤ x) : cbrtN x = some (x ^ (1 / 3 : ℝ)) := by
  simp [cbrtN, h]

section
variable {a M D E : ℝ}

/-- The three numbers of Cardano's formula, with the denominators cleared. -/
theorem cardano_numbers (ha : 0 < a) (hM : 0 < M) (hD : 0 < D) :
    let k := coef (1 + a) M (M * M) E D
    let i1 := -k.a2
    let i2 := k.a3 * k.a1 - 4 * k.a0
    let i3 := 4 * k.a2 * k.a0 - k.a1 * k.a1 - k.a3 * k.a3 * k.a0
    let R := (9 * i1 * i2 - 27 * i3 - 2 * (i1 * i1) * i1) / 54
    let S := (3 * i2 - k.a2 * k.a2) / 9
    let Q := a ^ 2 * (M ^ 2 + D ^ 2)
    let c := (1 + a) ^ 2 * E ^ 2 - 4 * a * M ^ 2 - a ^ 2 * D ^ 2
    R = (c ^ 3 + 18 * a ^ 2 * (1 - a) * M ^ 2 * D ^ 2 * c + 54 * a ^ 4 * M ^ 2 * D ^ 4)
        / (27 * Q ^ 3) ∧
      S = -(c ^ 2 + 12 * a ^ 2 * (1 - a) * M ^ 2 * D ^ 2) / (9 * Q ^ 2) ∧
      R * R + S * S * S = 108 * a ^ 4 * M ^ 2 * D ^ 4 *
        (c ^ 3 - (1 - a) ^ 2 * M ^ 2 * c ^ 2 + 18 * a ^ 2 * (1 - a) * M ^ 2 * D ^ 2 * c
          + 27 * a ^ 4 * M ^ 2 * D ^ 4 - 16 * a ^ 2 * (1 - a) ^ 3 * M ^ 4 * D ^ 2)
        / (729 * Q ^ 6) := by
  intro k i1 i2 i3 R S Q c
  have hQ : 0 < Q := by simp only [Q]; positivity
  have hden : (1 + a - 1) * (1 + a - 1) * (M * M + D * D) = Q := by simp only [Q]; ring
  have a3 : k.a3 = -2 * (1 + a) * a * (M * E) / Q := by
    simp only [k, coef, hden]; ring
  have a2 : k.a2 = ((1 + a) ^ 2 * E ^ 2 + 2 * a * M ^ 2 - a ^ 2 * D ^ 2) / Q := by
    simp only [k, coef, hden]; ring
  have a1 : k.a1 = -2 * (1 + a) * (M * E) / Q := by
    simp only [k, coef, hden]; ring
  have a0 : k.a0 = M ^ 2 / Q := by
    simp only [k, coef, hden]; ring
  have hR : R = (c ^ 3 + 18 * a ^ 2 * (1 - a) * M ^ 2 * D ^ 2 * c + 54 * a ^ 4 * M ^ 2 * D ^ 4)
        / (27 * Q ^ 3) := by
    simp only [R, i1, i2, i3, a3, a2, a1, a0]
    rw [eq_div_iff (by positivity)]
    have hq : Q = a ^ 2 * (M ^ 2 + D ^ 2) := rfl
    field_simp
    rw [hq]
    simp only [c]
    ring
  have hS : S = -(c ^ 2 + 12 * a ^ 2 * (1 - a) * M ^ 2 * D ^ 2) / (9 * Q ^ 2) := by
    simp only [S, i2, a3, a2, a1, a0]
    have hq : Q = a ^ 2 * (M ^ 2 + D ^ 2) := rfl
    rw [eq_div_iff (by positivity)]
    field_simp
    rw [hq]
    simp only [c]
    ring
  refine ⟨hR, hS, ?_⟩
  rw [hR, hS]
  generalize Q = q at *
  generalize c = y at *
  field_simp
  ring

theorem core_pos {b n m c : ℝ} (ha : 0 < a) (h1a : 0 ≤ 1 - a) (hm : 0 < m) (hn : 0 < n)
    (hb : b = (1 - a) ^ 2 * m) (hc : b + (1 + 2 * a) * n ≤ c) :
    0 < c ∧ 0 < c ^ 3 - b * c ^ 2 + 18 * a ^ 2 * (1 - a) * m * n * c
          + 27 * a ^ 4 * m * n ^ 2 - 16 * a ^ 2 * (1 - a) * m * n * b := by
  have hb0 : 0 ≤ b := by rw [hb]; positivity
  have hn1 : 0 < (1 + 2 * a) * n := by positivity
  have hcb : 0 < c - b := by linarith
  have hc0 : 0 < c := by linarith
  refine ⟨hc0, ?_⟩
  have e : c ^ 3 - b * c ^ 2 + 18 * a ^ 2 * (1 - a) * m * n * c
          + 27 * a ^ 4 * m * n ^ 2 - 16 * a ^ 2 * (1 - a) * m * n * b =
      c ^ 2 * (c - b) + 16 * a ^ 2 * (1 - a) * m * n * (c - b) +
        2 * a ^ 2 * (1 - a) * m * n * c + 27 * a ^ 4 * m * n ^ 2 := by ring
  rw [e]
  positivity

/-- For an admissible state Cardano's formula needs no complex numbers. -/
theorem cardano_signs (ha : 0 < a) (ha1 : a ≤ 1) (hM : 0 < M) (hD : 0 < D)
    (hE : M ^ 2 + D ^ 2 ≤ E ^ 2) :
    let k := coef (1 + a) M (M * M) E D
    let i1 := -k.a2
    let i2 := k.a3 * k.a1 - 4 * k.a0
    let i3 := 4 * k.a2 * k.a0 - k.a1 * k.a1 - k.a3 * k.a3 * k.a0
    let R := (9 * i1 * i2 - 27 * i3 - 2 * (i1 * i1) * i1) / 54
    let S := (3 * i2 - k.a2 * k.a2) / 9
    0 < R ∧ S < 0 ∧ 0 < R * R + S * S * S := by
  intro k i1 i2 i3 R S
  obtain ⟨hR, hS, hT⟩ := cardano_numbers (E := E) ha hM hD
  have hc : (1 - a) ^ 2 * M ^ 2 + (1 + 2 * a) * D ^ 2 ≤
      (1 + a) ^ 2 * E ^ 2 - 4 * a * M ^ 2 - a ^ 2 * D ^ 2 := by nlinarith [sq_nonneg (1 + a)]
  have hD2 : 0 < D ^ 2 := by positivity
  have hM2 : 0 < M ^ 2 := by positivity
  have h1a : 0 ≤ 1 - a := by linarith
  obtain ⟨hc0, hpos⟩ := core_pos ha h1a hM2 hD2 rfl hc
  set c := (1 + a) ^ 2 * E ^ 2 - 4 * a * M ^ 2 - a ^ 2 * D ^ 2 with hcdef
  have hQ : 0 < a ^ 2 * (M ^ 2 + D ^ 2) := by positivity
  refine ⟨?_, ?_, ?_⟩
  · show 0 < R
    rw [show R = _ from hR]
    positivity
  · show S < 0
    rw [show S = _ from hS, neg_div]
    have : 0 < (c ^ 2 + 12 * a ^ 2 * (1 - a) * M ^ 2 * D ^ 2) /
        (9 * (a ^ 2 * (M ^ 2 + D ^ 2)) ^ 2) := by positivity
    linarith
  · rw [show R * R + S * S * S = _ from hT]
    have e : c ^ 3 - (1 - a) ^ 2 * M ^ 2 * c ^ 2 + 18 * a ^ 2 * (1 - a) * M ^ 2 * D ^ 2 * c
          + 27 * a ^ 4 * M ^ 2 * D ^ 4 - 16 * a ^ 2 * (1 - a) ^ 3 * M ^ 4 * D ^ 2 =
        c ^ 3 - (1 - a) ^ 2 * M ^ 2 * c ^ 2 + 18 * a ^ 2 * (1 - a) * M ^ 2 * D ^ 2 * c
          + 27 * a ^ 4 * M ^ 2 * (D ^ 2) ^ 2
          - 16 * a ^ 2 * (1 - a) * M ^ 2 * D ^ 2 * ((1 - a) ^ 2 * M ^ 2) := by ring
    rw [e]
    positivity

end

/-- The resolvent returned by the program is *the* real root of the resolvent cubic. -/
theorem resolvent_eq (k : Coef) (x : ℝ)
    (hR : 0 < (9 * (-k.a2) * (k.a3 * k.a1 - 4 * k.a0) - 27 * (4 * k.a2 * k.a0 - k.a1 * k.a1
        - k.a3 * k.a3 * k.a0) - 2 * ((-k.a2) * (-k.a2)) * (-k.a2)) / 54)
    (hS : (3 * (k.a3 * k.a1 - 4 * k.a0) - k.a2 * k.a2) / 9 < 0)
    (hT : 0 < ((9 * (-k.a2) * (k.a3 * k.a1 - 4 * k.a0) - 27 * (4 * k.a2 * k.a0 - k.a1 * k.a1
        - k.a3 * k.a3 * k.a0) - 2 * ((-k.a2) * (-k.a2)) * (-k.a2)) / 54) *
        ((9 * (-k.a2) * (k.a3 * k.a1 - 4 * k.a0) - 27 * (4 * k.a2 * k.a0 - k.a1 * k.a1
        - k.a3 * k.a3 * k.a0) - 2 * ((-k.a2) * (-k.a2)) * (-k.a2)) / 54) +
        (3 * (k.a3 * k.a1 - 4 * k.a0) - k.a2 * k.a2) / 9 *
        ((3 * (k.a3 * k.a1 - 4 * k.a0) - k.a2 * k.a2) / 9) *
        ((3 * (k.a3 * k.a1 - 4 * k.a0) - k.a2 * k.a2) / 9))
    (hx : x ^ 3 + (-k.a2) * x ^ 2 + (k.a3 * k.a1 - 4 * k.a0) * x + (4 * k.a2 * k.a0
        - k.a1 * k.a1 - k.a3 * k.a3 * k.a0) = 0) : resolvent k = some x := by
  have key : ∀ R S : ℝ, 0 < R → S < 0 → 0 < R * R + S * S * S →
      (x - k.a2 / 3) ^ 3 + 3 * S * (x - k.a2 / 3) - 2 * R = 0 →
      (R - √(R * R + S * S * S) ≥ 0) ∧
      (R + √(R * R + S * S * S)) ^ (1 / 3 : ℝ) + (R - √(R * R + S * S * S)) ^ (1 / 3 : ℝ)
        - (-k.a2) / 3 = x := by
    intro R S hR hS hT hy
    have ht2 : √(R * R + S * S * S) ^ 2 = R ^ 2 + S ^ 3 := by
      rw [Real.sq_sqrt hT.le]; ring
    have ht : 0 < √(R * R + S * S * S) := Real.sqrt_pos.2 hT
    generalize √(R * R + S * S * S) = t at *
    have h3 : S ^ 3 < 0 := by
      have h4 := mul_pos_of_neg_of_neg hS hS
      have h5 := mul_neg_of_pos_of_neg h4 hS
      linarith [show S ^ 3 = S * S * S by ring]
    have hRt : 0 ≤ R - t := by
      by_contra h
      nlinarith
    have hRt' : 0 ≤ R + t := by linarith
    refine ⟨hRt, ?_⟩
    have := cardano_unique (rpow_third_cube hRt') (rpow_third_cube hRt)
      (cube_prod ht2 hRt' hRt) ht hy
    linarith
  unfold resolvent
  dsimp only
  have hy : (x - k.a2 / 3) ^ 3 + 3 * ((3 * (k.a3 * k.a1 - 4 * k.a0) - k.a2 * k.a2) / 9)
      * (x - k.a2 / 3) - 2 * ((9 * (-k.a2) * (k.a3 * k.a1 - 4 * k.a0)
      - 27 * (4 * k.a2 * k.a0 - k.a1 * k.a1
        - k.a3 * k.a3 * k.a0) - 2 * ((-k.a2) * (-k.a2)) * (-k.a2)) / 54) = 0 := by
    linear_combination hx
  obtain ⟨h1, h2⟩ := key _ _ hR hS hT hy
  generalize (9 * (-k.a2) * (k.a3 * k.a1 - 4 * k.a0) - 27 * (4 * k.a2 * k.a0 - k.a1 * k.a1
        - k.a3 * k.a3 * k.a0) - 2 * ((-k.a2) * (-k.a2)) * (-k.a2)) / 54 = R at *
  generalize (3 * (k.a3 * k.a1 - 4 * k.a0) - k.a2 * k.a2) / 9 = S at *
  have h3 := Real.sqrt_nonneg (R * R + S * S * S)
  rw [if_neg (not_lt.2 hT.le), sqrtN_of_nonneg hT.le]
  simp only [Option.bind_eq_bind, Option.bind_some]
  rw [cbrtN_of_nonneg (by linarith), cbrtN_of_nonneg h1]
  simp only [Option.bind_some]
  rw [h2]
  rfl

/-- With the factors of the quartic in hand the program takes the larger root of the first. -/
theorem speed_of_factors (k : Coef) (s p q w : ℝ) (h3 : k.a3 = p - s)
    (h2 : k.a2 = q + w - p * s) (h0 : k.a0 = q * w) (hps : p + s ≤ 0) (hqw : w ≤ q)
    (hs : 0 ≤ s * s - 4 * w) (hr : resolvent k = some (w + q)) :
    speed k = some ((s + √(s * s - 4 * w)) / 2) := by
  have e1 : k.a3 * k.a3 - 4 * k.a2 + 4 * (w + q) = (p + s) ^ 2 := by rw [h3, h2]; ring
  have e2 : (w + q) * (w + q) - 4 * k.a0 = (q - w) ^ 2 := by rw [h0]; ring
  unfold speed
  rw [hr]
  simp only [Option.bind_eq_bind, Option.bind_some]
  rw [e1, e2, sqrtN_of_nonneg (sq_nonneg _), sqrtN_of_nonneg (sq_nonneg _), Real.sqrt_sq_eq_abs,
    Real.sqrt_sq_eq_abs, abs_of_nonpos hps, abs_of_nonneg (by linarith)]
  simp only [Option.bind_some]
  have e3 : 1 / 2 * (k.a3 + -(p + s)) = -s := by rw [h3]; ring
  have e4 : 1 / 2 * (w + q - (q - w)) = w := by ring
  rw [e3, e4, neg_mul_neg, sqrtN_of_nonneg hs]
  simp

/-- **The closed form is right.**  For every admissible conserved state (`D > 0`,
`E² ≥ M² + D²`) and every `0 < v < 1` that solves the equation of state with non-negative
pressure, the program's closed form is defined (no NaN) and equals `v`. -/
theorem speed_eq {a M D E v w : ℝ} (ha : 0 < a) (ha1 : a ≤ 1) (hM : 0 < M) (hD : 0 < D)
    (hE : M ^ 2 + D ^ 2 ≤ E ^ 2) (hv0 : 0 < v) (hv1 : v < 1) (hw : w ^ 2 = 1 - v ^ 2)
    (hw0 : 0 < w) (heq : (1 + a) * E * v - a * M * v ^ 2 - M = a * D * v * w)
    (hP : v * D ≤ M * w) : speed (coef (1 + a) M (M * M) E D) = some v := by
  -- the second real root
  obtain ⟨r, hr0, hrv, he1⟩ : ∃ r, 0 < r ∧ r < v ∧
      (1 + a) * E * r - a * M * r ^ 2 - M = -(a * D * r * √(1 - r ^ 2)) := by
    have hcont : ContinuousOn (fun x : ℝ => (1 + a) * E * x - a * M * x ^ 2 - M
        + a * D * x * √(1 - x ^ 2)) (Set.Icc 0 v) := by fun_prop
    have hws : √(1 - v ^ 2) = w := by rw [← hw, Real.sqrt_sq hw0.le]
    have h0 : (0 : ℝ) ∈ Set.Ioo ((fun x : ℝ => (1 + a) * E * x - a * M * x ^ 2 - M
        + a * D * x * √(1 - x ^ 2)) 0) ((fun x : ℝ => (1 + a) * E * x - a * M * x ^ 2 - M
        + a * D * x * √(1 - x ^ 2)) v) := by
      constructor
      · simp; exact hM
      · dsimp only
        rw [heq, hws]
        positivity
    obtain ⟨r, hr, hfr⟩ := intermediate_value_Ioo hv0.le hcont h0
    exact ⟨r, hr.1, hr.2, by dsimp only at hfr; linarith⟩
  have hr1 : r ^ 2 < 1 := by nlinarith
  have hw1 : √(1 - r ^ 2) ^ 2 = 1 - r ^ 2 := Real.sq_sqrt (by linarith)
  have w1p : 0 < √(1 - r ^ 2) := Real.sqrt_pos.2 (by linarith)
  generalize √(1 - r ^ 2) = w1 at *
  have Hprod := roots_prod ha hM hD hr0 hrv hv1 hw1 hw w1p hw0 he1 heq
  have Hsum := roots_sum ha hM hD hr0 hrv hv1 hw1 hw w1p hw0 he1 heq hP
  obtain ⟨hR, hS, hT⟩ := cardano_signs (E := E) ha ha1 hM hD hE
  have hQ : 0 < a ^ 2 * (M ^ 2 + D ^ 2) := by positivity
  have hden : (1 + a - 1) * (1 + a - 1) * (M * M + D * D) = a ^ 2 * (M ^ 2 + D ^ 2) := by ring
  set k := coef (1 + a) M (M * M) E D with hk
  have a3 : k.a3 = -2 * (1 + a) * a * (M * E) / (a ^ 2 * (M ^ 2 + D ^ 2)) := by
    simp only [hk, coef, hden]; ring
  have a2 : k.a2 = ((1 + a) ^ 2 * E ^ 2 + 2 * a * M ^ 2 - a ^ 2 * D ^ 2) /
      (a ^ 2 * (M ^ 2 + D ^ 2)) := by
    simp only [hk, coef, hden]; ring
  have a1 : k.a1 = -2 * (1 + a) * (M * E) / (a ^ 2 * (M ^ 2 + D ^ 2)) := by
    simp only [hk, coef, hden]; ring
  have a0 : k.a0 = M ^ 2 / (a ^ 2 * (M ^ 2 + D ^ 2)) := by
    simp only [hk, coef, hden]; ring
  -- both are roots of the quartic
  have quart : ∀ x y : ℝ, y ^ 2 = 1 - x ^ 2 →
      ((1 + a) * E * x - a * M * x ^ 2 - M) ^ 2 = (a * D * x * y) ^ 2 →
      x ^ 4 + k.a3 * x ^ 3 + k.a2 * x ^ 2 + k.a1 * x + k.a0 = 0 := by
    intro x y hy hxy
    rw [a3, a2, a1, a0]
    have hq : a ^ 2 * (M ^ 2 + D ^ 2) ≠ 0 := hQ.ne'
    have e : x ^ 4 + -2 * (1 + a) * a * (M * E) / (a ^ 2 * (M ^ 2 + D ^ 2)) * x ^ 3 +
        ((1 + a) ^ 2 * E ^ 2 + 2 * a * M ^ 2 - a ^ 2 * D ^ 2) / (a ^ 2 * (M ^ 2 + D ^ 2)) * x ^ 2 +
        -2 * (1 + a) * (M * E) / (a ^ 2 * (M ^ 2 + D ^ 2)) * x +
        M ^ 2 / (a ^ 2 * (M ^ 2 + D ^ 2)) =
        (a ^ 2 * (M ^ 2 + D ^ 2) * x ^ 4 - 2 * (1 + a) * a * (M * E) * x ^ 3 +
        ((1 + a) ^ 2 * E ^ 2 + 2 * a * M ^ 2 - a ^ 2 * D ^ 2) * x ^ 2 -
        2 * (1 + a) * (M * E) * x + M ^ 2) / (a ^ 2 * (M ^ 2 + D ^ 2)) := by
      generalize a ^ 2 * (M ^ 2 + D ^ 2) = z at *
      field_simp
      ring
    rw [e, div_eq_zero_iff]
    left
    linear_combination hxy + a ^ 2 * D ^ 2 * x ^ 2 * hy
  have q1 := quart r w1 hw1 (by rw [he1]; ring)
  have q2 := quart v w hw (by rw [heq])
  obtain ⟨v2, v1⟩ := vieta hr0.ne' hv0.ne' hrv.ne q1 q2
  set p := k.a3 + (r + v) with hp
  set q := k.a0 / (r * v) with hq
  have hrv0 : 0 < r * v := mul_pos hr0 hv0
  have hq0 : k.a0 = q * (r * v) := by rw [hq]; field_simp
  have hres : resolvent k = some (r * v + q) := by
    apply resolvent_eq k _ hR hS hT
    have h3 : k.a3 = p - (r + v) := by rw [hp]; ring
    rw [v2, v1, hq0, h3]
    ring
  have hqw : r * v ≤ q := by
    rw [hq, le_div_iff₀ hrv0, a0, le_div_iff₀ hQ]
    linarith
  have hps : p + (r + v) ≤ 0 := by
    have h3 : k.a3 ≤ -(2 * (r + v)) := by
      rw [a3, div_le_iff₀ hQ]
      have := mul_le_mul_of_nonneg_left Hsum (show 0 ≤ 2 * a by positivity)
      linarith
    rw [hp]; linarith
  have hd : (r + v) * (r + v) - 4 * (r * v) = (v - r) ^ 2 := by ring
  rw [speed_of_factors k (r + v) p q (r * v) (by rw [hp]; ring) v2 hq0 hps hqw
    (by rw [hd]; positivity) hres, hd, Real.sqrt_sq (by linarith)]
  congr 1
  ring

end Athena.Rel
