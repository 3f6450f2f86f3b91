import Verif.Micro.ResistProps

/-!
# Ambipolar diffusion in two and three dimensions can increase the energy of the magnetic field

`EField_AD` takes the components of the current along the other two directions, and the field, as averages over neighbouring edges and zones
(resistivity.c:1127-1192, 1200-1268).  The emf at an edge is then not perpendicular to one field, and its work on the current can be negative.
-/

namespace Athena.Micro
open Athena.Bvals hiding Rng
open Athena.Vl3 Athena.Gen

/-- `eta_standard` with `Q_AD = 1`, `eta_Ohm = 0`, `d_ind = 0`: get_eta.c:95-112. -/
noncomputable def etaStd (u : Vl3.Cons ℝ 0) : ℝ × ℝ × ℝ := (0, 0, (u.B1c ^ 2 + u.B2c ^ 2 + u.B3c ^ 2) / u.d)

noncomputable def adQ : Diff 0 :=
  { dt := 1 / 1000, dx1 := 1, dx2 := 1, dx3 := 1, kIso := 0, kAni := 0, gm1 := 2 / 3, tiny := 1 / 10 ^ 20, nuIso := 0, etaOhm := 0, qHall := 0,
    qAD := 1, eta := etaStd }

/-- A field that repeats after two zones. -/
noncomputable def adB1 (j : ℤ) : ℝ := if j % 2 = 0 then 5 else -3
noncomputable def adB3 (j i : ℤ) : ℝ := if j % 2 = 0 then (if i % 2 = 0 then -4 else -1) else 5

noncomputable def adL : St ℝ 0 :=
  ⟨fun _ j i => ⟨1, 0, 0, 0, 100, adB1 j, 0, adB3 j i, fun _ => 0⟩, fun _ j _ => adB1 j, fun _ _ _ => 0, fun _ j i => adB3 j i⟩

def adN (t : Fin 3) : ℕ := if t = 2 then 1 else 2

theorem adL_per : Periodic adN adL := by
  have m : ∀ x m : ℤ, (x + m * 2) % 2 = x % 2 := fun x m => by omega
  intro m
  have e2 : ((adN 2 : ℕ) : ℤ) = 1 := rfl
  have e1 : ((adN 1 : ℕ) : ℤ) = 2 := rfl
  have e0 : ((adN 0 : ℕ) : ℤ) = 2 := rfl
  simp only [St.shift, adL, e0, e1, adB1, adB3, ‹∀ x m : ℤ, (x + m * 2) % 2 = x % 2›]

theorem ad_emf00 {w : Which} (hw : w ≠ .d1) {k j i : ℤ} (hj : j % 2 = 0) (hi : i % 2 = 0) :
    lEmf w adQ (lEta adQ adL) adL k j i = ⟨(4374999999999999999775 / 83333333333333333334), (201 / 2), (220982142857142857130 / 12202380952380952381)⟩ := by
  have j1 : (j - 1) % 2 = 1 := by omega
  have j2 : (j + 1) % 2 = 1 := by omega
  have i1 : (i - 1) % 2 = 1 := by omega
  have i2 : (i + 1) % 2 = 1 := by omega
  have j0 : j + 1 - 1 = j := by ring
  have i0 : i + 1 - 1 = i := by ring
  have j4 : (j - 1 - 1) % 2 = 0 := by omega
  have i4 : (i - 1 - 1) % 2 = 0 := by omega
  have x0 : (lEmf w adQ (lEta adQ adL) adL k j i) = V3.zero.add (ambi w adQ adL (lEta adQ adL) (curl w adQ adL) k j i) := by
    unfold lEmf
    dsimp only
    rw [if_pos (by norm_num [adQ]), if_neg (by norm_num [adQ])]
  rw [x0]
  cases w
  · exact absurd rfl hw
  · simp only [ambi, ad2, V3.add, V3.zero, perp, curl, adL, lEta, adQ, etaStd, adB1, adB3, j0, j1, j2, j4, i0, i1, i2, i4, hj, hi, V3.mk.injEq]
    norm_num
  · simp only [ambi, ad3, V3.add, V3.zero, perp, curl, adL, lEta, adQ, etaStd, adB1, adB3, j0, j1, j2, j4, i0, i1, i2, i4, hj, hi, V3.mk.injEq]
    norm_num

theorem ad_emf01 {w : Which} (hw : w ≠ .d1) {k j i : ℤ} (hj : j % 2 = 0) (hi : i % 2 = 1) :
    lEmf w adQ (lEta adQ adL) adL k j i = ⟨(-8000000000000000000060 / 166666666666666666667), (-201 / 2), (220982142857142857130 / 12202380952380952381)⟩ := by
  have j1 : (j - 1) % 2 = 1 := by omega
  have j2 : (j + 1) % 2 = 1 := by omega
  have i1 : (i - 1) % 2 = 0 := by omega
  have i2 : (i + 1) % 2 = 0 := by omega
  have j0 : j + 1 - 1 = j := by ring
  have i0 : i + 1 - 1 = i := by ring
  have j4 : (j - 1 - 1) % 2 = 0 := by omega
  have i4 : (i - 1 - 1) % 2 = 1 := by omega
  have x0 : (lEmf w adQ (lEta adQ adL) adL k j i) = V3.zero.add (ambi w adQ adL (lEta adQ adL) (curl w adQ adL) k j i) := by
    unfold lEmf
    dsimp only
    rw [if_pos (by norm_num [adQ]), if_neg (by norm_num [adQ])]
  rw [x0]
  cases w
  · exact absurd rfl hw
  · simp only [ambi, ad2, V3.add, V3.zero, perp, curl, adL, lEta, adQ, etaStd, adB1, adB3, j0, j1, j2, j4, i0, i1, i2, i4, hj, hi, V3.mk.injEq]
    norm_num
  · simp only [ambi, ad3, V3.add, V3.zero, perp, curl, adL, lEta, adQ, etaStd, adB1, adB3, j0, j1, j2, j4, i0, i1, i2, i4, hj, hi, V3.mk.injEq]
    norm_num

theorem ad_emf10 {w : Which} (hw : w ≠ .d1) {k j i : ℤ} (hj : j % 2 = 1) (hi : i % 2 = 0) :
    lEmf w adQ (lEta adQ adL) adL k j i = ⟨(-4374999999999999999775 / 83333333333333333334), (0), (-220982142857142857130 / 12202380952380952381)⟩ := by
  have j1 : (j - 1) % 2 = 0 := by omega
  have j2 : (j + 1) % 2 = 0 := by omega
  have i1 : (i - 1) % 2 = 1 := by omega
  have i2 : (i + 1) % 2 = 1 := by omega
  have j0 : j + 1 - 1 = j := by ring
  have i0 : i + 1 - 1 = i := by ring
  have j4 : (j - 1 - 1) % 2 = 1 := by omega
  have i4 : (i - 1 - 1) % 2 = 0 := by omega
  have x0 : (lEmf w adQ (lEta adQ adL) adL k j i) = V3.zero.add (ambi w adQ adL (lEta adQ adL) (curl w adQ adL) k j i) := by
    unfold lEmf
    dsimp only
    rw [if_pos (by norm_num [adQ]), if_neg (by norm_num [adQ])]
  rw [x0]
  cases w
  · exact absurd rfl hw
  · simp only [ambi, ad2, V3.add, V3.zero, perp, curl, adL, lEta, adQ, etaStd, adB1, adB3, j0, j1, j2, j4, i0, i1, i2, i4, hj, hi, V3.mk.injEq]
    norm_num
  · simp only [ambi, ad3, V3.add, V3.zero, perp, curl, adL, lEta, adQ, etaStd, adB1, adB3, j0, j1, j2, j4, i0, i1, i2, i4, hj, hi, V3.mk.injEq]
    norm_num

theorem ad_emf11 {w : Which} (hw : w ≠ .d1) {k j i : ℤ} (hj : j % 2 = 1) (hi : i % 2 = 1) :
    lEmf w adQ (lEta adQ adL) adL k j i = ⟨(8000000000000000000060 / 166666666666666666667), (0), (-220982142857142857130 / 12202380952380952381)⟩ := by
  have j1 : (j - 1) % 2 = 0 := by omega
  have j2 : (j + 1) % 2 = 0 := by omega
  have i1 : (i - 1) % 2 = 0 := by omega
  have i2 : (i + 1) % 2 = 0 := by omega
  have j0 : j + 1 - 1 = j := by ring
  have i0 : i + 1 - 1 = i := by ring
  have j4 : (j - 1 - 1) % 2 = 1 := by omega
  have i4 : (i - 1 - 1) % 2 = 1 := by omega
  have x0 : (lEmf w adQ (lEta adQ adL) adL k j i) = V3.zero.add (ambi w adQ adL (lEta adQ adL) (curl w adQ adL) k j i) := by
    unfold lEmf
    dsimp only
    rw [if_pos (by norm_num [adQ]), if_neg (by norm_num [adQ])]
  rw [x0]
  cases w
  · exact absurd rfl hw
  · simp only [ambi, ad2, V3.add, V3.zero, perp, curl, adL, lEta, adQ, etaStd, adB1, adB3, j0, j1, j2, j4, i0, i1, i2, i4, hj, hi, V3.mk.injEq]
    norm_num
  · simp only [ambi, ad3, V3.add, V3.zero, perp, curl, adL, lEta, adQ, etaStd, adB1, adB3, j0, j1, j2, j4, i0, i1, i2, i4, hj, hi, V3.mk.injEq]
    norm_num

theorem ad_sum {w : Which} (hw : w ≠ .d1) : magSum (dims w) adN 0 0 0 adL < magSum (dims w) adN 0 0 0 (latRes w adQ (lEta adQ adL) adL) := by
  rw [magSum_eq, magSum_eq]
  have e : bvec w (latRes w adQ (lEta adQ adL) adL) = fun t k j i => bvec w adL t k j i - adQ.dt * fcurl (hh w adQ) (vec (lEmf w adQ (lEta adQ adL) adL)) t k j i := by
    funext t; exact latRes_bvec t
  have b : bvec w adL = fun t k j i => if t = 0 then adB1 j else if t = 1 then 0 else adB3 j i := by
    funext t k j i
    obtain ⟨b0, b1, b2⟩ := bvec_val (w := w) (L := adL)
    rcases three t with rfl | rfl | rfl
    · rw [b0]; rfl
    · rw [b1]; cases w <;> rfl
    · rw [b2]; cases w <;> rfl
  have h0 : hh w adQ 0 = 1 := by cases w <;> norm_num [hh, adQ, dims0]
  have h1 : hh w adQ 1 = 1 := by
    have d : dims w 1 = true := by cases w <;> first | exact absurd rfl hw | rfl
    simp only [hh, adQ, d]; norm_num
  have n0 : adN 0 = 2 := rfl
  have n1 : adN 1 = 2 := rfl
  have n2 : adN 2 = 1 := rfl
  have z : ∀ k j i, lEmf w adQ (lEta adQ adL) adL (k + 1) j i = lEmf w adQ (lEta adQ adL) adL k j i := by
    intro k j i
    rcases Int.emod_two_eq_zero_or_one j with hj | hj <;> rcases Int.emod_two_eq_zero_or_one i with hi | hi
    · rw [ad_emf00 hw hj hi, ad_emf00 hw hj hi]
    · rw [ad_emf01 hw hj hi, ad_emf01 hw hj hi]
    · rw [ad_emf10 hw hj hi, ad_emf10 hw hj hi]
    · rw [ad_emf11 hw hj hi, ad_emf11 hw hj hi]
  have v00 : lEmf w adQ (lEta adQ adL) adL 0 0 0 = _ := ad_emf00 hw rfl rfl
  have v01 : lEmf w adQ (lEta adQ adL) adL 0 0 1 = _ := ad_emf01 hw rfl rfl
  have v02 : lEmf w adQ (lEta adQ adL) adL 0 0 2 = _ := ad_emf00 hw rfl rfl
  have v10 : lEmf w adQ (lEta adQ adL) adL 0 1 0 = _ := ad_emf10 hw rfl rfl
  have v11 : lEmf w adQ (lEta adQ adL) adL 0 1 1 = _ := ad_emf11 hw rfl rfl
  have v12 : lEmf w adQ (lEta adQ adL) adL 0 1 2 = _ := ad_emf10 hw rfl rfl
  have v20 : lEmf w adQ (lEta adQ adL) adL 0 2 0 = _ := ad_emf00 hw rfl rfl
  have v21 : lEmf w adQ (lEta adQ adL) adL 0 2 1 = _ := ad_emf01 hw rfl rfl
  have c0 : ∀ k j i, fcurl (hh w adQ) (vec (lEmf w adQ (lEta adQ adL) adL)) 0 k j i
      = (lEmf w adQ (lEta adQ adL) adL k (j+1) i).x3 - (lEmf w adQ (lEta adQ adL) adL k j i).x3 := by
    intro k j i
    simp only [fcurl, dif, vec, nxt, z, h1, if_true, one_ne_zero, if_false, Fin.reduceEq]
    ring
  have c1 : ∀ k j i, fcurl (hh w adQ) (vec (lEmf w adQ (lEta adQ adL) adL)) 1 k j i
      = -((lEmf w adQ (lEta adQ adL) adL k j (i+1)).x3 - (lEmf w adQ (lEta adQ adL) adL k j i).x3) := by
    intro k j i
    simp only [fcurl, dif, vec, nxt, z, h0, if_true, one_ne_zero, if_false, Fin.reduceEq]
    ring
  have c2 : ∀ k j i, fcurl (hh w adQ) (vec (lEmf w adQ (lEta adQ adL) adL)) 2 k j i
      = (lEmf w adQ (lEta adQ adL) adL k j (i+1)).x2 - (lEmf w adQ (lEta adQ adL) adL k j i).x2
        - ((lEmf w adQ (lEta adQ adL) adL k (j+1) i).x1 - (lEmf w adQ (lEta adQ adL) adL k j i).x1) := by
    intro k j i
    simp only [fcurl, dif, vec, nxt, z, h0, h1, if_true, one_ne_zero, if_false, Fin.reduceEq]
    ring
  rw [e, b]
  simp only [sq3, ip, psum, zsum, n0, n1, n2, Finset.sum_range_succ, Finset.sum_range_zero, zero_add, Nat.cast_zero, Nat.cast_one, c0, c1, c2,
    one_add_one_eq_two, v00, v01, v02, v10, v11, v12, v20, v21, Fin.reduceEq, if_true, if_false, adB1, adB3]
  norm_num [adQ]

/-- **C71** fails for ambipolar diffusion in two and three dimensions: with the program's standard diffusivity, a field without divergence that agrees
at centres and faces, and a time step that respects the program's limit, one step increases the energy of the magnetic field. -/
theorem ambi_decays_false {w : Which} (hw : w ≠ .d1) : ¬∀ (q : Diff 0) (L : St ℝ 0) (N : Fin 3 → ℕ) (em cour : ℝ), Periodic N L → q.eta = etaStd →
    (∀ k j i, (L.B1i k j (i+1) - L.B1i k j i) / q.dx1 + (L.B2i k (j+1) i - L.B2i k j i) / q.dx2 + (L.B3i (k+1) j i - L.B3i k j i) / q.dx3 = 0) →
    (∀ k j i, (L.U k j i).B1c = (L.B1i k j i + L.B1i k j (i+1)) / 2 ∧ (L.U k j i).B2c = (L.B2i k j i + L.B2i k (j+1) i) / 2 ∧
      (L.U k j i).B3c = (L.B3i k j i + L.B3i (k+1) j i) / 2) →
    0 < q.tiny → EtaLe (lEta q L) em → 0 < q.dx1 → 0 < q.dx2 → 0 < q.dx3 → 0 < q.dt → 0 < cour → cour ≤ 1 / 2 → em * q.dt ≤ cour * qa w q →
    magSum (dims w) N 0 0 0 (latRes w q (lEta q L) L) ≤ magSum (dims w) N 0 0 0 L := by
  intro h
  refine absurd (h adQ adL adN 41 (2 / 5) adL_per rfl ?_ ?_ (by norm_num [adQ]) ?_ (by norm_num [adQ]) (by norm_num [adQ]) (by norm_num [adQ])
    (by norm_num [adQ]) (by norm_num) (by norm_num) ?_) (not_le.2 (ad_sum hw))
  · intro k j i; simp [adL]
  · intro k j i; simp only [adL]; refine ⟨by ring, by ring, by ring⟩
  · intro k j i
    simp only [lEta, adQ, etaStd, adL, adB1, adB3]
    split_ifs <;> norm_num
  · cases w
    · exact absurd rfl hw
    · have d1 : dims .d2 1 = true := rfl
      have d2 : dims .d2 2 = false := rfl
      simp only [qa, adQ, d1, d2]; norm_num
    · have d1 : dims .d3 1 = true := rfl
      have d2 : dims .d3 2 = true := rfl
      simp only [qa, adQ, d1, d2]; norm_num

end Athena.Micro
