import Verif.Micro.Decay
import Verif.Micro.ConductProps
import Mathlib.Tactic.FieldSimp
import Mathlib.Tactic.NormNum

/-!
# What the resistive update does
-/

namespace Athena.Micro
open Athena.Bvals hiding Rng
open Athena.Vl3 Athena.Gen

/-! ## Specification -/

/-- The component `t` of the magnetic field that the program evolves: at the faces along the directions of the Domain, at the
zone centre along the others. -/
def bfld (A : Fin 3 → Bool) (t : Fin 3) : Fld := if A t then .face t else .cell (.Bc t)

/-- Twice the energy of the evolved magnetic field over one period of a lattice. -/
def magSum {ns : ℕ} (A : Fin 3 → Bool) (N : Fin 3 → ℕ) (is js ks : ℤ) (L : St ℝ ns) : ℝ :=
  zsum (N 0) (N 1) (N 2) is js ks (fun k j i => ∑ t : Fin 3, lval (bfld A t) L k j i ^ 2)

section Energy
variable {ns : ℕ} {w : Which} {q : Diff ns} {L : St ℝ ns} {eta : Arr (ℝ × ℝ × ℝ)}

/-- One over the zone size; zero along a direction with one zone. -/
noncomputable def hh (w : Which) (q : Diff ns) (t : Fin 3) : ℝ :=
  if dims w t then 1 / (if t = 0 then q.dx1 else if t = 1 then q.dx2 else q.dx3) else 0

def vec (E : Arr V3) (t : Fin 3) : Arr ℝ := fun k j i => if t = 0 then (E k j i).x1 else if t = 1 then (E k j i).x2 else (E k j i).x3

def bvec (w : Which) (L : St ℝ ns) (t : Fin 3) : Arr ℝ := lval (bfld (dims w) t) L

theorem bvec_val : (bvec w L 0 = L.B1i) ∧ (bvec w L 1 = if dims w 1 then L.B2i else fun k j i => (L.U k j i).B2c) ∧
    bvec w L 2 = if dims w 2 then L.B3i else fun k j i => (L.U k j i).B3c := by
  cases w <;> refine ⟨rfl, rfl, rfl⟩

/-- The current is the curl of the field. -/
theorem curl_eq (t : Fin 3) : vec (curl w q L) t = bcurl (hh w q) (bvec w L) t := by
  obtain ⟨b0, b1, b2⟩ := bvec_val (w := w) (L := L)
  funext k j i
  unfold bcurl
  rw [b0, b1, b2]
  cases w <;> rcases three t with rfl | rfl | rfl <;> simp [vec, curl, bdif, hh, dims0] <;> ring

/-- The field changes by minus `dt` times the curl of the emf. -/
theorem latRes_bvec (t : Fin 3) : bvec w (latRes w q eta L) t =
    fun k j i => bvec w L t k j i - q.dt * fcurl (hh w q) (vec (lEmf w q eta L)) t k j i := by
  obtain ⟨b0, b1, b2⟩ := bvec_val (w := w) (L := L)
  obtain ⟨c0, c1, c2⟩ := bvec_val (w := w) (L := latRes w q eta L)
  funext k j i
  unfold fcurl
  rcases three t with rfl | rfl | rfl
  · rw [b0, c0]
    cases w <;> simp [latRes, lB1, dB1, dif, hh, dims0, vec, nxt] <;> ring
  · rw [b1, c1]
    cases w <;> simp [latRes, lB2, dB2, dif, hh, dims0, vec, nxt, lRU, ct1] <;> ring
  · rw [b2, c2]
    cases w <;> simp [latRes, lB3, dB3, dif, hh, dims0, vec, nxt, lRU, ct1] <;> ring

theorem magSum_eq (N : Fin 3 → ℕ) (is js ks : ℤ) : magSum (dims w) N is js ks L = sq3 N is js ks (bvec w L) := by
  unfold sq3 ip
  rw [← psum_add, ← psum_add]
  unfold magSum
  congr 1; funext k j i
  rw [Fin.sum_univ_three]
  unfold bvec
  ring

/-- The diffusivities of `EField_Ohm` and `EField_AD` of all zones are not negative, and their sum is at most `em`. -/
def EtaLe (eta : Arr (ℝ × ℝ × ℝ)) (em : ℝ) : Prop :=
  ∀ k j i, 0 ≤ (eta k j i).1 ∧ 0 ≤ (eta k j i).2.2 ∧ (eta k j i).1 + (eta k j i).2.2 ≤ em

theorem sq_le_of {a e m x : ℝ} (ha : a = e * x) (h0 : 0 ≤ e) (h1 : e ≤ m) : a ^ 2 ≤ m * (a * x) := by
  subst ha
  nlinarith [mul_nonneg (mul_nonneg h0 (sub_nonneg.2 h1)) (sq_nonneg x)]

/-- Ohmic emf dissipates. -/
theorem ohm_diss {em : ℝ} (he : ∀ k j i, 0 ≤ (eta k j i).1 ∧ (eta k j i).1 ≤ em) (J : Arr V3) (k j i : ℤ) :
    (ohm w eta J k j i).x1 ^ 2 ≤ em * ((ohm w eta J k j i).x1 * (J k j i).x1) ∧
    (ohm w eta J k j i).x2 ^ 2 ≤ em * ((ohm w eta J k j i).x2 * (J k j i).x2) ∧
    (ohm w eta J k j i).x3 ^ 2 ≤ em * ((ohm w eta J k j i).x3 * (J k j i).x3) := by
  have e := fun k j i => he k j i
  cases w
  · have := e k j i; have := e k j (i-1)
    refine ⟨by simp [ohm], sq_le_of rfl ?_ ?_, sq_le_of rfl ?_ ?_⟩ <;> linarith
  · have := e k j i; have := e k j (i-1); have := e k (j-1) i; have := e k (j-1) (i-1)
    refine ⟨sq_le_of rfl ?_ ?_, sq_le_of rfl ?_ ?_, sq_le_of rfl ?_ ?_⟩ <;> linarith
  · have := e k j i; have := e k j (i-1); have := e k (j-1) i; have := e k (j-1) (i-1)
    have := e (k-1) j i; have := e (k-1) j (i-1); have := e (k-1) (j-1) i
    refine ⟨sq_le_of rfl ?_ ?_, sq_le_of rfl ?_ ?_, sq_le_of rfl ?_ ?_⟩ <;> linarith

/-- Ohmic and ambipolar emf of two components: `a`, `b` the current, `(p, c, d)` the field. -/
theorem ad_diss {eO eA em a b p c d D : ℝ} (hO : 0 ≤ eO) (hA : 0 ≤ eA) (hm : eO + eA ≤ em) (hD : p ^ 2 + c ^ 2 + d ^ 2 ≤ D) (hD0 : 0 < D)
    {E2 E3 : ℝ} (h2 : E2 = eO * a + eA * (a - (a * c + b * d) * c / D)) (h3 : E3 = eO * b + eA * (b - (a * c + b * d) * d / D)) :
    E2 ^ 2 + E3 ^ 2 ≤ em * (E2 * a + E3 * b) := by
  set σ := (a * c + b * d) / D with hσ
  have s : a * c + b * d = σ * D := by rw [hσ]; field_simp
  have e2 : E2 = (eO + eA) * a - eA * σ * c := by rw [h2, hσ]; ring
  have e3 : E3 = (eO + eA) * b - eA * σ * d := by rw [h3, hσ]; ring
  have bl : c ^ 2 + d ^ 2 ≤ D := by nlinarith [sq_nonneg p]
  -- E·J
  have dot : E2 * a + E3 * b = (eO + eA) * (a ^ 2 + b ^ 2) - eA * σ ^ 2 * D := by
    rw [e2, e3]
    have : (a * c + b * d) * (eA * σ) = σ * D * (eA * σ) := by rw [s]
    linarith
  have cs : σ ^ 2 * D ≤ a ^ 2 + b ^ 2 := by
    have h1 : (σ * D) ^ 2 ≤ (a ^ 2 + b ^ 2) * D := by
      rw [← s]
      calc (a * c + b * d) ^ 2 ≤ (a ^ 2 + b ^ 2) * (c ^ 2 + d ^ 2) := by nlinarith [sq_nonneg (a * d - b * c)]
        _ ≤ (a ^ 2 + b ^ 2) * D := mul_le_mul_of_nonneg_left bl (by positivity)
    have h2 : σ ^ 2 * D * D ≤ (a ^ 2 + b ^ 2) * D := by linarith [show (σ * D) ^ 2 = σ ^ 2 * D * D by ring]
    exact le_of_mul_le_mul_right h2 hD0
  have p1 : 0 ≤ E2 * a + E3 * b := by
    rw [dot]
    nlinarith [mul_nonneg hO (add_nonneg (sq_nonneg a) (sq_nonneg b)), mul_nonneg hA (sub_nonneg.2 cs)]
  have p2 : (eO + eA) * (E2 * a + E3 * b) - (E2 ^ 2 + E3 ^ 2) = eA * σ ^ 2 * ((eO + eA) * D - eA * (c ^ 2 + d ^ 2)) := by
    rw [e2, e3]
    have : (a * c + b * d) * (eA * σ * (eO + eA)) = σ * D * (eA * σ * (eO + eA)) := by rw [s]
    linarith
  have p3 : 0 ≤ eA * σ ^ 2 * ((eO + eA) * D - eA * (c ^ 2 + d ^ 2)) := by
    apply mul_nonneg (mul_nonneg hA (sq_nonneg _))
    nlinarith [mul_nonneg hO hD0.le, mul_nonneg hA (sub_nonneg.2 bl)]
  nlinarith [mul_nonneg (sub_nonneg.2 hm) p1]

theorem emf_diss (ht : 0 < q.tiny) (hAD : q.qAD ≤ 0 ∨ w = .d1) {em : ℝ} (he : EtaLe eta em) (k j i : ℤ) :
    vec (lEmf w q eta L) 0 k j i ^ 2 + vec (lEmf w q eta L) 1 k j i ^ 2 + vec (lEmf w q eta L) 2 k j i ^ 2 ≤
      em * (vec (lEmf w q eta L) 0 k j i * vec (curl w q L) 0 k j i + vec (lEmf w q eta L) 1 k j i * vec (curl w q L) 1 k j i
        + vec (lEmf w q eta L) 2 k j i * vec (curl w q L) 2 k j i) := by
  have hO : ∀ k j i, 0 ≤ (eta k j i).1 ∧ (eta k j i).1 ≤ em := fun k j i => by
    have := he k j i
    exact ⟨this.1, by linarith⟩
  by_cases ha : q.qAD > 0
  · have hw : w = .d1 := hAD.resolve_left (not_le.2 ha)
    subst hw
    have h1 := he k j i; have h2 := he k j (i-1)
    set c : ℝ := 0.5 * ((L.U k j i).B2c + (L.U k j (i-1)).B2c) with hc
    set d : ℝ := 0.5 * ((L.U k j i).B3c + (L.U k j (i-1)).B3c) with hd
    have key := fun eO (hO : 0 ≤ eO) (hm : eO + 0.5 * ((eta k j i).2.2 + (eta k j (i-1)).2.2) ≤ em) =>
      ad_diss (eO := eO) (eA := 0.5 * ((eta k j i).2.2 + (eta k j (i-1)).2.2)) (em := em) (a := (curl .d1 q L k j i).x2)
        (b := (curl .d1 q L k j i).x3) (p := L.B1i k j i) (c := c) (d := d) (D := L.B1i k j i ^ 2 + c ^ 2 + d ^ 2 + q.tiny)
        hO (by linarith) hm (by linarith) (by positivity) rfl rfl
    by_cases ho : q.etaOhm > 0
    · have := key (0.5 * ((eta k j i).1 + (eta k j (i-1)).1)) (by linarith) (by linarith)
      have z1 : vec (lEmf .d1 q eta L) 0 k j i = 0 := by simp [vec, lEmf, ha, ho, V3.add, V3.zero, ohm, ambi, ad1]
      have z2 : vec (lEmf .d1 q eta L) 1 k j i = 0.5 * ((eta k j i).1 + (eta k j (i-1)).1) * (curl .d1 q L k j i).x2 +
          0.5 * ((eta k j i).2.2 + (eta k j (i-1)).2.2) * ((curl .d1 q L k j i).x2 - ((curl .d1 q L k j i).x2 * c + (curl .d1 q L k j i).x3 * d) * c /
            (L.B1i k j i ^ 2 + c ^ 2 + d ^ 2 + q.tiny)) := by
        simp [vec, lEmf, ha, ho, V3.add, V3.zero, ohm, ambi, ad1, perp, hc, hd]
      have z3 : vec (lEmf .d1 q eta L) 2 k j i = 0.5 * ((eta k j i).1 + (eta k j (i-1)).1) * (curl .d1 q L k j i).x3 +
          0.5 * ((eta k j i).2.2 + (eta k j (i-1)).2.2) * ((curl .d1 q L k j i).x3 - ((curl .d1 q L k j i).x2 * c + (curl .d1 q L k j i).x3 * d) * d /
            (L.B1i k j i ^ 2 + c ^ 2 + d ^ 2 + q.tiny)) := by
        simp [vec, lEmf, ha, ho, V3.add, V3.zero, ohm, ambi, ad1, perp, hc, hd]
      rw [z1, z2, z3]
      rw [show vec (curl .d1 q L) 1 k j i = (curl .d1 q L k j i).x2 from rfl, show vec (curl .d1 q L) 2 k j i = (curl .d1 q L k j i).x3 from rfl]
      linarith
    · have := key 0 le_rfl (by linarith)
      have z1 : vec (lEmf .d1 q eta L) 0 k j i = 0 := by simp [vec, lEmf, ha, ho, V3.add, V3.zero, ambi, ad1]
      have z2 : vec (lEmf .d1 q eta L) 1 k j i = 0 * (curl .d1 q L k j i).x2 +
          0.5 * ((eta k j i).2.2 + (eta k j (i-1)).2.2) * ((curl .d1 q L k j i).x2 - ((curl .d1 q L k j i).x2 * c + (curl .d1 q L k j i).x3 * d) * c /
            (L.B1i k j i ^ 2 + c ^ 2 + d ^ 2 + q.tiny)) := by
        simp [vec, lEmf, ha, ho, V3.add, V3.zero, ambi, ad1, perp, hc, hd]
      have z3 : vec (lEmf .d1 q eta L) 2 k j i = 0 * (curl .d1 q L k j i).x3 +
          0.5 * ((eta k j i).2.2 + (eta k j (i-1)).2.2) * ((curl .d1 q L k j i).x3 - ((curl .d1 q L k j i).x2 * c + (curl .d1 q L k j i).x3 * d) * d /
            (L.B1i k j i ^ 2 + c ^ 2 + d ^ 2 + q.tiny)) := by
        simp [vec, lEmf, ha, ho, V3.add, V3.zero, ambi, ad1, perp, hc, hd]
      rw [z1, z2, z3]
      rw [show vec (curl .d1 q L) 1 k j i = (curl .d1 q L k j i).x2 from rfl, show vec (curl .d1 q L) 2 k j i = (curl .d1 q L k j i).x3 from rfl]
      linarith
  · by_cases ho : q.etaOhm > 0
    · have e : lEmf w q eta L k j i = ohm w eta (curl w q L) k j i := by
        simp only [lEmf, if_pos ho, if_neg ha, V3.add, V3.zero, zero_add]
      obtain ⟨d1, d2, d3⟩ := ohm_diss (w := w) hO (curl w q L) k j i
      simp only [vec, e, if_true, if_false, Fin.isValue, Fin.reduceEq]
      linarith
    · have e : lEmf w q eta L k j i = V3.zero := by simp only [lEmf, if_neg ho, if_neg ha]
      simp only [vec, e, V3.zero, if_true, if_false, Fin.isValue, Fin.reduceEq]
      simp

theorem per_vec {N : Fin 3 → ℕ} {E : Arr V3} (h : PerA N E) (t : Fin 3) : PerA N (vec E t) :=
  ⟨fun k j i => by unfold vec; rw [h.1], fun k j i => by unfold vec; rw [h.2.1], fun k j i => by unfold vec; rw [h.2.2]⟩

theorem per_bvec {N : Fin 3 → ℕ} (h : Periodic N L) (t : Fin 3) : PerA N (bvec w L t) := by
  have s : ∀ (L : St ℝ ns) a b d k j i, bvec w (L.shift a b d) t k j i = bvec w L t (k+a) (j+b) (i+d) := by
    intro L a b d k j i
    unfold bvec lval
    cases bfld (dims w) t with
    | cell v => rfl
    | face n => rcases three n with rfl | rfl | rfl <;> rfl
  exact ⟨fun k j i => per1 h (fun L => bvec w L t) s k j i, fun k j i => per2 h (fun L => bvec w L t) s k j i,
    fun k j i => per3 h (fun L => bvec w L t) s k j i⟩

/-- The step of `new_dt_diff` (new_dt_diff.c:75-107) with `CourNo ≤ 1` satisfies the condition of stability. -/
theorem step_ok (h1 : 0 < q.dx1) (h2 : 0 < q.dx2) (h3 : 0 < q.dx3) {em cour : ℝ} (hc : cour ≤ 1) (hc0 : 0 ≤ cour)
    (hs : em * q.dt ≤ cour * qa w q) : 2 * em * q.dt * (hh w q 0 ^ 2 + hh w q 1 ^ 2 + hh w q 2 ^ 2) ≤ 1 := by
  have hq := qa_pos w q h1 h2 h3
  have b : em * q.dt ≤ qa w q := hs.trans (by nlinarith)
  have b2 : 2 * qa w q * (hh w q 0 ^ 2 + hh w q 1 ^ 2 + hh w q 2 ^ 2) ≤ 1 := by
    cases w
    · simp [qa, hh, dims0]
      have e : q.dx1 * q.dx1 * (q.dx1 ^ 2)⁻¹ = 1 := by field_simp
      have : 2 * (q.dx1 * q.dx1 / 4) * (q.dx1 ^ 2)⁻¹ = 1 / 2 := by
        calc _ = (q.dx1 * q.dx1 * (q.dx1 ^ 2)⁻¹) / 2 := by ring
          _ = _ := by rw [e]
      rw [this]; norm_num
    · simp [qa, hh, dims0]
      set m := min q.dx1 q.dx2 with hm
      have hm0 : 0 < m := lt_min h1 h2
      have u1 : (q.dx1 ^ 2)⁻¹ ≤ (m ^ 2)⁻¹ := by have := min_le_left q.dx1 q.dx2; gcongr
      have u2 : (q.dx2 ^ 2)⁻¹ ≤ (m ^ 2)⁻¹ := by have := min_le_right q.dx1 q.dx2; gcongr
      calc _ ≤ 2 * (m * m / 8) * ((m ^ 2)⁻¹ + (m ^ 2)⁻¹) := by gcongr
        _ = 1 / 2 := by field_simp; norm_num
        _ ≤ 1 := by norm_num
    · simp [qa, hh, dims0]
      set m := min (min q.dx1 q.dx2) q.dx3 with hm
      have hm0 : 0 < m := lt_min (lt_min h1 h2) h3
      have u1 : (q.dx1 ^ 2)⁻¹ ≤ (m ^ 2)⁻¹ := by have := (min_le_left (min q.dx1 q.dx2) q.dx3).trans (min_le_left q.dx1 q.dx2); gcongr
      have u2 : (q.dx2 ^ 2)⁻¹ ≤ (m ^ 2)⁻¹ := by have := (min_le_left (min q.dx1 q.dx2) q.dx3).trans (min_le_right q.dx1 q.dx2); gcongr
      have u3 : (q.dx3 ^ 2)⁻¹ ≤ (m ^ 2)⁻¹ := by have := min_le_right (min q.dx1 q.dx2) q.dx3; gcongr
      calc _ ≤ 2 * (m * m / 6) * ((m ^ 2)⁻¹ + (m ^ 2)⁻¹ + (m ^ 2)⁻¹) := by gcongr
        _ = 1 := by field_simp; norm_num
        _ ≤ 1 := le_rfl
  calc 2 * em * q.dt * (hh w q 0 ^ 2 + hh w q 1 ^ 2 + hh w q 2 ^ 2) = (em * q.dt) * (2 * (hh w q 0 ^ 2 + hh w q 1 ^ 2 + hh w q 2 ^ 2)) := by ring
    _ ≤ qa w q * (2 * (hh w q 0 ^ 2 + hh w q 1 ^ 2 + hh w q 2 ^ 2)) := by gcongr
    _ = 2 * qa w q * (hh w q 0 ^ 2 + hh w q 1 ^ 2 + hh w q 2 ^ 2) := by ring
    _ ≤ 1 := b2

/-- With the program's own time step (`dt` times the largest diffusivity at most `CourNo` times `qa`) Ohmic diffusion in any number of
dimensions, and Ohmic and ambipolar diffusion in one dimension, never increase the energy of the magnetic field over a period,
whatever the diffusivities of the zones. -/
theorem latRes_decays {N : Fin 3 → ℕ} (hL : Periodic N L) (hp : PerA N eta) (ht : 0 < q.tiny) (hAD : q.qAD ≤ 0 ∨ w = .d1) {em : ℝ} (he : EtaLe eta em)
    (h1 : 0 < q.dx1) (h2 : 0 < q.dx2) (h3 : 0 < q.dx3) (hdt : 0 ≤ q.dt) {cour : ℝ} (hc0 : 0 ≤ cour) (hc : cour ≤ 1)
    (hs : em * q.dt ≤ cour * qa w q) (is js ks : ℤ) :
    magSum (dims w) N is js ks (latRes w q eta L) ≤ magSum (dims w) N is js ks L := by
  rw [magSum_eq, magSum_eq]
  have e : bvec w (latRes w q eta L) = fun t k j i => bvec w L t k j i - q.dt * fcurl (hh w q) (vec (lEmf w q eta L)) t k j i := by
    funext t; exact latRes_bvec t
  rw [e]
  have pE : PerA N (lEmf w q eta L) := perE hL hp (lEmf w q) (fun eta L a b d k j i => sEmf w q eta L a b d k j i)
  refine decay (hh w q) (per_vec pE) (per_bvec hL) hdt (step_ok h1 h2 h3 hc hc0 hs) ?_ ?_
  · have := he 0 0 0; linarith
  · intro k j i
    have := emf_diss (L := L) ht hAD he k j i
    rw [curl_eq, curl_eq, curl_eq] at this
    exact this

end Energy
end Athena.Micro
