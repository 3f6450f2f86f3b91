import Verif.Micro.Diffuse
import Verif.Micro.ViscProps

/-!
# Resistivity acting on a linear magnetic field, and what it leaves alone
-/

namespace Athena.Micro
open Athena.Bvals hiding Rng
open Athena.Vl3 Athena.Gen

variable {ns : ℕ}

/-- The magnetic field is `c + G x` on the Grid, each component at the place where the code keeps it; nothing varies along directions
with a single zone. -/
structure LinB (w : Which) (q : Diff ns) (c : Fin 3 → ℝ) (G : Grad) (S : St ℝ ns) : Prop where
  off : ∀ a b, dims w b = false → G a b = 0
  f1 : ∀ k j i : ℤ, S.B1i k j i = c 0 + G 0 0 * ((i - 1/2) * q.dx1) + G 0 1 * (j * q.dx2) + G 0 2 * (k * q.dx3)
  f2 : ∀ k j i : ℤ, S.B2i k j i = c 1 + G 1 0 * (i * q.dx1) + G 1 1 * ((j - 1/2) * q.dx2) + G 1 2 * (k * q.dx3)
  f3 : ∀ k j i : ℤ, S.B3i k j i = c 2 + G 2 0 * (i * q.dx1) + G 2 1 * (j * q.dx2) + G 2 2 * ((k - 1/2) * q.dx3)
  c1 : ∀ k j i : ℤ, (S.U k j i).B1c = c 0 + G 0 0 * (i * q.dx1) + G 0 1 * (j * q.dx2) + G 0 2 * (k * q.dx3)
  c2 : ∀ k j i : ℤ, (S.U k j i).B2c = c 1 + G 1 0 * (i * q.dx1) + G 1 1 * (j * q.dx2) + G 1 2 * (k * q.dx3)
  c3 : ∀ k j i : ℤ, (S.U k j i).B3c = c 2 + G 2 0 * (i * q.dx1) + G 2 1 * (j * q.dx2) + G 2 2 * (k * q.dx3)

/-- Curl of the linear field: the current density. -/
def current (G : Grad) : Fin 3 → ℝ
  | 0 => G 2 1 - G 1 2
  | 1 => G 0 2 - G 2 0
  | 2 => G 1 0 - G 0 1

section Linear
variable {w : Which} {q : Diff ns} {c : Fin 3 → ℝ} {G : Grad} {S : St ℝ ns} (h1 : q.dx1 ≠ 0) (h2 : q.dx2 ≠ 0) (h3 : q.dx3 ≠ 0)
  (h : LinB w q c G S)
include h1 h2 h3 h

theorem curl_lin (k j i : ℤ) : curl w q S k j i = ⟨current G 0, current G 1, current G 2⟩ := by
  cases w
  · have o1 := fun a => h.off a 1 rfl
    have o2 := fun a => h.off a 2 rfl
    simp only [curl, h.c2, h.c3, current, o1, o2]
    push_cast
    congr 1
    · ring
    · field_simp; ring
    · field_simp; ring
  · have o2 := fun a => h.off a 2 rfl
    simp only [curl, h.c3, h.f1, h.f2, current, o2]
    push_cast
    congr 1
    · field_simp; ring
    · field_simp; ring
    · field_simp; ring
  · simp only [curl, h.f1, h.f2, h.f3, current]
    push_cast
    congr 1
    · field_simp; ring
    · field_simp; ring
    · field_simp; ring

/-- With a uniform emf the field does not change and the energy of a zone grows by `dt E·J`. -/
theorem res_uniform {eta : Arr (ℝ × ℝ × ℝ)} {e : V3} (he : lEmf w q eta S = fun _ _ _ => e) (k j i : ℤ) (hx : w = .d1 → e.x1 = 0):
    (latRes w q eta S).U k j i = { S.U k j i with
      E := (S.U k j i).E + q.dt * (e.x1 * current G 0 + e.x2 * current G 1 + e.x3 * current G 2) } ∧
    (latRes w q eta S).B1i k j i = S.B1i k j i ∧ (latRes w q eta S).B2i k j i = S.B2i k j i ∧ (latRes w q eta S).B3i k j i = S.B3i k j i := by
  cases w
  · have o1 := fun a => h.off a 1 rfl
    have o2 := fun a => h.off a 2 rfl
    have hx := hx rfl
    have u : (latRes .d1 q eta S).U k j i = { S.U k j i with
        E := (S.U k j i).E + q.dt * (e.x1 * current G 0 + e.x2 * current G 1 + e.x3 * current G 2) } := by
      simp only [latRes, lRU, lRE, ct1, lEn1, he, ener1, dim11, dim12, Bool.false_eq_true, if_false, sub_self, mul_zero, add_zero, sub_zero]
      congr 1
      simp only [h.c2, h.c3, current, o1, o2, hx]
      push_cast
      field_simp; ring
    have e2 : (latRes .d1 q eta S).B2i k j i = ((latRes .d1 q eta S).U k j i).B2c := rfl
    have e3 : (latRes .d1 q eta S).B3i k j i = ((latRes .d1 q eta S).U k j i).B3c := rfl
    refine ⟨u, rfl, ?_, ?_⟩
    · rw [e2, u]; simp only [h.c2, h.f2, o1]; ring
    · rw [e3, u]; simp only [h.c3, h.f3, o2]; ring
  · have o2 := fun a => h.off a 2 rfl
    have u : (latRes .d2 q eta S).U k j i = { S.U k j i with
        E := (S.U k j i).E + q.dt * (e.x1 * current G 0 + e.x2 * current G 1 + e.x3 * current G 2) } := by
      simp only [latRes, lRU, lRE, lB1, lB2, dB1, dB2, dB3, lEn1, lEn2, he, ener1, ener2, dim21, dim22, Bool.false_eq_true, if_false, if_true, sub_self,
        mul_zero, add_zero, neg_zero]
      ext
      · rfl
      · rfl
      · rfl
      · rfl
      · dsimp only
        simp only [h.c1, h.c2, h.c3, current, o2]
        push_cast
        field_simp; ring
      · dsimp only
        simp only [h.c1, h.f1]; push_cast; ring
      · dsimp only
        simp only [h.c2, h.f2]; push_cast; ring
      · rfl
      · rfl
    have e3 : (latRes .d2 q eta S).B3i k j i = ((latRes .d2 q eta S).U k j i).B3c := rfl
    refine ⟨u, ?_, ?_, ?_⟩
    · simp [latRes, lB1, dB1, he]
    · simp [latRes, lB2, dB2, he]
    · rw [e3, u]; simp only [h.c3, h.f3, o2]; ring
  · have u : (latRes .d3 q eta S).U k j i = { S.U k j i with
        E := (S.U k j i).E + q.dt * (e.x1 * current G 0 + e.x2 * current G 1 + e.x3 * current G 2) } := by
      simp only [latRes, lRU, lRE, lB1, lB2, lB3, dB1, dB2, dB3, lEn1, lEn2, lEn3, he, ener1, ener2, ener3, dim31, dim32, if_true, sub_self,
        mul_zero, add_zero]
      ext
      · rfl
      · rfl
      · rfl
      · rfl
      · dsimp only
        simp only [h.c1, h.c2, h.c3, current]
        push_cast
        field_simp; ring
      · dsimp only
        simp only [h.c1, h.f1]; push_cast; ring
      · dsimp only
        simp only [h.c2, h.f2]; push_cast; ring
      · dsimp only
        simp only [h.c3, h.f3]; push_cast; ring
      · rfl
    refine ⟨u, ?_, ?_, ?_⟩
    · simp [latRes, lB1, dB1, he]
    · simp [latRes, lB2, dB2, he]
    · simp [latRes, lB3, dB3, he]

end Linear

/-- **Ohmic heating.** In a linear field with uniform Ohmic diffusivity `η` the call leaves the field as it is and heats every zone
by exactly `dt η J²`, `J` the curl of the field. -/
theorem ohmic_heating {w : Which} {q : Diff ns} {c : Fin 3 → ℝ} {G : Grad} {S : St ℝ ns} (h1 : q.dx1 ≠ 0) (h2 : q.dx2 ≠ 0) (h3 : q.dx3 ≠ 0)
    (h : LinB w q c G S) {g : Rng} (hg : RngOk (dims w) g) (W : WorkR) (ho : 0 < q.etaOhm) (hAD : q.qAD ≤ 0) {e : ℝ}
    (he : ∀ k j i, (q.eta (S.U k j i)).1 = e) {k j i : ℤ} (ha : Active g k j i) :
    (resistE w q g S W).U k j i = { S.U k j i with E := (S.U k j i).E + q.dt * e * ∑ t, current G t ^ 2 } ∧
    (resistE w q g S W).B1i k j i = S.B1i k j i ∧ (resistE w q g S W).B2i k j i = S.B2i k j i ∧ (resistE w q g S W).B3i k j i = S.B3i k j i := by
  have r := resist_act (q := q) (W := W) hg (agM_of (q := q) hg (agree_self _ g S) W.eta) (act_of hg (agree_self _ g S))
  have hx : w = .d1 → e * current G 0 = 0 := fun hw => by
    subst hw
    simp [current, h.off 2 1 rfl, h.off 1 2 rfl]
  have em : lEmf w q (lEta q S) S = fun _ _ _ => ⟨e * current G 0, e * current G 1, e * current G 2⟩ := by
    funext k j i
    unfold lEmf
    dsimp only
    rw [if_pos ho, if_neg (by linarith : ¬ q.qAD > 0)]
    cases w
    · have := hx rfl
      simp only [ohm, lEta, he, curl_lin h1 h2 h3 h, V3.add, V3.zero, this]
      congr 1 <;> ring
    · simp only [ohm, lEta, he, curl_lin h1 h2 h3 h, V3.add, V3.zero]
      congr 1 <;> ring
    · simp only [ohm, lEta, he, curl_lin h1 h2 h3 h, V3.add, V3.zero]
      congr 1 <;> ring
  obtain ⟨u, b1, b2, b3⟩ := res_uniform h1 h2 h3 h em k j i hx
  have w0 : ∀ t, 0 ≤ wid (dims w t) 1 := fun t => by unfold wid; split_ifs <;> omega
  have := w0 0; have := w0 1; have := w0 2
  obtain ⟨k0, k1, j0, j1, i0, i1⟩ := ha
  refine ⟨(r.U k j i k0 k1 j0 j1 i0 i1).trans (u.trans ?_), (r.B1 k j i k0 k1 j0 j1 i0 (by omega)).trans b1,
    (r.B2 k j i k0 k1 j0 (by omega) i0 i1).trans b2, (r.B3 k j i k0 (by omega) j0 j1 i0 i1).trans b3⟩
  rw [Fin.sum_univ_three]
  congr 1
  ring

/-- **No current, no change.** If the curl of a linear field vanishes, Ohmic and ambipolar diffusion with any
diffusivities, differing from zone to zone, leave every active zone and face as it is. -/
theorem current_free {w : Which} {q : Diff ns} {c : Fin 3 → ℝ} {G : Grad} {S : St ℝ ns} (h1 : q.dx1 ≠ 0) (h2 : q.dx2 ≠ 0) (h3 : q.dx3 ≠ 0)
    (h : LinB w q c G S) (hJ : ∀ a b, G a b = G b a) {g : Rng} (hg : RngOk (dims w) g) (W : WorkR) (eta : Arr (ℝ × ℝ × ℝ)) :
    ActEq (dims w) g (resist w q g S eta W) S := by
  have z : ∀ t, current G t = 0 := by
    intro t
    rcases three t with rfl | rfl | rfl <;> simp [current, hJ 2 1, hJ 0 2, hJ 1 0]
  have a' : AgM w g eta eta S S := ⟨fun _ _ _ _ _ _ => ⟨rfl, rfl, rfl, rfl⟩, fun _ _ _ _ _ _ => rfl, fun _ _ _ _ _ _ => rfl,
    fun _ _ _ _ _ _ => rfl⟩
  have r := resist_act (q := q) (W := W) hg a' (act_of hg (agree_self _ g S))
  have em : lEmf w q eta S = fun _ _ _ => V3.zero := by
    funext k j i
    have e0 : ohm w eta (curl w q S) k j i = V3.zero := by
      cases w <;> simp [ohm, curl_lin h1 h2 h3 h, z, V3.zero]
    have e1 : ambi w q S eta (curl w q S) k j i = V3.zero := by
      cases w <;> simp [ambi, ad1, ad2, ad3, perp, curl_lin h1 h2 h3 h, z, V3.zero]
    have e2 : V3.add V3.zero V3.zero = V3.zero := by simp [V3.add, V3.zero]
    unfold lEmf
    dsimp only
    rw [e0, e1, e2]
    split_ifs <;> first | rfl | exact e2
  have u := fun k j i => res_uniform h1 h2 h3 h em k j i (fun _ => rfl)
  refine ⟨fun k j i a1 a2 a3 a4 a5 a6 => (r.U k j i a1 a2 a3 a4 a5 a6).trans ?_, fun k j i a1 a2 a3 a4 a5 a6 => (r.B1 k j i a1 a2 a3 a4 a5 a6).trans (u k j i).2.1,
    fun k j i a1 a2 a3 a4 a5 a6 => (r.B2 k j i a1 a2 a3 a4 a5 a6).trans (u k j i).2.2.1,
    fun k j i a1 a2 a3 a4 a5 a6 => (r.B3 k j i a1 a2 a3 a4 a5 a6).trans (u k j i).2.2.2⟩
  rw [(u k j i).1]
  simp [V3.zero]

/-- Resistivity touches density, momentum and scalars of no zone, and nothing of a ghost zone. -/
theorem resist_only {w : Which} {q : Diff ns} {g : Rng} (S : St ℝ ns) (eta : Arr (ℝ × ℝ × ℝ)) (W : WorkR) (k j i : ℤ) :
    (∃ e b1 b2 b3, (resist w q g S eta W).U k j i = { S.U k j i with E := e, B1c := b1, B2c := b2, B3c := b3 }) ∧
      (¬ Active g k j i → (resist w q g S eta W).U k j i = S.U k j i) := by
  constructor
  · have := resist_fluid (q := q) (S := S) (w := w) (g := g) eta W k j i
    simp only [fluid, Prod.mk.injEq] at this
    obtain ⟨a, b, c, d, f⟩ := this
    refine ⟨((resist w q g S eta W).U k j i).E, ((resist w q g S eta W).U k j i).B1c, ((resist w q g S eta W).U k j i).B2c,
      ((resist w q g S eta W).U k j i).B3c, ?_⟩
    ext
    · exact a
    · exact b
    · exact c
    · exact d
    · rfl
    · rfl
    · rfl
    · rfl
    · rw [f]
  · intro hn
    have o : ¬ ((g.ks ≤ k ∧ k ≤ g.ke) ∧ (g.js ≤ j ∧ j ≤ g.je) ∧ (g.is ≤ i ∧ i ≤ g.ie)) := fun ⟨⟨a, b⟩, ⟨c, d⟩, e, f⟩ => hn ⟨a, b, c, d, e, f⟩
    have eU : cEU w q g S eta W k j i = S.U k j i := by
      unfold cEU addE
      dsimp only
      split_ifs <;> simp only [mod3_out _ _ o]
    cases w <;> unfold resist act <;> dsimp only <;> simp only [mod3_out _ _ o] <;> exact eU

/-! ### Instances -/

/-- The linear field, in a gas of density 1 with energy 100. -/
noncomputable def linSt (q : Diff 0) (c : Fin 3 → ℝ) (G : Grad) : St ℝ 0 where
  U := fun k j i => ⟨1, 0, 0, 0, 100, c 0 + G 0 0 * (i * q.dx1) + G 0 1 * (j * q.dx2) + G 0 2 * (k * q.dx3),
    c 1 + G 1 0 * (i * q.dx1) + G 1 1 * (j * q.dx2) + G 1 2 * (k * q.dx3),
    c 2 + G 2 0 * (i * q.dx1) + G 2 1 * (j * q.dx2) + G 2 2 * (k * q.dx3), fun i => i.elim0⟩
  B1i := fun k j i => c 0 + G 0 0 * ((i - 1/2) * q.dx1) + G 0 1 * (j * q.dx2) + G 0 2 * (k * q.dx3)
  B2i := fun k j i => c 1 + G 1 0 * (i * q.dx1) + G 1 1 * ((j - 1/2) * q.dx2) + G 1 2 * (k * q.dx3)
  B3i := fun k j i => c 2 + G 2 0 * (i * q.dx1) + G 2 1 * (j * q.dx2) + G 2 2 * ((k - 1/2) * q.dx3)

theorem linSt_lin (w : Which) (q : Diff 0) (c : Fin 3 → ℝ) (G : Grad) (h : ∀ a b, dims w b = false → G a b = 0) : LinB w q c G (linSt q c G) :=
  ⟨h, fun _ _ _ => rfl, fun _ _ _ => rfl, fun _ _ _ => rfl, fun _ _ _ => rfl, fun _ _ _ => rfl, fun _ _ _ => rfl⟩

/-- Ohmic diffusivity 3. -/
noncomputable def exO : Diff 0 := { exQ with etaOhm := 3, qAD := 0, eta := fun _ => (3, 0, 0) }

/-- A field with current `(2, 0, -1)` heats a zone at the rate `3 (4 + 1)`. -/
example (W : WorkR) : ((resistE .d3 exO exG3 (linSt exO (fun _ => 1) (fun a b => if a = 2 ∧ b = 1 then 2 else if a = 0 ∧ b = 1 then 1 else 0)) W).U
    4 4 4).E = 100 + 1/8 * 15 := by
  have h := (ohmic_heating (w := .d3) (q := exO) (by norm_num [exO, exQ]) (by norm_num [exO, exQ]) (by norm_num [exO, exQ])
    (linSt_lin .d3 exO (fun _ => 1) (fun a b => if a = 2 ∧ b = 1 then 2 else if a = 0 ∧ b = 1 then 1 else 0) (by
      intro a b h; rcases three b with rfl | rfl | rfl <;> simp [dims0] at h)) exG3_ok W (by norm_num [exO]) (by norm_num [exO]) (e := 3)
    (fun _ _ _ => rfl) exG3_act).1
  rw [h, Fin.sum_univ_three]
  simp only [linSt, exO, exQ, current, Fin.isValue, Fin.reduceEq, and_true, and_false, true_and, false_and, if_true, if_false]
  norm_num

/-- A current-free field that is not uniform: `B1 = x2`, `B2 = x1`, with diffusivities that differ from zone to zone. -/
example (W : WorkR) : ActEq (dims .d2) exG2 (resist .d2 { exO with qAD := 1 } exG2
    (linSt exO (fun _ => 0) (fun a b => if (a = 0 ∧ b = 1) ∨ (a = 1 ∧ b = 0) then 1 else 0)) (fun k j i => (i ^ 2, 0, j ^ 2)) W)
    (linSt exO (fun _ => 0) (fun a b => if (a = 0 ∧ b = 1) ∨ (a = 1 ∧ b = 0) then 1 else 0)) := by
  refine current_free (c := fun _ => 0) (G := fun a b => if (a = 0 ∧ b = 1) ∨ (a = 1 ∧ b = 0) then 1 else 0) (by norm_num [exO, exQ]) (by norm_num [exO, exQ])
    (by norm_num [exO, exQ]) ?_ ?_ exG2_ok W _
  · exact ⟨fun a b h => by rcases three b with rfl | rfl | rfl <;> simp [dims0] at h ⊢, fun _ _ _ => rfl, fun _ _ _ => rfl, fun _ _ _ => rfl, fun _ _ _ => rfl,
      fun _ _ _ => rfl, fun _ _ _ => rfl⟩
  · intro a b
    rcases three a with rfl | rfl | rfl <;> rcases three b with rfl | rfl | rfl <;> simp

end Athena.Micro
