import Verif.Micro.Resist
import Mathlib.Tactic.Positivity
import Mathlib.Tactic.GCongr

/-!
# Sums over a period and curls: Ohmic diffusion never increases the energy of the field
-/

namespace Athena.Micro
open Athena.Bvals hiding Rng
open Athena.Vl3 Athena.Gen

/-! ### Sums over a period -/

section Sums
variable {N : Fin 3 → ℕ} {is js ks : ℤ}

/-- Sum over one period. -/
abbrev psum (N : Fin 3 → ℕ) (is js ks : ℤ) (f : Arr ℝ) : ℝ := zsum (N 0) (N 1) (N 2) is js ks f

/-- The neighbour in direction `t`. -/
def nxt {α : Type} (t : Fin 3) (f : Arr α) : Arr α := fun k j i => if t = 0 then f k j (i+1) else if t = 1 then f k (j+1) i else f (k+1) j i

theorem nxt0 {α : Type} (f : Arr α) (k j i : ℤ) : nxt 0 f k j i = f k j (i+1) := rfl
theorem nxt1 {α : Type} (f : Arr α) (k j i : ℤ) : nxt 1 f k j i = f k (j+1) i := rfl
theorem nxt2 {α : Type} (f : Arr α) (k j i : ℤ) : nxt 2 f k j i = f (k+1) j i := rfl

theorem nxt_comm {α : Type} (s t : Fin 3) (f : Arr α) : nxt s (nxt t f) = nxt t (nxt s f) := by
  funext k j i
  rcases three s with rfl | rfl | rfl <;> rcases three t with rfl | rfl | rfl <;> rfl

theorem per_nxt {α : Type} {f : Arr α} (h : PerA N f) (t : Fin 3) : PerA N (nxt t f) := by
  obtain ⟨a, b, c⟩ := h
  refine ⟨fun k j i => ?_, fun k j i => ?_, fun k j i => ?_⟩ <;> rcases three t with rfl | rfl | rfl
  · rw [nxt0, nxt0, ← a k j (i+1)]; congr 1; ring
  · rw [nxt1, nxt1, a]
  · rw [nxt2, nxt2, a]
  · rw [nxt0, nxt0, b]
  · rw [nxt1, nxt1, ← b k (j+1) i]; congr 1; ring
  · rw [nxt2, nxt2, b]
  · rw [nxt0, nxt0, c]
  · rw [nxt1, nxt1, c]
  · rw [nxt2, nxt2, ← c (k+1) j i]; congr 1; ring

theorem per_mul {f g : Arr ℝ} (hf : PerA N f) (hg : PerA N g) : PerA N (fun k j i => f k j i * g k j i) :=
  ⟨fun k j i => by show f _ _ _ * g _ _ _ = f _ _ _ * g _ _ _; rw [hf.1, hg.1],
    fun k j i => by show f _ _ _ * g _ _ _ = f _ _ _ * g _ _ _; rw [hf.2.1, hg.2.1],
    fun k j i => by show f _ _ _ * g _ _ _ = f _ _ _ * g _ _ _; rw [hf.2.2, hg.2.2]⟩

theorem psum_nxt {f : Arr ℝ} (h : PerA N f) (t : Fin 3) : psum N is js ks (nxt t f) = psum N is js ks f := by
  rcases three t with rfl | rfl | rfl
  · exact zsum_step f (fun _ _ _ => 0) (fun _ _ _ => 0) (-1) 0 0 (fun k j i => by rw [nxt0]; ring) h.1 (fun _ _ _ => rfl) (fun _ _ _ => rfl)
  · exact zsum_step (fun _ _ _ => 0) f (fun _ _ _ => 0) 0 (-1) 0 (fun k j i => by rw [nxt1]; ring) (fun _ _ _ => rfl) h.2.1 (fun _ _ _ => rfl)
  · exact zsum_step (fun _ _ _ => 0) (fun _ _ _ => 0) f 0 0 (-1) (fun k j i => by rw [nxt2]; ring) (fun _ _ _ => rfl) (fun _ _ _ => rfl) h.2.2

theorem psum_add (f g : Arr ℝ) : psum N is js ks (fun k j i => f k j i + g k j i) = psum N is js ks f + psum N is js ks g := by
  simp only [psum, zsum, Finset.sum_add_distrib]
theorem psum_mul (c : ℝ) (f : Arr ℝ) : psum N is js ks (fun k j i => c * f k j i) = c * psum N is js ks f := by
  simp only [psum, zsum, Finset.mul_sum]
theorem psum_sub (f g : Arr ℝ) : psum N is js ks (fun k j i => f k j i - g k j i) = psum N is js ks f - psum N is js ks g := by
  simp only [psum, zsum, Finset.sum_sub_distrib]
theorem psum_le {f g : Arr ℝ} (h : ∀ k j i, f k j i ≤ g k j i) : psum N is js ks f ≤ psum N is js ks g :=
  Finset.sum_le_sum fun _ _ => Finset.sum_le_sum fun _ _ => Finset.sum_le_sum fun _ _ => h _ _ _
theorem psum_nonneg {f : Arr ℝ} (h : ∀ k j i, 0 ≤ f k j i) : 0 ≤ psum N is js ks f :=
  Finset.sum_nonneg fun _ _ => Finset.sum_nonneg fun _ _ => Finset.sum_nonneg fun _ _ => h _ _ _

/-- Inner product. -/
abbrev ip (N : Fin 3 → ℕ) (is js ks : ℤ) (f g : Arr ℝ) : ℝ := psum N is js ks (fun k j i => f k j i * g k j i)

theorem ip_comm (f g : Arr ℝ) : ip N is js ks f g = ip N is js ks g f := by
  unfold ip; congr 1; funext k j i; ring

/-- Moving both factors to the neighbour changes nothing. -/
theorem ip_nxt {f g : Arr ℝ} (hf : PerA N f) (hg : PerA N g) (t : Fin 3) : ip N is js ks (nxt t f) (nxt t g) = ip N is js ks f g := by
  refine Eq.trans ?_ (psum_nxt (per_mul hf hg) t)
  unfold ip
  congr 1
  funext k j i
  rcases three t with rfl | rfl | rfl <;> rfl

end Sums

/-! ### Differences and curls -/

section Curl
variable {N : Fin 3 → ℕ} {is js ks : ℤ} (h : Fin 3 → ℝ)

/-- Forward difference, with the factor `h t` (one over the zone size; zero along a direction with one zone). -/
def dif (t : Fin 3) (f : Arr ℝ) : Arr ℝ := fun k j i => h t * (nxt t f k j i - f k j i)

/-- Forward curl. -/
def fcurl (E : Fin 3 → Arr ℝ) (t : Fin 3) : Arr ℝ := fun k j i =>
  if t = 0 then dif h 1 (E 2) k j i - dif h 2 (E 1) k j i
  else if t = 1 then dif h 2 (E 0) k j i - dif h 0 (E 2) k j i else dif h 0 (E 1) k j i - dif h 1 (E 0) k j i

/-- The product of one field with the forward difference of another. -/
theorem ip_dif (t : Fin 3) (f g : Arr ℝ) : ip N is js ks f (dif h t g) = h t * (ip N is js ks f (nxt t g) - ip N is js ks f g) := by
  unfold ip dif
  rw [← psum_sub, ← psum_mul]
  congr 1; funext k j i; ring

theorem ip_dif2 (s t : Fin 3) (f g : Arr ℝ) : ip N is js ks (dif h s f) (dif h t g) =
    h s * h t * (ip N is js ks (nxt s f) (nxt t g) - ip N is js ks (nxt s f) g - ip N is js ks f (nxt t g) + ip N is js ks f g) := by
  unfold ip dif
  rw [← psum_sub, ← psum_sub, ← psum_add, ← psum_mul]
  congr 1; funext k j i; ring

/-- A difference is at most twice the field. -/
theorem dif_le {f : Arr ℝ} (hf : PerA N f) (t : Fin 3) : ip N is js ks (dif h t f) (dif h t f) ≤ 4 * h t ^ 2 * ip N is js ks f f := by
  have : ip N is js ks (dif h t f) (dif h t f) ≤ psum N is js ks (fun k j i => h t ^ 2 * (2 * (nxt t f k j i * nxt t f k j i) + 2 * (f k j i * f k j i))) := by
    refine psum_le fun k j i => ?_
    unfold dif
    nlinarith [mul_nonneg (sq_nonneg (h t)) (sq_nonneg (nxt t f k j i + f k j i))]
  rw [psum_mul, psum_add, psum_mul, psum_mul] at this
  have e : psum N is js ks (fun k j i => nxt t f k j i * nxt t f k j i) = ip N is js ks f f := ip_nxt hf hf t
  rw [e] at this
  have e2 : psum N is js ks (fun k j i => f k j i * f k j i) = ip N is js ks f f := rfl
  rw [e2] at this
  linarith

/-- Sum of the squares of a vector. -/
abbrev sq3 (N : Fin 3 → ℕ) (is js ks : ℤ) (E : Fin 3 → Arr ℝ) : ℝ := ip N is js ks (E 0) (E 0) + ip N is js ks (E 1) (E 1) + ip N is js ks (E 2) (E 2)

/-- The sum of the squares of the curl is that of all differences less that of the divergence. -/
theorem curl_le {E : Fin 3 → Arr ℝ} (hE : ∀ t, PerA N (E t)) :
    sq3 N is js ks (fcurl h E) ≤ ∑ s, ∑ t, ip N is js ks (dif h s (E t)) (dif h s (E t)) := by
  -- backward divergence, moved to the neighbour so that only forward shifts occur
  let X : Fin 3 → Arr ℝ := fun t k j i => h t * (nxt 0 (nxt 1 (nxt 2 (E t))) k j i
    - (if t = 0 then nxt 1 (nxt 2 (E t)) else if t = 1 then nxt 0 (nxt 2 (E t)) else nxt 0 (nxt 1 (E t))) k j i)
  have pos : 0 ≤ psum N is js ks (fun k j i => (X 0 k j i + X 1 k j i + X 2 k j i) * (X 0 k j i + X 1 k j i + X 2 k j i)) :=
    psum_nonneg fun _ _ _ => mul_self_nonneg _
  have x0 : X 0 = nxt 1 (nxt 2 (dif h 0 (E 0))) := by funext k j i; rfl
  have x1 : X 1 = nxt 0 (nxt 2 (dif h 1 (E 1))) := by funext k j i; rfl
  have x2 : X 2 = nxt 0 (nxt 1 (dif h 2 (E 2))) := by funext k j i; rfl
  have pd : ∀ s t, PerA N (dif h s (E t)) := fun s t => by
    have a := per_nxt (hE t) s; have b := hE t
    exact ⟨fun k j i => by unfold dif; rw [a.1, b.1], fun k j i => by unfold dif; rw [a.2.1, b.2.1], fun k j i => by unfold dif; rw [a.2.2, b.2.2]⟩
  have n0 : ip N is js ks (X 0) (X 0) = ip N is js ks (dif h 0 (E 0)) (dif h 0 (E 0)) := by
    rw [x0, ip_nxt (per_nxt (pd 0 0) 2) (per_nxt (pd 0 0) 2), ip_nxt (pd 0 0) (pd 0 0)]
  have n1 : ip N is js ks (X 1) (X 1) = ip N is js ks (dif h 1 (E 1)) (dif h 1 (E 1)) := by
    rw [x1, ip_nxt (per_nxt (pd 1 1) 2) (per_nxt (pd 1 1) 2), ip_nxt (pd 1 1) (pd 1 1)]
  have n2 : ip N is js ks (X 2) (X 2) = ip N is js ks (dif h 2 (E 2)) (dif h 2 (E 2)) := by
    rw [x2, ip_nxt (per_nxt (pd 2 2) 1) (per_nxt (pd 2 2) 1), ip_nxt (pd 2 2) (pd 2 2)]
  -- mixed products
  have mixed : ∀ s t : Fin 3, ip N is js ks (nxt t (dif h s (E s))) (nxt s (dif h t (E t))) = ip N is js ks (dif h t (E s)) (dif h s (E t)) := by
    intro s t
    have e : ∀ f : Arr ℝ, ∀ a b : Fin 3, nxt a (dif h b f) = fun k j i => h b * (nxt a (nxt b f) k j i - nxt a f k j i) := by
      intro f a b; funext k j i
      rcases three a with rfl | rfl | rfl <;> rfl
    have f0 : ip N is js ks (nxt t (dif h s (E s))) (nxt s (dif h t (E t))) = h s * h t *
        (ip N is js ks (nxt t (nxt s (E s))) (nxt s (nxt t (E t))) - ip N is js ks (nxt t (nxt s (E s))) (nxt s (E t))
          - ip N is js ks (nxt t (E s)) (nxt s (nxt t (E t))) + ip N is js ks (nxt t (E s)) (nxt s (E t))) := by
      rw [e, e]
      unfold ip
      rw [← psum_sub, ← psum_sub, ← psum_add, ← psum_mul]
      congr 1; funext k j i; ring
    rw [f0, ip_dif2, nxt_comm s t (E t), ip_nxt (per_nxt (hE s) s) (per_nxt (hE t) s), ip_nxt (hE s) (hE t), nxt_comm t s (E s),
      ip_nxt (per_nxt (hE s) t) (hE t)]
    rw [ip_nxt (hE s) (per_nxt (hE t) s) t]
    ring
  have m01 : ip N is js ks (X 0) (X 1) = ip N is js ks (dif h 1 (E 0)) (dif h 0 (E 1)) := by
    rw [x0, x1, nxt_comm 1 2, nxt_comm 0 2, ip_nxt (per_nxt (pd 0 0) 1) (per_nxt (pd 1 1) 0)]; exact mixed 0 1
  have m02 : ip N is js ks (X 0) (X 2) = ip N is js ks (dif h 2 (E 0)) (dif h 0 (E 2)) := by
    rw [x0, x2, nxt_comm 0 1, ip_nxt (per_nxt (pd 0 0) 2) (per_nxt (pd 2 2) 0)]; exact mixed 0 2
  have m12 : ip N is js ks (X 1) (X 2) = ip N is js ks (dif h 2 (E 1)) (dif h 1 (E 2)) := by
    rw [x1, x2, ip_nxt (per_nxt (pd 1 1) 2) (per_nxt (pd 2 2) 1)]; exact mixed 1 2
  have expand : psum N is js ks (fun k j i => (X 0 k j i + X 1 k j i + X 2 k j i) * (X 0 k j i + X 1 k j i + X 2 k j i)) =
      ip N is js ks (X 0) (X 0) + ip N is js ks (X 1) (X 1) + ip N is js ks (X 2) (X 2)
        + 2 * ip N is js ks (X 0) (X 1) + 2 * ip N is js ks (X 0) (X 2) + 2 * ip N is js ks (X 1) (X 2) := by
    unfold ip
    rw [← psum_mul, ← psum_mul, ← psum_mul, ← psum_add, ← psum_add, ← psum_add, ← psum_add, ← psum_add]
    congr 1; funext k j i; ring
  have c : ∀ f g : Arr ℝ, ip N is js ks (fun k j i => f k j i - g k j i) (fun k j i => f k j i - g k j i) =
      ip N is js ks f f - 2 * ip N is js ks f g + ip N is js ks g g := by
    intro f g
    unfold ip
    rw [← psum_mul, ← psum_sub, ← psum_add]
    congr 1; funext k j i; ring
  have c0 : ip N is js ks (fcurl h E 0) (fcurl h E 0) = _ := c (dif h 1 (E 2)) (dif h 2 (E 1))
  have c1 : ip N is js ks (fcurl h E 1) (fcurl h E 1) = _ := c (dif h 2 (E 0)) (dif h 0 (E 2))
  have c2 : ip N is js ks (fcurl h E 2) (fcurl h E 2) = _ := c (dif h 0 (E 1)) (dif h 1 (E 0))
  unfold sq3
  rw [c0, c1, c2]
  rw [expand, n0, n1, n2, m01, m02, m12] at pos
  simp only [Fin.sum_univ_three]
  have s1 := ip_comm (N := N) (is := is) (js := js) (ks := ks) (dif h 1 (E 2)) (dif h 2 (E 1))
  have s2 := ip_comm (N := N) (is := is) (js := js) (ks := ks) (dif h 0 (E 1)) (dif h 1 (E 0))
  rw [s1, s2]
  linarith

/-- The curl is at most `4 (h1² + h2² + h3²)` times the field (in squares). -/
theorem curl_bound {E : Fin 3 → Arr ℝ} (hE : ∀ t, PerA N (E t)) :
    sq3 N is js ks (fcurl h E) ≤ 4 * (h 0 ^ 2 + h 1 ^ 2 + h 2 ^ 2) * sq3 N is js ks E := by
  refine (curl_le h hE).trans ?_
  have d := fun s t => dif_le (N := N) (is := is) (js := js) (ks := ks) h (hE t) s
  simp only [Fin.sum_univ_three]
  unfold sq3
  linarith [d 0 0, d 0 1, d 0 2, d 1 0, d 1 1, d 1 2, d 2 0, d 2 1, d 2 2]

/-- Backward difference. -/
def bdif (t : Fin 3) (f : Arr ℝ) : Arr ℝ := fun k j i =>
  h t * (f k j i - if t = 0 then f k j (i-1) else if t = 1 then f k (j-1) i else f (k-1) j i)

/-- Backward curl. -/
def bcurl (B : Fin 3 → Arr ℝ) (t : Fin 3) : Arr ℝ := fun k j i =>
  if t = 0 then bdif h 1 (B 2) k j i - bdif h 2 (B 1) k j i
  else if t = 1 then bdif h 2 (B 0) k j i - bdif h 0 (B 2) k j i else bdif h 0 (B 1) k j i - bdif h 1 (B 0) k j i

theorem nxt_bdif (t : Fin 3) (f : Arr ℝ) : nxt t (bdif h t f) = dif h t f := by
  funext k j i
  rcases three t with rfl | rfl | rfl <;> simp [nxt, bdif, dif]

theorem per_bdif {f : Arr ℝ} (hf : PerA N f) (t : Fin 3) : PerA N (bdif h t f) := by
  obtain ⟨a, b, c⟩ := hf
  refine ⟨fun k j i => ?_, fun k j i => ?_, fun k j i => ?_⟩ <;> rcases three t with rfl | rfl | rfl <;>
    simp only [bdif, if_true, if_false, Fin.isValue, Fin.reduceEq, a, b, c]
  · rw [show i + (N 0 : ℤ) - 1 = i - 1 + N 0 by ring, a]
  · rw [show j + (N 1 : ℤ) - 1 = j - 1 + N 1 by ring, b]
  · rw [show k + (N 2 : ℤ) - 1 = k - 1 + N 2 by ring, c]

/-- Summation by parts. -/
theorem by_parts {f g : Arr ℝ} (hf : PerA N f) (hg : PerA N g) (t : Fin 3) : ip N is js ks f (dif h t g) = - ip N is js ks (bdif h t f) g := by
  rw [ip_dif, ← ip_nxt (per_bdif h hf t) hg t, nxt_bdif, ip_comm (dif h t f), ip_dif, ip_comm (nxt t g) (nxt t f), ip_nxt hf hg, ip_comm (nxt t g) f]
  ring

theorem curl_parts {E B : Fin 3 → Arr ℝ} (hE : ∀ t, PerA N (E t)) (hB : ∀ t, PerA N (B t)) :
    ip N is js ks (B 0) (fcurl h E 0) + ip N is js ks (B 1) (fcurl h E 1) + ip N is js ks (B 2) (fcurl h E 2)
      = ip N is js ks (bcurl h B 0) (E 0) + ip N is js ks (bcurl h B 1) (E 1) + ip N is js ks (bcurl h B 2) (E 2) := by
  have l : ∀ f g g' : Arr ℝ, ip N is js ks f (fun k j i => g k j i - g' k j i) = ip N is js ks f g - ip N is js ks f g' := by
    intro f g g'; unfold ip; rw [← psum_sub]; congr 1; funext k j i; ring
  have r : ∀ f g g' : Arr ℝ, ip N is js ks (fun k j i => g k j i - g' k j i) f = ip N is js ks g f - ip N is js ks g' f := by
    intro f g g'; unfold ip; rw [← psum_sub]; congr 1; funext k j i; ring
  have a0 : ip N is js ks (B 0) (fcurl h E 0) = _ := l (B 0) (dif h 1 (E 2)) (dif h 2 (E 1))
  have a1 : ip N is js ks (B 1) (fcurl h E 1) = _ := l (B 1) (dif h 2 (E 0)) (dif h 0 (E 2))
  have a2 : ip N is js ks (B 2) (fcurl h E 2) = _ := l (B 2) (dif h 0 (E 1)) (dif h 1 (E 0))
  have b0 : ip N is js ks (bcurl h B 0) (E 0) = _ := r (E 0) (bdif h 1 (B 2)) (bdif h 2 (B 1))
  have b1 : ip N is js ks (bcurl h B 1) (E 1) = _ := r (E 1) (bdif h 2 (B 0)) (bdif h 0 (B 2))
  have b2 : ip N is js ks (bcurl h B 2) (E 2) = _ := r (E 2) (bdif h 0 (B 1)) (bdif h 1 (B 0))
  rw [a0, a1, a2, b0, b1, b2, by_parts h (hB 0) (hE 2) 1, by_parts h (hB 0) (hE 1) 2, by_parts h (hB 1) (hE 0) 2, by_parts h (hB 1) (hE 2) 0,
    by_parts h (hB 2) (hE 1) 0, by_parts h (hB 2) (hE 0) 1]
  ring

/-- A field that changes by minus `dt` times the curl of `E` loses energy, if `E` dissipates (`|E|² ≤ eta E·J` with `J` the
backward curl of the field) and the step satisfies `2 eta dt (h1² + h2² + h3²) ≤ 1`. -/
theorem decay {E B : Fin 3 → Arr ℝ} (hE : ∀ t, PerA N (E t)) (hB : ∀ t, PerA N (B t)) {eta dt : ℝ} (hdt : 0 ≤ dt)
    (hs : 2 * eta * dt * (h 0 ^ 2 + h 1 ^ 2 + h 2 ^ 2) ≤ 1) (h0 : 0 ≤ eta)
    (hd : ∀ k j i, E 0 k j i ^ 2 + E 1 k j i ^ 2 + E 2 k j i ^ 2 ≤
      eta * (E 0 k j i * bcurl h B 0 k j i + E 1 k j i * bcurl h B 1 k j i + E 2 k j i * bcurl h B 2 k j i)) :
    sq3 N is js ks (fun t k j i => B t k j i - dt * fcurl h E t k j i) ≤ sq3 N is js ks B := by
  have x : ∀ t, ip N is js ks (fun k j i => B t k j i - dt * fcurl h E t k j i) (fun k j i => B t k j i - dt * fcurl h E t k j i) =
      ip N is js ks (B t) (B t) - 2 * dt * ip N is js ks (B t) (fcurl h E t) + dt ^ 2 * ip N is js ks (fcurl h E t) (fcurl h E t) := by
    intro t
    unfold ip
    rw [← psum_mul, ← psum_mul, ← psum_sub, ← psum_add]
    congr 1; funext k j i; ring
  unfold sq3
  rw [x 0, x 1, x 2]
  have cb := curl_bound (N := N) (is := is) (js := js) (ks := ks) h hE
  have cp := curl_parts (N := N) (is := is) (js := js) (ks := ks) h hE hB
  unfold sq3 at cb
  -- the dissipated energy
  let P : ℝ := ip N is js ks (bcurl h B 0) (E 0) + ip N is js ks (bcurl h B 1) (E 1) + ip N is js ks (bcurl h B 2) (E 2)
  have hP : sq3 N is js ks E ≤ eta * P := by
    have e1 : sq3 N is js ks E = psum N is js ks (fun k j i => E 0 k j i ^ 2 + E 1 k j i ^ 2 + E 2 k j i ^ 2) := by
      unfold sq3 ip
      rw [← psum_add, ← psum_add]
      congr 1; funext k j i; ring
    have e2 : eta * P = psum N is js ks (fun k j i =>
        eta * (E 0 k j i * bcurl h B 0 k j i + E 1 k j i * bcurl h B 1 k j i + E 2 k j i * bcurl h B 2 k j i)) := by
      rw [psum_mul]
      congr 1
      show ip N is js ks (bcurl h B 0) (E 0) + ip N is js ks (bcurl h B 1) (E 1) + ip N is js ks (bcurl h B 2) (E 2) = _
      unfold ip
      rw [← psum_add, ← psum_add]
      congr 1; funext k j i; ring
    rw [e1, e2]
    exact psum_le hd
  have hE0 : 0 ≤ sq3 N is js ks E := add_nonneg (add_nonneg (psum_nonneg fun _ _ _ => mul_self_nonneg _) (psum_nonneg fun _ _ _ => mul_self_nonneg _))
    (psum_nonneg fun _ _ _ => mul_self_nonneg _)
  have hP' : ip N is js ks (B 0) (fcurl h E 0) + ip N is js ks (B 1) (fcurl h E 1) + ip N is js ks (B 2) (fcurl h E 2) = P := cp
  have hP0 : eta = 0 ∨ 0 ≤ P := by
    rcases h0.eq_or_lt with e | e
    · exact Or.inl e.symm
    · right
      by_contra hn
      push Not at hn
      nlinarith
  -- combine
  have key : dt ^ 2 * (4 * (h 0 ^ 2 + h 1 ^ 2 + h 2 ^ 2) * sq3 N is js ks E) ≤ 2 * dt * P := by
    have h2 : 0 ≤ h 0 ^ 2 + h 1 ^ 2 + h 2 ^ 2 := by positivity
    rcases hP0 with e | hP0
    · rw [e, zero_mul] at hP
      have z : sq3 N is js ks E = 0 := le_antisymm hP hE0
      have zE : ∀ t, ip N is js ks (E t) (E t) = 0 := by
        have n := fun t => (psum_nonneg (N := N) (is := is) (js := js) (ks := ks) (f := fun k j i => E t k j i * E t k j i) fun _ _ _ => mul_self_nonneg _)
        intro t
        unfold sq3 at z
        rcases three t with rfl | rfl | rfl <;> linarith [n 0, n 1, n 2]
      -- the curl of E vanishes as well, so there is no change at all
      have zc : ip N is js ks (fcurl h E 0) (fcurl h E 0) + ip N is js ks (fcurl h E 1) (fcurl h E 1) + ip N is js ks (fcurl h E 2) (fcurl h E 2) ≤ 0 := by
        rw [show ip N is js ks (E 0) (E 0) + ip N is js ks (E 1) (E 1) + ip N is js ks (E 2) (E 2) = 0 from z, mul_zero] at cb
        exact cb
      have zP : P = 0 := by
        have nn : ∀ t, ∀ c ∈ Finset.range (N 2), ∀ b ∈ Finset.range (N 1), ∀ a ∈ Finset.range (N 0), E t (ks + c) (js + b) (is + a) = 0 := by
          intro t c hc b hb a ha'
          have := zE t
          unfold ip psum zsum at this
          have s1 := (Finset.sum_eq_zero_iff_of_nonneg (fun x _ => Finset.sum_nonneg fun y _ => Finset.sum_nonneg fun z _ => mul_self_nonneg _)).1 this c hc
          have s2 := (Finset.sum_eq_zero_iff_of_nonneg (fun y _ => Finset.sum_nonneg fun z _ => mul_self_nonneg _)).1 s1 b hb
          have s3 := (Finset.sum_eq_zero_iff_of_nonneg (fun z _ => mul_self_nonneg _)).1 s2 a ha'
          exact mul_self_eq_zero.1 s3
        have ze : ∀ t, ip N is js ks (bcurl h B t) (E t) = 0 := by
          intro t
          unfold ip psum zsum
          refine Finset.sum_eq_zero fun c hc => Finset.sum_eq_zero fun b hb => Finset.sum_eq_zero fun a ha' => ?_
          show bcurl h B t _ _ _ * E t (ks + c) (js + b) (is + a) = 0
          rw [nn t c hc b hb a ha', mul_zero]
        show ip N is js ks (bcurl h B 0) (E 0) + ip N is js ks (bcurl h B 1) (E 1) + ip N is js ks (bcurl h B 2) (E 2) = 0
        rw [ze, ze, ze]; ring
      rw [z, zP]; simp
    · calc dt ^ 2 * (4 * (h 0 ^ 2 + h 1 ^ 2 + h 2 ^ 2) * sq3 N is js ks E)
          ≤ dt ^ 2 * (4 * (h 0 ^ 2 + h 1 ^ 2 + h 2 ^ 2) * (eta * P)) := by gcongr
        _ = 2 * dt * P * (2 * eta * dt * (h 0 ^ 2 + h 1 ^ 2 + h 2 ^ 2)) := by ring
        _ ≤ 2 * dt * P * 1 := by
          apply mul_le_mul_of_nonneg_left hs
          positivity
        _ = 2 * dt * P := by ring
  have k2 : dt ^ 2 * (ip N is js ks (fcurl h E 0) (fcurl h E 0) + ip N is js ks (fcurl h E 1) (fcurl h E 1) + ip N is js ks (fcurl h E 2) (fcurl h E 2))
      ≤ 2 * dt * P := (mul_le_mul_of_nonneg_left cb (sq_nonneg dt)).trans key
  have k3 : 2 * dt * _ = 2 * dt * P := congrArg (fun x => 2 * dt * x) hP'
  linarith

end Curl
end Athena.Micro
