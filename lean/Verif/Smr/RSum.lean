import Verif.Smr.RAll
import Mathlib.Algebra.BigOperators.Ring.Finset
import Mathlib.Algebra.BigOperators.Fin
import Mathlib.Algebra.BigOperators.Intervals
import Mathlib.Order.Interval.Finset.Basic
import Mathlib.Data.Int.Interval
import Mathlib.Tactic.FieldSimp
import Mathlib.Tactic.LinearCombination
import Mathlib.Algebra.CharP.Defs
import Mathlib.Algebra.CharZero.Defs

/-!
# Sums over zones and faces
-/

namespace Athena.Smr

variable {R : Type*} [Field R] {nf : Nat}

open Child (normal)

/-! ## Specification: zones and faces of a box as finite sets -/

/-- The zones of a box. -/
def zonesF (b : Box) : Finset Z3 := Finset.Icc b.ks b.ke ×ˢ (Finset.Icc b.js b.je ×ˢ Finset.Icc b.is b.ie)

/-- First and last index of a box in direction `m`. -/
def Box.lo (b : Box) (m : Fin 3) : ℤ := if m = 0 then b.is else if m = 1 then b.js else b.ks
/-- Last index of a box in direction `m`. -/
def Box.hi (b : Box) (m : Fin 3) : ℤ := if m = 0 then b.ie else if m = 1 then b.je else b.ke

/-- The transverse indices of the faces of a box normal to `m`: `(k,j)`, `(k,i)`, `(j,i)`. -/
def faceF (b : Box) (m : Fin 3) : Finset (ℤ × ℤ) :=
  if m = 0 then Finset.Icc b.ks b.ke ×ˢ Finset.Icc b.js b.je
  else if m = 1 then Finset.Icc b.ks b.ke ×ˢ Finset.Icc b.is b.ie
  else Finset.Icc b.js b.je ×ˢ Finset.Icc b.is b.ie

/-- The zone (or face) with transverse indices `x` and index `t` in direction `m`. -/
def put (m : Fin 3) (x : ℤ × ℤ) (t : ℤ) : Z3 :=
  if m = 0 then (x.1, x.2, t) else if m = 1 then (x.1, t, x.2) else (t, x.1, x.2)

/-! ## Lemmas -/

theorem mem_zonesF {b : Box} {z : Z3} : z ∈ zonesF b ↔
    (b.ks ≤ z.1 ∧ z.1 ≤ b.ke) ∧ (b.js ≤ z.2.1 ∧ z.2.1 ≤ b.je) ∧ (b.is ≤ z.2.2 ∧ z.2.2 ≤ b.ie) := by
  simp [zonesF]

theorem mem_zones {p : Parent R nf} {z : Z3} : z ∈ p.zones ↔ z ∈ zonesF p.box := by
  rw [mem_zonesF]
  unfold Parent.zones
  rw [List.mem_product, List.mem_product, mem_rng, mem_rng, mem_rng]

theorem mem_faceZ {p : Parent R nf} {m : Fin 3} {x : ℤ × ℤ} : x ∈ faceZ p m ↔ x ∈ faceF p.box m := by
  unfold faceZ faceF Parent.tb
  rw [List.mem_product, mem_rng, mem_rng]
  rcases (by omega : m = 0 ∨ m = 1 ∨ m = 2) with rfl | rfl | rfl <;> simp

theorem faceZ_toFinset (p : Parent R nf) (m : Fin 3) : (faceZ p m).toFinset = faceF p.box m := by
  ext x; rw [List.mem_toFinset, mem_faceZ]

theorem sum_filter_list {α : Type*} (l : List α) (q : α → Prop) [DecidablePred q] (f : α → R) :
    ((l.filter fun x => q x).map f).sum = (l.map fun x => if q x then f x else 0).sum := by
  induction l with
  | nil => rfl
  | cons a l ih =>
    by_cases h : q a
    · rw [List.filter_cons_of_pos (by simpa using h)]; simp [h, ih]
    · rw [List.filter_cons_of_neg (by simpa using h)]; simp [h, ih]

/-- The correction of one boundary, as a sum over its faces. -/
theorem corrAt_sum {c : Child R nf} {p : Parent R nf} (hv : p.vs.Nodup) (d : Fin 6) (F G : ℤ → ℤ → Var nf → R)
    (hF : p.flx d = some F) (hG : c.flx d = some G) (z : Z3) (v : Var nf) (hm : v ∈ p.vs) :
    corrAt c p d (z, v) =
      ∑ x ∈ faceF p.box (normal d), if p.outside d x = z then fluxDelta p d F G (x, v) else 0 := by
  unfold corrAt
  rw [hF, hG]
  dsimp only
  rw [sum_filter_list, ← List.sum_toFinset _ ((nodup_faceZ p _).product hv)]
  have : (faceZ p (normal d) ×ˢ p.vs).toFinset = faceF p.box (normal d) ×ˢ p.vs.toFinset := by
    ext ⟨x, w⟩
    rw [List.mem_toFinset, List.mem_product, mem_faceZ, Finset.mem_product, List.mem_toFinset]
  rw [this, Finset.sum_product]
  apply Finset.sum_congr rfl
  intro x _
  rw [Finset.sum_eq_single v]
  · simp
  · intro w _ hw
    rw [if_neg]
    simp [hw]
  · intro h; exact absurd (List.mem_toFinset.2 hm) h

theorem corrAt_none {c : Child R nf} {p : Parent R nf} (d : Fin 6) (hF : p.flx d = none) (y : Z3 × Var nf) :
    corrAt c p d y = 0 := by
  unfold corrAt; rw [hF]

/-- Zones of the overlap are not outside it. -/
theorem outside_not_mem (p : Parent R nf) (d : Fin 6) (x : ℤ × ℤ) : p.outside d x ∉ zonesF p.box := by
  rw [mem_zonesF]
  rcases six d with rfl | rfl | rfl | rfl | rfl | rfl <;>
    simp [Parent.outside] <;> omega

theorem corrAt_box {c : Child R nf} {p : Parent R nf} (h : Match c p) (d : Fin 6) {z : Z3} (hz : z ∈ zonesF p.box)
    (v : Var nf) : corrAt c p d (z, v) = 0 := by
  by_cases hv : v ∈ p.vs
  · cases hF : p.flx d with
    | none => exact corrAt_none d hF _
    | some F =>
      obtain ⟨G, hG⟩ := isSome_eq (h.side d) hF
      rw [corrAt_sum h.nodup d F G hF hG z v hv]
      apply Finset.sum_eq_zero
      intro x _
      rw [if_neg]
      rintro rfl
      exact outside_not_mem p d x hz
  · unfold corrAt
    cases hF : p.flx d with
    | none => rfl
    | some F =>
      cases hG : c.flx d with
      | none => rfl
      | some G =>
        dsimp only
        rw [List.filter_eq_nil_iff.2]
        · simp
        · rintro ⟨x, w⟩ hx e
          simp only [decide_eq_true_eq, Prod.mk.injEq] at e
          rw [List.mem_product] at hx
          exact hv (e.2 ▸ hx.2)

/-! ## Telescoping -/

theorem tele1 (g : ℤ → R) (a b : ℤ) (h : a ≤ b + 1) : ∑ i ∈ Finset.Icc a b, (g (i+1) - g i) = g (b+1) - g a := by
  obtain ⟨n, hn⟩ : ∃ n : ℕ, b + 1 = a + n := ⟨(b + 1 - a).toNat, by omega⟩
  induction n generalizing b with
  | zero =>
    rw [Finset.Icc_eq_empty (by omega), Finset.sum_empty, show b + 1 = a by simpa using hn, sub_self]
  | succ n ih =>
    have e : Finset.Icc a b = insert b (Finset.Icc a (b-1)) := by
      ext i; simp only [Finset.mem_Icc, Finset.mem_insert]; push_cast at hn; omega
    rw [e, Finset.sum_insert (by simp), ih (b-1) (by push_cast at hn; omega) (by push_cast at hn ⊢; omega)]
    rw [show b - 1 + 1 = b by ring]; ring

/-- The sum of the differences over the zones of a box is the difference at its ends. -/
theorem tele3 (m : Fin 3) (g : Z3 → R) (b : Box) (h : b.lo m ≤ b.hi m + 1) :
    ∑ z ∈ zonesF b, (g (Parent.nextF m z) - g z) =
      ∑ x ∈ faceF b m, (g (put m x (b.hi m + 1)) - g (put m x (b.lo m))) := by
  rcases (by omega : m = 0 ∨ m = 1 ∨ m = 2) with rfl | rfl | rfl
  · simp only [zonesF, faceF, if_true, Finset.sum_product, put, Parent.nextF]
    apply Finset.sum_congr rfl; intro k _
    apply Finset.sum_congr rfl; intro j _
    exact tele1 (fun i => g (k, j, i)) _ _ h
  · simp only [zonesF, faceF, if_true, Finset.sum_product, put, Parent.nextF, show (1 : Fin 3) ≠ 0 by decide, if_false]
    apply Finset.sum_congr rfl; intro k _
    rw [Finset.sum_comm]
    apply Finset.sum_congr rfl; intro i _
    exact tele1 (fun j => g (k, j, i)) _ _ h
  · simp only [zonesF, faceF, Finset.sum_product, put, Parent.nextF, show (2 : Fin 3) ≠ 0 by decide,
      show (2 : Fin 3) ≠ 1 by decide, if_false]
    rw [Finset.sum_comm]
    apply Finset.sum_congr rfl; intro j _
    rw [Finset.sum_comm]
    apply Finset.sum_congr rfl; intro i _
    exact tele1 (fun k => g (k, j, i)) _ _ h

/-! ## Fine zones in coarse zones -/

/-- Sum over the fine zones of a range, grouped by coarse zones. -/
theorem group1 (g : ℤ → R) {a b c d : ℤ} (r : Bool)
    (h : (r = true ∧ b - a + 1 = 2*(d - c + 1) ∧ c ≤ d + 1) ∨ (r = false ∧ a = b ∧ c = d)) :
    ∑ i ∈ Finset.Icc a b, g i = ∑ i ∈ Finset.Icc c d, ((offs r).map fun o => g (a + 2*(i - c) + o)).sum := by
  rcases h with ⟨rfl, h1, h2⟩ | ⟨rfl, rfl, rfl⟩
  · obtain ⟨n, hn⟩ : ∃ n : ℕ, d + 1 = c + n := ⟨(d + 1 - c).toNat, by omega⟩
    induction n generalizing b d with
    | zero => rw [Finset.Icc_eq_empty (by push_cast at hn; omega), Finset.Icc_eq_empty (by push_cast at hn; omega)]; rfl
    | succ n ih =>
      have e : Finset.Icc c d = insert d (Finset.Icc c (d-1)) := by
        ext i; simp only [Finset.mem_Icc, Finset.mem_insert]; push_cast at hn; omega
      have e' : Finset.Icc a b = insert b (insert (b-1) (Finset.Icc a (b-2))) := by
        ext i; simp only [Finset.mem_Icc, Finset.mem_insert]; push_cast at hn; omega
      rw [e, e', Finset.sum_insert (by simp only [Finset.mem_insert, Finset.mem_Icc]; omega),
        Finset.sum_insert (by simp only [Finset.mem_Icc]; omega), Finset.sum_insert (by simp),
        ih (b := b-2) (d := d-1) (by omega) (by push_cast at hn; omega) (by push_cast at hn ⊢; omega)]
      simp only [offs, if_true, List.map_cons, List.map_nil, List.sum_cons, List.sum_nil, add_zero]
      rw [show a + 2*(d - c) = b - 1 by omega, show b - 1 + 1 = b by ring]
      ring
  · simp [offs]

theorem Match.g1 {c : Child R nf} {p : Parent R nf} (h : Match c p) :
    (true = true ∧ c.box.ie - c.box.is + 1 = 2*(p.box.ie - p.box.is + 1) ∧ p.box.is ≤ p.box.ie + 1) ∨
      (true = false ∧ c.box.is = c.box.ie ∧ p.box.is = p.box.ie) := Or.inl ⟨rfl, h.x1⟩
theorem Match.g2 {c : Child R nf} {p : Parent R nf} (h : Match c p) :
    (decide (2 ≤ p.nDim) = true ∧ c.box.je - c.box.js + 1 = 2*(p.box.je - p.box.js + 1) ∧ p.box.js ≤ p.box.je + 1) ∨
      (decide (2 ≤ p.nDim) = false ∧ c.box.js = c.box.je ∧ p.box.js = p.box.je) := by
  by_cases hd : 2 ≤ p.nDim
  · exact Or.inl ⟨by simpa using hd, h.x2 hd⟩
  · have := h.x2' (by omega); exact Or.inr ⟨by simpa using hd, by omega, this.2.2⟩
theorem Match.g3 {c : Child R nf} {p : Parent R nf} (h : Match c p) :
    (decide (3 ≤ p.nDim) = true ∧ c.box.ke - c.box.ks + 1 = 2*(p.box.ke - p.box.ks + 1) ∧ p.box.ks ≤ p.box.ke + 1) ∨
      (decide (3 ≤ p.nDim) = false ∧ c.box.ks = c.box.ke ∧ p.box.ks = p.box.ke) := by
  by_cases hd : 3 ≤ p.nDim
  · exact Or.inl ⟨by simpa using hd, h.x3 hd⟩
  · have := h.x3' (by omega); exact Or.inr ⟨by simpa using hd, by omega, this.2.2⟩

theorem sum_offs (r : Bool) (f : ℤ → R) : ((offs r).map f).sum = f 0 + if r then f 1 else 0 := by
  cases r <;> simp [offs]

/-- Sum over all fine zones of the overlap, grouped by coarse zones. -/
theorem group3 {c : Child R nf} {p : Parent R nf} (h : Match c p) (g : Z3 → R) :
    ∑ y ∈ zonesF c.box, g y = ∑ z ∈ zonesF p.box, ((covered c p z).map g).sum := by
  simp only [zonesF, Finset.sum_product]
  rw [group1 _ _ h.g3]
  apply Finset.sum_congr rfl; intro k _
  rw [sum_offs]
  simp only [group1 _ _ h.g2, group1 _ _ h.g1]
  have e : ∀ j i, ((covered c p (k, j, i)).map g).sum =
    ((offs (3 ≤ p.nDim)).map fun o => ((offs (2 ≤ p.nDim)).map fun o' => ((offs true).map fun o'' =>
      g (c.box.ks + 2*(k - p.box.ks) + o, c.box.js + 2*(j - p.box.js) + o', c.box.is + 2*(i - p.box.is) + o'')).sum).sum).sum := by
    intro j i
    unfold covered
    rw [List.map_map]
    by_cases h2 : 2 ≤ p.nDim <;> by_cases h3 : 3 ≤ p.nDim <;> simp [offs, h2, h3, add_assoc]
  simp only [e]
  rw [show (if decide (3 ≤ p.nDim) = true then
      ∑ x ∈ Finset.Icc p.box.js p.box.je, ((offs (decide (2 ≤ p.nDim))).map fun o =>
        ∑ x_1 ∈ Finset.Icc p.box.is p.box.ie, ((offs true).map fun o_1 =>
          g (c.box.ks + 2 * (k - p.box.ks) + 1, c.box.js + 2 * (x - p.box.js) + o,
            c.box.is + 2 * (x_1 - p.box.is) + o_1)).sum).sum else 0) =
      ∑ x ∈ Finset.Icc p.box.js p.box.je, if decide (3 ≤ p.nDim) = true then ((offs (decide (2 ≤ p.nDim))).map fun o =>
        ∑ x_1 ∈ Finset.Icc p.box.is p.box.ie, ((offs true).map fun o_1 =>
          g (c.box.ks + 2 * (k - p.box.ks) + 1, c.box.js + 2 * (x - p.box.js) + o,
            c.box.is + 2 * (x_1 - p.box.is) + o_1)).sum).sum else 0 by split_ifs <;> simp]
  rw [← Finset.sum_add_distrib]
  apply Finset.sum_congr rfl; intro j _
  by_cases h2 : 2 ≤ p.nDim <;> by_cases h3 : 3 ≤ p.nDim <;>
    simp only [sum_offs, h2, h3, decide_true, decide_false, if_true, if_false, Bool.false_eq_true, add_zero, Finset.sum_add_distrib]

/-- Which transverse directions of a boundary normal to `m` are refined. -/
theorem group2 {a b c d a' b' c' d' : ℤ} (r r' : Bool)
    (h : (r = true ∧ b - a + 1 = 2*(d - c + 1) ∧ c ≤ d + 1) ∨ (r = false ∧ a = b ∧ c = d))
    (h' : (r' = true ∧ b' - a' + 1 = 2*(d' - c' + 1) ∧ c' ≤ d' + 1) ∨ (r' = false ∧ a' = b' ∧ c' = d'))
    (g : ℤ × ℤ → R) :
    ∑ y ∈ Finset.Icc a b ×ˢ Finset.Icc a' b', g y = ∑ x ∈ Finset.Icc c d ×ˢ Finset.Icc c' d',
      ((offs r ×ˢ offs r').map fun o => g (a + (2*(x.1 - c) + o.1), a' + (2*(x.2 - c') + o.2))).sum := by
  simp only [Finset.sum_product]
  rw [group1 _ _ h]
  apply Finset.sum_congr rfl; intro k _
  simp only [group1 _ _ h', ← add_assoc]
  cases r <;> cases r' <;> simp [offs, Finset.sum_add_distrib, add_assoc]

/-- First transverse indices of the faces of a box. -/
def Box.org (b : Box) (m : Fin 3) : ℤ × ℤ := if m = 0 then (b.ks, b.js) else if m = 1 then (b.ks, b.is) else (b.js, b.is)

/-- Sum over the fine faces of a boundary, grouped by coarse faces. -/
theorem groupF {c : Child R nf} {p : Parent R nf} (h : Match c p) (m : Fin 3) (hm : m.val < p.nDim) (g : ℤ × ℤ → R) :
    ∑ y ∈ faceF c.box m, g y = ∑ x ∈ faceF p.box m,
      ((coveredFace p m x).map fun y => g ((c.box.org m).1 + y.1, (c.box.org m).2 + y.2)).sum := by
  unfold coveredFace Box.org
  rcases (by omega : m = 0 ∨ m = 1 ∨ m = 2) with rfl | rfl | rfl
  · simp only [faceF, Parent.tb, if_true, List.map_map, show (0 : Fin 3) ≠ 2 by decide, if_false]
    exact group2 _ _ h.g3 h.g2 g
  · simp only [faceF, Parent.tb, if_true, List.map_map, show (1 : Fin 3) ≠ 2 by decide,
      show (1 : Fin 3) ≠ 0 by decide, if_false]
    exact group2 _ _ h.g3 h.g1 g
  · have hD : p.nDim = 3 := by have := h.dim3; simp at hm; omega
    have hh := h.g2
    rw [show decide (2 ≤ p.nDim) = true by simp; omega] at hh
    simp only [faceF, Parent.tb, if_true, List.map_map, show (2 : Fin 3) ≠ 0 by decide,
      show (2 : Fin 3) ≠ 1 by decide, if_false]
    exact group2 _ _ hh h.g1 g

theorem length_covered (c : Child R nf) (p : Parent R nf) (h1 : 1 ≤ p.nDim) (h3 : p.nDim ≤ 3) (z : Z3) :
    (covered c p z).length = 2^p.nDim := by
  rcases (by omega : p.nDim = 1 ∨ p.nDim = 2 ∨ p.nDim = 3) with h | h | h <;>
    simp [covered, offs, h]

theorem length_coveredFace (p : Parent R nf) (h3 : p.nDim ≤ 3) (m : Fin 3) (hm : m.val < p.nDim) (x : ℤ × ℤ) :
    2 * (coveredFace p m x).length = 2^p.nDim := by
  rcases (by omega : m = 0 ∨ m = 1 ∨ m = 2) with rfl | rfl | rfl <;>
    rcases (by omega : p.nDim = 1 ∨ p.nDim = 2 ∨ p.nDim = 3) with h | h | h <;>
    simp [coveredFace, offs, h] at hm ⊢

end Athena.Smr
