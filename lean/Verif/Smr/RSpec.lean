import Verif.Smr.RLemmas
import Mathlib.Algebra.BigOperators.Group.List.Basic

/-!
# Specification of restriction

What has to be sent and stored: averages over the fine zones (or faces) covered by a coarse one.
-/

namespace Athena.Smr

variable {R : Type*} [Field R] {nf : Nat}

/-- Mean value of `u` over a list of places. -/
def avg {α : Type*} (u : α → R) (l : List α) : R := (l.map u).sum / (l.length : R)

/-- A refined direction has two fine zones in a coarse one, a direction that is not resolved has one. -/
def offs (refined : Bool) : List ℤ := if refined then [0, 1] else [0]

/-- The two descriptions of an overlap agree: the child Grid (`PGrid` entry) and the parent Grid (`CGrid` entry)
have the same options, the box of the child has twice as many zones in each refined direction, and boundaries
with stored fluxes are the same.  (`0` is the index of the only zone in a direction that is not resolved.) -/
structure Match (c : Child R nf) (p : Parent R nf) : Prop where
  dim : c.nDim = p.nDim
  dim1 : 1 ≤ p.nDim
  dim3 : p.nDim ≤ 3
  mhd : c.mhd = p.mhd
  vs : c.vs = p.vs
  nodup : p.vs.Nodup
  x1 : c.box.ie - c.box.is + 1 = 2*(p.box.ie - p.box.is + 1) ∧ p.box.is ≤ p.box.ie + 1
  x2 : 2 ≤ p.nDim → c.box.je - c.box.js + 1 = 2*(p.box.je - p.box.js + 1) ∧ p.box.js ≤ p.box.je + 1
  x2' : p.nDim < 2 → c.box.js = 0 ∧ c.box.je = 0 ∧ p.box.js = p.box.je
  x3 : 3 ≤ p.nDim → c.box.ke - c.box.ks + 1 = 2*(p.box.ke - p.box.ks + 1) ∧ p.box.ks ≤ p.box.ke + 1
  x3' : p.nDim < 3 → c.box.ks = 0 ∧ c.box.ke = 0 ∧ p.box.ks = p.box.ke
  side : ∀ d, (c.flx d).isSome = (p.flx d).isSome
  sideDim : ∀ d, (p.flx d).isSome → d.val < 2 * p.nDim

/-- The fine zones in the coarse zone `z` of the overlap. -/
def covered (c : Child R nf) (p : Parent R nf) (z : Z3) : List Z3 :=
  (offs (3 ≤ p.nDim) ×ˢ (offs (2 ≤ p.nDim) ×ˢ offs true)).map fun o =>
    (c.box.ks + 2*(z.1 - p.box.ks) + o.1, c.box.js + 2*(z.2.1 - p.box.js) + o.2.1,
      c.box.is + 2*(z.2.2 - p.box.is) + o.2.2)

/-- Indices (in the arrays of fluxes of the child) of the fine faces in the coarse face `(a,b)` of a boundary
normal to `m`. -/
def coveredFace (p : Parent R nf) (m : Fin 3) (x : ℤ × ℤ) : List (ℤ × ℤ) :=
  let t := p.tb m
  (offs (if m = 2 then true else 3 ≤ p.nDim) ×ˢ offs (if m = 0 then 2 ≤ p.nDim else true)).map fun o =>
    (2*(x.1 - t.1.1) + o.1, 2*(x.2 - t.2.1) + o.2)

/-- The faces of the overlap on a boundary normal to `m`. -/
def faceZ (p : Parent R nf) (m : Fin 3) : List (ℤ × ℤ) :=
  rng (p.tb m).1.1 (p.tb m).1.2 ×ˢ rng (p.tb m).2.1 (p.tb m).2.2

/-- The word for a zone and a variable. -/
def consW (c : Child R nf) (p : Parent R nf) (x : Z3 × Var nf) : R := avg (fun y => c.g.U (y, x.2)) (covered c p x.1)

/-- The word for a face and a variable. -/
def flxW (p : Parent R nf) (m : Fin 3) (F : ℤ → ℤ → Var nf → R) (x : (ℤ × ℤ) × Var nf) : R :=
  avg (fun y => F y.1 y.2 x.2) (coveredFace p m x.1)

namespace Match
variable {c : Child R nf} {p : Parent R nf} (h : Match c p)
include h

theorem c1 : Covers c.box.is c.box.ie p.box.is p.box.ie := Or.inl h.x1
theorem c2 : Covers c.box.js c.box.je p.box.js p.box.je := by
  by_cases hd : 2 ≤ p.nDim
  · exact Or.inl (h.x2 hd)
  · have := h.x2' (by omega); exact Or.inr ⟨by omega, this.2.2⟩
theorem c3 : Covers c.box.ks c.box.ke p.box.ks p.box.ke := by
  by_cases hd : 3 ≤ p.nDim
  · exact Or.inl (h.x3 hd)
  · have := h.x3' (by omega); exact Or.inr ⟨by omega, this.2.2⟩

end Match

theorem zipWith_map_map {α β : Type*} (l : List α) (f g : α → β) (op : β → β → β) :
    List.zipWith op (l.map f) (l.map g) = l.map fun x => op (f x) (g x) := by
  induction l with
  | nil => rfl
  | cons a l ih => simp [ih]

theorem scale_map {α : Type*} (l : List α) (f : α → R) (n : ℤ) (fact : R) (h : n = l.length) :
    scale n fact (l.map f) = some (l.map fun x => f x * fact) := by
  subst h
  unfold scale seek
  rw [if_pos (by simp)]
  simp only [Int.toNat_natCast, Option.map_some]
  rw [List.take_of_length_le (by simp), List.map_map]
  rfl

theorem length_product' {α β : Type*} (l : List α) (m : List β) : (l ×ˢ m).length = l.length * m.length :=
  List.length_product l m

theorem consIdx_eq {c : Child R nf} {p : Parent R nf} (h : Match c p) :
    c.consIdx = (p.zones ×ˢ p.vs).map fun x =>
      ((fine c.box.ks p.box.ks x.1.1, fine c.box.js p.box.js x.1.2.1, fine c.box.is p.box.is x.1.2.2), x.2) := by
  unfold Child.consIdx Parent.zones
  rw [rng2_eq h.c1, rng2_eq h.c2, rng2_eq h.c3, map_product, map_product, map_product_left, h.vs]
  rfl

theorem nCons_eq {c : Child R nf} {p : Parent R nf} (h : Match c p) :
    c.nCons = ((p.zones ×ˢ p.vs).length : ℤ) := by
  have e1 := h.x1
  have hl : ((p.zones ×ˢ p.vs).length : ℤ) = (p.box.ke + 1 - p.box.ks).toNat * ((p.box.je + 1 - p.box.js).toNat *
      (p.box.ie + 1 - p.box.is).toNat) * (p.vs.length : ℤ) := by
    rw [length_product', Parent.zones, length_product', length_product', length_rng, length_rng, length_rng]
    push_cast; ring
  rw [hl, Child.nCons, h.vs, h.dim]
  have d1 := h.dim1
  have d3 := h.dim3
  rw [show ((p.box.ie + 1 - p.box.is).toNat : ℤ) = p.box.ie - p.box.is + 1 by omega, e1.1]
  rcases (by omega : p.nDim = 1 ∨ p.nDim = 2 ∨ p.nDim = 3) with hd | hd | hd
  · have e2 := h.x2' (by omega)
    have e3 := h.x3' (by omega)
    simp only [hd]
    rw [show ((p.box.je + 1 - p.box.js).toNat : ℤ) = 1 by omega, show ((p.box.ke + 1 - p.box.ks).toNat : ℤ) = 1 by omega]
    rw [if_neg (by decide), if_neg (by decide)]
    rw [show 2 * (p.box.ie - p.box.is + 1) * (p.vs.length : ℤ) = ((p.box.ie - p.box.is + 1) * (p.vs.length : ℤ)) * 2 by ring,
      Int.mul_ediv_cancel _ (by decide)]
    ring
  · have e2 := h.x2 (by omega)
    have e3 := h.x3' (by omega)
    simp only [hd]
    rw [show ((p.box.je + 1 - p.box.js).toNat : ℤ) = p.box.je - p.box.js + 1 by omega,
      show ((p.box.ke + 1 - p.box.ks).toNat : ℤ) = 1 by omega]
    rw [if_neg (by decide), if_pos trivial, e2.1]
    rw [show 2 * (p.box.je - p.box.js + 1) * (2 * (p.box.ie - p.box.is + 1)) * (p.vs.length : ℤ) =
      ((p.box.je - p.box.js + 1) * (p.box.ie - p.box.is + 1) * (p.vs.length : ℤ)) * 4 by ring,
      Int.mul_ediv_cancel _ (by decide)]
    ring
  · have e2 := h.x2 (by omega)
    have e3 := h.x3 (by omega)
    simp only [hd]
    rw [show ((p.box.je + 1 - p.box.js).toNat : ℤ) = p.box.je - p.box.js + 1 by omega,
      show ((p.box.ke + 1 - p.box.ks).toNat : ℤ) = p.box.ke - p.box.ks + 1 by omega]
    rw [if_pos trivial, e2.1, e3.1]
    rw [show 2 * (p.box.ke - p.box.ks + 1) * (2 * (p.box.je - p.box.js + 1)) * (2 * (p.box.ie - p.box.is + 1)) * (p.vs.length : ℤ) =
      ((p.box.ke - p.box.ks + 1) * (p.box.je - p.box.js + 1) * (p.box.ie - p.box.is + 1) * (p.vs.length : ℤ)) * 8 by ring,
      Int.mul_ediv_cancel _ (by decide)]
    ring

/-- The first part of the message: for each zone and variable the mean value over the fine zones. -/
theorem sendCons_eq {c : Child R nf} {p : Parent R nf} (h : Match c p) :
    c.sendCons = some ((p.zones ×ˢ p.vs).map (consW c p)) := by
  have d1 := h.dim1
  have d3 := h.dim3
  unfold Child.sendCons
  dsimp only
  rw [consIdx_eq h, h.dim]
  simp only [List.map_map, zipWith_map_map]
  rcases (by omega : p.nDim = 1 ∨ p.nDim = 2 ∨ p.nDim = 3) with hd | hd | hd
  · have e2 := h.x2' (by omega)
    simp only [hd, show ¬ (2 ≤ 1) by decide, show ¬ (3 ≤ 1) by decide, if_false]
    rw [scale_map _ _ _ _ (nCons_eq h)]
    congr 1
    apply List.map_congr_left
    intro x _
    simp only [consW, avg, covered, offs, hd, fine, Function.comp]
    simp [List.product_cons]
    ring
  · simp only [hd, show (2 ≤ 2) by decide, show ¬ (3 ≤ 2) by decide, if_false, if_true, zipWith_map_map]
    rw [scale_map _ _ _ _ (nCons_eq h)]
    congr 1
    apply List.map_congr_left
    intro x _
    simp only [consW, avg, covered, offs, hd, fine, Function.comp]
    simp [List.product_cons]
    ring
  · simp only [hd, show (2 ≤ 3) by decide, show (3 ≤ 3) by decide, if_true, zipWith_map_map]
    rw [scale_map _ _ _ _ (nCons_eq h)]
    congr 1
    apply List.map_congr_left
    intro x _
    simp only [consW, avg, covered, offs, hd, fine, Function.comp]
    simp [List.product_cons]
    ring

end Athena.Smr
